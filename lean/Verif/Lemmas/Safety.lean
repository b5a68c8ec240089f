import Verif.Props.SafetySpec
import Verif.Lemmas.WellTyped

/-!
# Bounds invariants that need no trait laws
-/

namespace Frozen.Model

open Frozen.Spec Frozen.Props

variable {T B Q K V : Type}

theorem NoUb.ok {α : Type} (x : α) : NoUb (.ok x : Res α) := fun _ h => nomatch h

theorem NoUb.bind {α β : Type} {r : Res α} {f : α → Res β} (h : NoUb r) (hf : ∀ x, r = .ok x → NoUb (f x)) :
    NoUb (r >>= f) := by
  cases r with
  | error e =>
    intro w hw
    exact h w (by simpa [Bind.bind, Except.bind] using hw)
  | ok x => exact hf x rfl

theorem getUnchecked_lt {α : Type} {xs : List α} {i : Nat} (h : i < xs.length) : getUnchecked xs i = .ok xs[i] := by
  unfold getUnchecked
  rw [List.getElem?_eq_getElem h]

theorem getUnchecked_inv {α : Type} {xs : List α} {i : Nat} {x : α} (h : getUnchecked xs i = .ok x) :
    i < xs.length := by
  unfold getUnchecked at h
  cases hx : xs[i]? with
  | none => rw [hx] at h; cases h
  | some y => exact (List.getElem?_eq_some_iff.mp hx).1

/-! ## Dense -/

/-- The range accepted by the guard of the lookups lies within the entries. -/
def DenseMap.Bounded (m : DenseMap K V) : Prop := m.min ≤ m.max → m.max - m.min < m.entries.length

theorem DenseMap.Bounded.safe {m : DenseMap K V} (h : m.Bounded) (qindex : Q → Nat) :
    MemSafe (DenseMap.impl qindex) m := by
  have key : ∀ q, qindex q ≥ m.min ∧ qindex q ≤ m.max → qindex q - m.min < m.entries.length := by
    intro q ⟨h1, h2⟩
    have := h (Nat.le_trans h1 h2)
    omega
  refine ⟨fun q => ?_, fun q => ?_, fun q => ?_, fun q => ?_, fun q i hi => ?_⟩
  · show NoUb (DenseMap.get qindex m q)
    unfold DenseMap.get
    split
    · rename_i hg; rw [getUnchecked_lt (key q hg)]; exact NoUb.ok _
    · exact NoUb.ok _
  · show NoUb (DenseMap.getKeyValue qindex m q)
    unfold DenseMap.getKeyValue
    split
    · rename_i hg; rw [getUnchecked_lt (key q hg)]; exact NoUb.ok _
    · exact NoUb.ok _
  · show NoUb (DenseMap.containsKey qindex m q)
    unfold DenseMap.containsKey DenseMap.get
    split
    · rename_i hg; rw [getUnchecked_lt (key q hg)]; exact NoUb.ok _
    · exact NoUb.ok _
  · show NoUb (DenseMap.getMut qindex m q)
    unfold DenseMap.getMut
    split
    · rename_i hg; rw [getUnchecked_lt (key q hg)]; exact NoUb.ok _
    · exact NoUb.ok _
  · change DenseMap.getMut qindex m q = .ok (some i) at hi
    unfold DenseMap.getMut at hi
    split at hi
    · rename_i hg
      rw [getUnchecked_lt (key q hg)] at hi
      cases hi
      exact key q hg
    · cases hi

/-! ## Sparse -/

/-- The guarded range lies within the lookup table, whose contents lie within the entries. -/
def SparseMap.Bounded (m : SparseMap K V) : Prop :=
  (m.min ≤ m.max → m.max - m.min < m.lookup.length) ∧ ∀ v ∈ m.lookup, v ≤ m.entries.length

theorem SparseMap.Bounded.safe {m : SparseMap K V} (h : m.Bounded) (qindex : Q → Nat) :
    MemSafe (SparseMap.impl qindex) m := by
  have key : ∀ q, qindex q ≥ m.min ∧ qindex q ≤ m.max →
      ∃ v, getUnchecked m.lookup (qindex q - m.min) = .ok v ∧ (v > 0 → ∃ e, getUnchecked m.entries (v - 1) = .ok e) := by
    intro q ⟨h1, h2⟩
    have hb := h.1 (Nat.le_trans h1 h2)
    have hlt : qindex q - m.min < m.lookup.length := by omega
    refine ⟨_, getUnchecked_lt hlt, fun hv => ?_⟩
    have := h.2 _ (List.getElem_mem hlt)
    exact ⟨_, getUnchecked_lt (by omega)⟩
  refine ⟨fun q => ?_, fun q => ?_, fun q => ?_, fun q => ?_, fun q i hi => ?_⟩
  · show NoUb (SparseMap.get qindex m q)
    unfold SparseMap.get
    split
    · rename_i hg
      obtain ⟨v, hv, he⟩ := key q hg
      simp only [hv, Bind.bind, Except.bind]
      split
      · rename_i hp; obtain ⟨e, he⟩ := he hp; rw [he]; exact NoUb.ok _
      · exact NoUb.ok _
    · exact NoUb.ok _
  · show NoUb (SparseMap.getKeyValue qindex m q)
    unfold SparseMap.getKeyValue
    split
    · rename_i hg
      obtain ⟨v, hv, he⟩ := key q hg
      simp only [hv, Bind.bind, Except.bind]
      split
      · rename_i hp; obtain ⟨e, he⟩ := he hp; rw [he]; exact NoUb.ok _
      · exact NoUb.ok _
    · exact NoUb.ok _
  · show NoUb (SparseMap.containsKey qindex m q)
    unfold SparseMap.containsKey SparseMap.get
    split
    · rename_i hg
      obtain ⟨v, hv, he⟩ := key q hg
      simp only [hv, Bind.bind, Except.bind]
      by_cases hp : v > 0
      · obtain ⟨e, he⟩ := he hp; simp only [if_pos hp, he]; exact NoUb.ok _
      · simp only [if_neg hp]; exact NoUb.ok _
    · exact NoUb.ok _
  · show NoUb (SparseMap.getMut qindex m q)
    unfold SparseMap.getMut
    split
    · rename_i hg
      obtain ⟨v, hv, he⟩ := key q hg
      simp only [hv, Bind.bind, Except.bind]
      split
      · rename_i hp; obtain ⟨e, he⟩ := he hp; rw [he]; exact NoUb.ok _
      · exact NoUb.ok _
    · exact NoUb.ok _
  · change SparseMap.getMut qindex m q = .ok (some i) at hi
    unfold SparseMap.getMut at hi
    split at hi
    · rename_i hg
      obtain ⟨v, hv, he⟩ := key q hg
      simp only [hv, Bind.bind, Except.bind] at hi
      split at hi
      · rename_i hp
        obtain ⟨e, he⟩ := he hp
        rw [he] at hi
        cases hi
        exact getUnchecked_inv he
      · cases hi
    · cases hi

/-! ## Eytzinger and scan -/

theorem searchLoop_lt (data : List T) (f : T → Ordering) : ∀ (n i steps j : Nat), data.length - i ≤ n →
    (searchLoop data f i steps).1 = some j → j < data.length := by
  intro n
  induction n with
  | zero =>
    intro i steps j hn h
    unfold searchLoop at h
    split at h
    · omega
    · cases h
  | succ n ih =>
    intro i steps j hn h
    unfold searchLoop at h
    split at h
    · dsimp only at h
      split at h
      · cases h; assumption
      · exact ih _ _ _ (by omega) h
    · cases h

theorem eytzingerSearchBy_lt {data : List T} {f : T → Ordering} {j : Nat} (h : eytzingerSearchBy data f = some j) :
    j < data.length := searchLoop_lt data f _ 0 0 j (Nat.le_refl _) h

theorem EytzingerMap.safe (m : EytzingerMap K V) (qcmp : Q → K → Ordering) : MemSafe (EytzingerMap.impl qcmp) m := by
  refine ⟨fun q => ?_, fun q => ?_, fun q => ?_, fun q => ?_, fun q i hi => ?_⟩
  · show NoUb (EytzingerMap.get qcmp m q)
    unfold EytzingerMap.get
    split
    · rename_i j hj; rw [getUnchecked_lt (eytzingerSearchBy_lt hj)]; exact NoUb.ok _
    · exact NoUb.ok _
  · show NoUb (EytzingerMap.getKeyValue qcmp m q)
    unfold EytzingerMap.getKeyValue
    split
    · rename_i j hj; rw [getUnchecked_lt (eytzingerSearchBy_lt hj)]; exact NoUb.ok _
    · exact NoUb.ok _
  · show NoUb (EytzingerMap.containsKey qcmp m q)
    unfold EytzingerMap.containsKey EytzingerMap.get
    split
    · rename_i j hj; rw [getUnchecked_lt (eytzingerSearchBy_lt hj)]; exact NoUb.ok _
    · exact NoUb.ok _
  · show NoUb (EytzingerMap.getMut qcmp m q)
    unfold EytzingerMap.getMut
    split
    · rename_i j hj; rw [getUnchecked_lt (eytzingerSearchBy_lt hj)]; exact NoUb.ok _
    · exact NoUb.ok _
  · change EytzingerMap.getMut qcmp m q = .ok (some i) at hi
    unfold EytzingerMap.getMut at hi
    split at hi
    · rename_i j hj
      rw [getUnchecked_lt (eytzingerSearchBy_lt hj)] at hi
      cases hi
      exact eytzingerSearchBy_lt hj
    · cases hi

theorem scanMutLoop_lt (eqv : Q → K → Bool) (key : Q) : ∀ (l : List (K × V)) (i : Nat) (r : Option Nat) (j : Nat),
    (∀ k, r = some k → k < i) → scanMutLoop eqv key l i r = some j → j < i + l.length
  | [], i, r, j, hr, h => by simpa using hr j h
  | e :: l, i, r, j, hr, h => by
    unfold scanMutLoop at h
    have := scanMutLoop_lt eqv key l (i + 1) _ j (by
      intro k hk
      split at hk
      · cases hk; omega
      · have := hr k hk; omega) h
    simp only [List.length_cons]
    omega

theorem ScanMap.safe (m : ScanMap K V) (mt : Q → K → Bool) : MemSafe (ScanMap.impl mt) m := by
  refine ⟨fun q => NoUb.ok _, fun q => NoUb.ok _, fun q => NoUb.ok _, fun q => NoUb.ok _, fun q i hi => ?_⟩
  have := scanMutLoop_lt mt q m.entries 0 none i (by simp) (by
    change Except.ok _ = Except.ok _ at hi
    exact Except.ok.inj hi)
  rw [Nat.zero_add] at this
  exact this

/-! ## Hash tables -/

/-- All slots reachable by the mask exist and denote windows of the entries. -/
def HashTable.Bounded (t : HashTable T) : Prop :=
  t.mask < t.slots.length ∧ ∀ s ∈ t.slots, s.minIndex ≤ s.maxIndex ∧ s.maxIndex ≤ t.entries.length

theorem HashTable.Bounded.findMut {t : HashTable T} (h : t.Bounded) (hc : Nat) (eq : T → Bool) :
    NoUb (t.find hc eq) ∧ NoUb (t.findMut hc eq) ∧ ∀ i, t.findMut hc eq = .ok (some i) → i < t.entries.length := by
  have hlt : hc &&& t.mask < t.slots.length := Nat.lt_of_le_of_lt Nat.and_le_right h.1
  obtain ⟨h1, h2⟩ := h.2 _ (List.getElem_mem hlt)
  unfold HashTable.find HashTable.findMut
  simp only [getUnchecked_lt hlt, Bind.bind, Except.bind]
  generalize t.slots[hc &&& t.mask] = s at h1 h2
  have hr : getUncheckedRange t.entries s.minIndex s.maxIndex =
      .ok ((t.entries.drop s.minIndex).take (s.maxIndex - s.minIndex)) := by
    unfold getUncheckedRange
    rw [if_pos ⟨h1, h2⟩]
  have hl : ((t.entries.drop s.minIndex).take (s.maxIndex - s.minIndex)).length = s.maxIndex - s.minIndex := by
    simp only [List.length_take, List.length_drop]; omega
  rw [hr]
  generalize (t.entries.drop s.minIndex).take (s.maxIndex - s.minIndex) = bucket at hl
  simp only
  rw [scanBucket_spec _ _ _ _ (by rw [hl]; omega)]
  simp only [List.drop_zero, Nat.add_zero]
  cases hf : bucket.findIdx? eq with
  | none => exact ⟨NoUb.ok _, NoUb.ok _, fun i hi => by cases hi⟩
  | some j =>
    have hj : j < bucket.length := (List.findIdx?_eq_some_iff_getElem.mp hf).1
    simp only [Option.map_some, Nat.add_zero, getUnchecked_lt hj]
    refine ⟨NoUb.ok _, NoUb.ok _, fun i hi => ?_⟩
    cases hi
    omega

theorem HashMap.safe {m : HashMap K V} (h : m.table.Bounded) {hQ : Q → Res Nat} (hh : ∀ q, NoUb (hQ q))
    (mt : Q → K → Bool) : MemSafe (HashMap.impl hQ mt) m := by
  refine ⟨fun q => ?_, fun q => ?_, fun q => ?_, fun q => ?_, fun q i hi => ?_⟩
  · exact NoUb.bind (hh q) fun x _ => NoUb.bind (h.findMut x _).1 fun _ _ => NoUb.ok _
  · exact NoUb.bind (hh q) fun x _ => NoUb.bind (h.findMut x _).1 fun _ _ => NoUb.ok _
  · exact NoUb.bind (NoUb.bind (hh q) fun x _ => NoUb.bind (h.findMut x _).1 fun _ _ => NoUb.ok _) fun _ _ => NoUb.ok _
  · exact NoUb.bind (hh q) fun x _ => (h.findMut x _).2.1
  · change HashMap.getMut hQ mt m q = .ok (some i) at hi
    unfold HashMap.getMut at hi
    cases hx : hQ q with
    | error e => rw [hx] at hi; cases hi
    | ok x =>
      rw [hx] at hi
      exact (h.findMut x _).2.2 i hi

/-- The same for the collision-free table. -/
def HashTableNC.Bounded (t : HashTableNC T) : Prop :=
  t.mask < t.slots.length ∧ ∀ v ∈ t.slots, v ≤ t.entries.length

theorem HashTableNC.Bounded.findMut {t : HashTableNC T} (h : t.Bounded) (hc : Nat) (eq : T → Bool) :
    NoUb (t.find hc eq) ∧ NoUb (t.findMut hc eq) ∧ ∀ i, t.findMut hc eq = .ok (some i) → i < t.entries.length := by
  have hlt : hc &&& t.mask < t.slots.length := Nat.lt_of_le_of_lt Nat.and_le_right h.1
  have h2 := h.2 _ (List.getElem_mem hlt)
  unfold HashTableNC.find HashTableNC.findMut
  simp only [getUnchecked_lt hlt, Bind.bind, Except.bind]
  generalize t.slots[hc &&& t.mask] = v at h2
  by_cases hv : v > 0
  · have hlt : v - 1 < t.entries.length := by omega
    simp only [if_pos hv, getUnchecked_lt hlt]
    split
    · refine ⟨NoUb.ok _, NoUb.ok _, fun i hi => ?_⟩
      cases hi
      exact hlt
    · exact ⟨NoUb.ok _, NoUb.ok _, fun i hi => by cases hi⟩
  · simp only [if_neg hv]
    exact ⟨NoUb.ok _, NoUb.ok _, fun i hi => by cases hi⟩

theorem HashMapNC.safe {m : HashMapNC K V} (h : m.table.Bounded) {hQ : Q → Res Nat} (hh : ∀ q, NoUb (hQ q))
    (mt : Q → K → Bool) : MemSafe (HashMapNC.impl hQ mt) m := by
  refine ⟨fun q => ?_, fun q => ?_, fun q => ?_, fun q => ?_, fun q i hi => ?_⟩
  · exact NoUb.bind (hh q) fun x _ => NoUb.bind (h.findMut x _).1 fun _ _ => NoUb.ok _
  · exact NoUb.bind (hh q) fun x _ => NoUb.bind (h.findMut x _).1 fun _ _ => NoUb.ok _
  · exact NoUb.bind (NoUb.bind (hh q) fun x _ => NoUb.bind (h.findMut x _).1 fun _ _ => NoUb.ok _) fun _ _ => NoUb.ok _
  · exact NoUb.bind (hh q) fun x _ => (h.findMut x _).2.1
  · change HashMapNC.getMut hQ mt m q = .ok (some i) at hi
    unfold HashMapNC.getMut at hi
    cases hx : hQ q with
    | error e => rw [hx] at hi; cases hi
    | ok x =>
      rw [hx] at hi
      exact (h.findMut x _).2.2 i hi

/-! ## Hashers -/

theorem idxRange_noUb {α : Type} (xs : List α) (lo hi : Nat) : NoUb (idxRange xs lo hi) := by
  unfold idxRange; split
  · exact NoUb.ok _
  · intro w h; cases h

theorem csub_noUb (a b : Nat) : NoUb (csub a b) := by
  unfold csub; split
  · exact NoUb.ok _
  · intro w h; cases h

theorem leftRangeHash_noUb (bh : List T → Nat) (r : Range) (v : List T) : NoUb (leftRangeHash bh r v) := by
  unfold leftRangeHash; split
  · exact NoUb.ok _
  · exact NoUb.bind (idxRange_noUb _ _ _) fun _ _ => NoUb.ok _

theorem rightRangeHash_noUb (bh : List T → Nat) (r : Range) (v : List T) : NoUb (rightRangeHash bh r v) := by
  unfold rightRangeHash; split
  · exact NoUb.ok _
  · exact NoUb.bind (csub_noUb _ _) fun _ _ => NoUb.bind (csub_noUb _ _) fun _ _ =>
      NoUb.bind (idxRange_noUb _ _ _) fun _ _ => NoUb.ok _

theorem InlineHasher.hashOne_noUb (t : QueryTraits Q K) (h : InlineHasher) (q : Q) : NoUb (h.hashOne t q) := by
  cases h with
  | bridge s => exact NoUb.ok _
  | scalar => exact NoUb.ok _
  | length => exact NoUb.ok _
  | left a b s => exact leftRangeHash_noUb (t.fixedStateSlice s) ⟨a, b⟩ (t.bytes q)
  | right a b s => exact rightRangeHash_noUb (t.fixedStateSlice s) ⟨a, b⟩ (t.bytes q)

/-! ## Inline maps -/

/-- The bounds invariant of the representation. -/
def InlineMap.Bounded (m : InlineMap K V) : Prop :=
  match m.repr with
  | .scan _ => True
  | .eytzinger _ => True
  | .dense m => m.Bounded
  | .sparse m => m.Bounded
  | .hash _ m => m.table.Bounded
  | .hashNC _ m => m.table.Bounded

theorem InlineMap.Bounded.safe {m : InlineMap K V} (h : m.Bounded) (t : QueryTraits Q K) :
    MemSafe (InlineMap.impl t) m := by
  obtain ⟨sz, r⟩ := m
  cases r with
  | scan m =>
    obtain ⟨a, b, c, d, e⟩ := ScanMap.safe m t.equivalent
    exact ⟨a, b, c, d, e⟩
  | eytzinger m =>
    obtain ⟨a, b, c, d, e⟩ := EytzingerMap.safe m t.compare
    exact ⟨a, b, c, d, e⟩
  | dense m =>
    obtain ⟨a, b, c, d, e⟩ := DenseMap.Bounded.safe h t.index
    exact ⟨a, b, c, d, e⟩
  | sparse m =>
    obtain ⟨a, b, c, d, e⟩ := SparseMap.Bounded.safe h t.index
    exact ⟨a, b, c, d, e⟩
  | hash hs m =>
    obtain ⟨a, b, c, d, e⟩ := HashMap.safe h (hs.hashOne_noUb t) t.equivalent
    exact ⟨a, b, c, d, e⟩
  | hashNC hs m =>
    obtain ⟨a, b, c, d, e⟩ := HashMapNC.safe h (hs.hashOne_noUb t) t.equivalent
    exact ⟨a, b, c, d, e⟩

theorem InlineMap.Bounded.write {m : InlineMap K V} (h : m.Bounded) (i : Nat) (v : V) : (m.write i v).Bounded := by
  obtain ⟨sz, r⟩ := m
  cases r with
  | scan m => trivial
  | eytzinger m => trivial
  | dense m => intro hle; have := h hle; simpa [writeAt_length] using this
  | sparse m => exact ⟨h.1, fun v hv => by have := h.2 v hv; simpa [writeAt_length] using this⟩
  | hash _ m => exact ⟨h.1, fun s hs => by have := h.2 s hs; simpa [writeAt_length] using this⟩
  | hashNC _ m => exact ⟨h.1, fun s hs => by have := h.2 s hs; simpa [writeAt_length] using this⟩

/-! ## Constructors -/

theorem TableOK.bounded {hash : T → Nat} {t : HashTable T} (h : TableOK hash t) : t.Bounded := by
  obtain ⟨k, h1, h2⟩ := h.pow
  refine ⟨?_, fun s hs => ?_⟩
  · rw [h1, h2]
    have := Nat.two_pow_pos k
    omega
  · obtain ⟨i, hi, rfl⟩ := List.getElem_of_mem hs
    exact ⟨(h.bucket i hi).1, (h.bucket i hi).2.1⟩

theorem HashTable.newVarying_spec [Target] (cm : Magnitude) {sort : Sorter T} (hsort : SorterOk sort) (entries : List T)
    (h1 h2 : T → Nat) (hsz : entries.length < sizeLimit) (hcap : entries.length ≤ cm.maxCapacity) :
    ∃ t, HashTable.newVarying cm sort entries h1 h2 = .ok (.ok t) ∧ TableOK h2 t ∧ t.entries.Perm entries := by
  unfold HashTable.newVarying
  by_cases he : entries = []
  · subst he
    exact ⟨HashTable.default, rfl, default_tableOK h2, .refl _⟩
  · have hlen : 1 ≤ entries.length := List.length_pos_iff.2 he
    rw [if_neg (by simpa using he), if_neg (by omega)]
    obtain ⟨s, c, minK, maxK, e0, ⟨b, _, _, hs, _⟩, _⟩ :=
      analyzeHashCodes_spec (entries.map h1) (by simpa using he) (by simpa using hsz)
    have hpos : 0 < 2 ^ b := Nat.pow_pos (by omega)
    rw [e0]
    simp only [bind, Except.bind, hs]
    rw [prepItems_spec h2 (2 ^ b) hpos]
    simp only
    generalize hprep : sort (entries.reverse.map (fun e => (h2 e % 2 ^ b, e))) = prep
    have hperm : prep.Perm (entries.reverse.map (fun e => (h2 e % 2 ^ b, e))) := by
      rw [← hprep]; exact hsort.perm _
    have hsorted : prep.Pairwise (fun a b => a.1 ≤ b.1) := by rw [← hprep]; exact hsort.sorted _
    have hslot : ∀ p ∈ prep, p.1 = h2 p.2 % 2 ^ b := by
      intro p hp
      have := hperm.subset hp
      rw [List.mem_map] at this
      obtain ⟨e, _, rfl⟩ := this
      rfl
    have hplen : prep.length = entries.length := by rw [hperm.length_eq]; simp
    obtain ⟨slots', e1, e2, e3⟩ := fillSlots_spec cm prep.reverse.length prep.reverse
      (List.replicate (2 ^ b) ⟨0, 0⟩) [] (Nat.le_refl _)
      (by rw [List.pairwise_reverse]; exact hsorted)
      (by simp)
      (by
        intro i hi
        rw [List.length_replicate, hslot i (by simpa using hi)]
        exact Nat.mod_lt _ hpos)
      (by simp only [List.length_nil, List.length_reverse]; omega)
      (by intro s hs; simp)
    simp only [List.length_nil, List.map_nil, List.nil_append] at e1 e3
    rw [List.length_replicate] at e2
    rw [e1]
    simp only [csub, e2]
    rw [if_pos (by omega)]
    refine ⟨_, rfl, ⟨⟨b, e2, rfl⟩, ?_⟩, ?_⟩
    · intro s hs
      simp only at hs ⊢
      obtain ⟨g1, g2, g3⟩ := e3 s hs
      refine ⟨g1, by simpa using g2, ?_⟩
      rw [← List.map_drop, ← List.map_take, g3, List.filter_map, e2]
      congr 1
      apply List.filter_congr
      intro p hp
      simp only [Function.comp_apply]
      rw [hslot p (by simpa using hp)]
    · simp only
      have g2 : (prep.reverse.map Prod.snd).Perm (prep.map Prod.snd) := (List.reverse_perm _).map _
      have h3 := hperm.map Prod.snd
      rw [List.map_map] at h3
      have h4 : (Prod.snd ∘ fun e : T => (h2 e % 2 ^ b, e)) = id := rfl
      rw [h4, List.map_id] at h3
      exact (g2.trans h3).trans (List.reverse_perm _)

theorem HashTable.newVarying_bounded [Target] {cm : Magnitude} {sort : Sorter T} (hsort : SorterOk sort) {es : List T}
    {h1 h2 : T → Nat} (hn : es.length < sizeLimit) {t : HashTable T}
    (h : HashTable.newVarying cm sort es h1 h2 = .ok (.ok t)) : t.Bounded ∧ t.entries.length = es.length := by
  by_cases hcap : es.length ≤ cm.maxCapacity
  · obtain ⟨t', e, hok, hp⟩ := HashTable.newVarying_spec cm hsort es h1 h2 hn hcap
    rw [h] at e
    cases e
    exact ⟨hok.bounded, hp.length_eq⟩
  · unfold HashTable.newVarying at h
    have : es ≠ [] := by rintro rfl; simp at hcap
    rw [if_neg (by simpa using this), if_pos (by omega)] at h
    cases h

theorem HashTable.new_bounded [Target] {cm : Magnitude} {sort : Sorter T} (hsort : SorterOk sort) {es : List T}
    {hash : T → Nat} (hn : es.length < sizeLimit) {t : HashTable T}
    (h : HashTable.new cm sort es hash = .ok (.ok t)) : t.Bounded ∧ t.entries.length = es.length :=
  HashTable.newVarying_bounded hsort hn h

theorem HashMap.fromDedupped_bounded [Target] {cm : Magnitude} {sort : Sorter (K × V)} (hsort : SorterOk sort)
    {es : List (K × V)} {hK : K → Res Nat} (hn : es.length < sizeLimit) {m : HashMap K V}
    (h : HashMap.fromDedupped cm sort hK es = .ok (.ok m)) : m.table.Bounded := by
  unfold HashMap.fromDedupped at h
  simp only [Bind.bind, Except.bind] at h
  cases ha : hashAll hK es with
  | error e => rw [ha] at h; cases h
  | ok u =>
    rw [ha] at h
    simp only at h
    cases ht : HashTable.new cm sort es (fun e => hashVal hK e.1) with
    | error e => rw [ht] at h; cases h
    | ok r =>
      rw [ht] at h
      cases r with
      | error e => cases h
      | ok t =>
        cases h
        exact (HashTable.new_bounded hsort hn ht).1

/-- `last - first + 1` on `usize`, when it does not underflow: exact, or 0 after wrapping. -/
theorem span_cases [Target] {b : Build} {x y d c : Nat} (hy : y ≤ usizeMax) (h1 : subM b y x = .ok d) (h2 : addM b d 1 = .ok c)
    (hle : x ≤ y) : d = y - x ∧ (c = y - x + 1 ∨ c = 0) := by
  have hu := target_cases
  rw [subM_ok b hle] at h1
  cases h1
  refine ⟨rfl, ?_⟩
  unfold addM at h2
  split at h2
  · cases h2; exact .inl rfl
  · cases b with
    | debug => cases h2
    | release =>
      cases h2
      right
      have h3 : y - x = usizeMax := by omega
      rw [h3, usizeMax_succ, Nat.mod_self]

theorem DenseMap.newSorted_bounded [Target] {b : Build} {index : K → Nat} (hi : ∀ k, index k ≤ usizeMax) {es : List (K × V)}
    {m : DenseMap K V} (h : DenseMap.newSorted b index index index index es = .ok (.ok m)) : m.Bounded := by
  unfold DenseMap.newSorted at h
  split at h
  · cases h; intro h0; simp [DenseMap.default] at h0
  · rename_i hne
    simp only [Bind.bind, Except.bind] at h
    have hpos : 0 < es.length := List.length_pos_iff.2 (by simpa using hne)
    cases h1 : idx es 0 with
    | error e => rw [h1] at h; cases h
    | ok first =>
      cases h2 : subM b es.length 1 with
      | error e => rw [h1, h2] at h; cases h
      | ok lp =>
        cases h3 : idx es lp with
        | error e => simp only [h1, h2, h3] at h; cases h
        | ok last =>
          simp only [h1, h2, h3] at h
          cases h4 : subM b (index last.1) (index first.1) with
          | error e => rw [h4] at h; cases h
          | ok d =>
            rw [h4] at h
            simp only at h
            cases h5 : addM b d 1 with
            | error e => rw [h5] at h; cases h
            | ok c =>
              rw [h5] at h
              simp only at h
              split at h
              · rename_i hc
                cases h
                intro hle
                have := span_cases (hi _) h4 h5 hle
                simp only at hle ⊢
                omega
              · cases h

theorem fillLookupVarying_bound [Target] (b : Build) {index : Nat → K → Nat} {min : Nat} :
    ∀ (S : List (K × V)) (i : Nat) (L L' : List Nat), fillLookupVarying b index min S i L = .ok L' →
      L'.length = L.length ∧ (S ≠ [] → L ≠ []) ∧ ∀ v ∈ L', v ∈ L ∨ v ≤ i + S.length
  | [], i, L, L', h => by cases h; exact ⟨rfl, fun h => absurd rfl h, fun v hv => Or.inl hv⟩
  | e :: S, i, L, L', h => by
    simp only [fillLookupVarying, bind, Except.bind] at h
    cases hs : subM b (index i e.1) min with
    | error x => rw [hs] at h; cases h
    | ok j =>
      rw [hs] at h
      simp only at h
      cases hl : setIdx L j (i + 1) with
      | error x => rw [hl] at h; cases h
      | ok L1 =>
        rw [hl] at h
        simp only at h
        obtain ⟨h1, -, h2⟩ := fillLookupVarying_bound b S (i + 1) L1 L' h
        have hL1 : j < L.length ∧ L1 = L.set j (i + 1) := by
          unfold setIdx at hl
          split at hl
          · cases hl; exact ⟨by assumption, rfl⟩
          · cases hl
        obtain ⟨hj, rfl⟩ := hL1
        refine ⟨by rw [h1, List.length_set], fun _ h0 => by rw [h0] at hj; exact absurd hj (Nat.not_lt_zero _),
          fun v hv => ?_⟩
        rw [List.length_cons]
        rcases h2 v hv with h3 | h3
        · rcases List.mem_or_eq_of_mem_set h3 with h4 | h4
          · exact Or.inl h4
          · right; omega
        · right; omega

/-- The lookup table of a sparse map, as far as it matters for bounds. -/
theorem sparse_bounds [Target] {b : Build} {x y d c n : Nat} {zeros lookup : List Nat} (hy : y ≤ usizeMax)
    (h1 : subM b y x = .ok d) (h2 : addM b d 1 = .ok c) (h3 : vecZeroed c = .ok zeros)
    (hl : lookup.length = zeros.length) (hz : zeros ≠ []) (hv : ∀ v ∈ lookup, v ∈ zeros ∨ v ≤ 0 + n) :
    (x ≤ y → y - x < lookup.length) ∧ ∀ v ∈ lookup, v ≤ n := by
  have hz' : zeros = List.replicate c 0 := by
    rw [vecZeroed_eq] at h3
    split at h3
    · cases h3; rfl
    · cases h3
  subst hz'
  refine ⟨fun hle => ?_, fun v h => ?_⟩
  · have := (span_cases hy h1 h2 hle).2
    rw [hl, List.length_replicate]
    rcases this with h | h
    · omega
    · subst h; simp at hz
  · rcases hv v h with h | h
    · rw [List.mem_replicate] at h; omega
    · omega

theorem SparseMap.newSorted_bounded [Target] {b : Build} {i1 i2 : K → Nat} {i3 : Nat → K → Nat} (hi : ∀ k, i2 k ≤ usizeMax)
    {es : List (K × V)} {m : SparseMap K V} (h : SparseMap.newSorted b i1 i2 i3 es = .ok m) : m.Bounded := by
  unfold SparseMap.newSorted at h
  split at h
  · cases h
    exact ⟨fun h0 => by simp [SparseMap.default] at h0, fun v hv => by simp [SparseMap.default] at hv⟩
  · rename_i hne
    simp only [Bind.bind, Except.bind] at h
    cases h1 : idx es 0 with
    | error e => rw [h1] at h; cases h
    | ok first =>
      cases h2 : subM b es.length 1 with
      | error e => rw [h1, h2] at h; cases h
      | ok lp =>
        cases h3 : idx es lp with
        | error e => simp only [h1, h2, h3] at h; cases h
        | ok last =>
          simp only [h1, h2, h3] at h
          cases h4 : subM b (i2 last.1) (i1 first.1) with
          | error e => rw [h4] at h; cases h
          | ok d =>
            rw [h4] at h
            simp only at h
            cases h5 : addM b d 1 with
            | error e => rw [h5] at h; cases h
            | ok c =>
              rw [h5] at h
              simp only at h
              cases h6 : vecZeroed c with
              | error e => rw [h6] at h; cases h
              | ok zeros =>
                rw [h6] at h
                simp only at h
                cases h7 : fillLookupVarying b i3 (i1 first.1) es 0 zeros with
                | error e => rw [h7] at h; cases h
                | ok lookup =>
                  rw [h7] at h
                  cases h
                  obtain ⟨g1, g2, g3⟩ := fillLookupVarying_bound b es 0 zeros lookup h7
                  exact sparse_bounds (hi _) h4 h5 h6 g1 (g2 (by simpa using hne)) g3

theorem SparseMap.fromSorted_bounded [Target] {b : Build} {index : K → Nat} (hi : ∀ k, index k ≤ usizeMax)
    {es : List (K × V)} {m : SparseMap K V} (h : SparseMap.fromSortedAndDedupped b index es = .ok m) : m.Bounded := by
  by_cases hne : es.isEmpty
  · have : es = [] := by simpa using hne
    subst this
    cases h
  · apply SparseMap.newSorted_bounded (b := b) (i1 := index) (i2 := index) (i3 := fun _ => index) hi (es := es)
    rw [SparseMap.newSorted, if_neg hne, ← h]
    simp only [SparseMap.fromSortedAndDedupped, fillLookup_eq_varying]

/-- If the analysis says "dense", the indices span less than the number of keys. -/
theorem analyze_dense [Target] {b : Build} {l : List Nat} (hb : ∀ x ∈ l, x ≤ usizeMax)
    (h : analyzeScalarKeys b l = .ok .denseRange) : ∀ x ∈ l, ∀ y ∈ l, y - x < l.length := by
  intro x hx y hy
  obtain ⟨mn, mx, h1, h2, h3, h4⟩ := scalarScan_spec (List.ne_nil_of_mem hx) hb
  unfold analyzeScalarKeys at h
  rw [h1] at h
  have hpos : 0 < l.length := List.length_pos_of_mem hx
  simp only [if_neg (show ¬l.length = 0 by omega), Bind.bind, Except.bind] at h
  cases h5 : subM b mx mn with
  | error e => rw [h5] at h; cases h
  | ok d =>
    rw [h5] at h
    simp only at h
    cases h6 : addM b d 1 with
    | error e => rw [h6] at h; cases h
    | ok c =>
      rw [h6] at h
      have h7 := Except.ok.inj h
      unfold scalarDecide at h7
      split at h7
      · have := span_cases (hb _ h3) h5 h6 (h4 _ h3).1
        have a1 := h4 x hx
        have a2 := h4 y hy
        omega
      · split at h7 <;> cases h7

theorem idx_mem {α : Type} {xs : List α} {i : Nat} {x : α} (h : idx xs i = .ok x) : x ∈ xs := by
  unfold idx at h
  cases hx : xs[i]? with
  | none => rw [hx] at h; cases h
  | some y =>
    rw [hx] at h
    cases h
    exact List.mem_of_getElem? hx

/-- The wrapped map is within bounds. -/
def FzScalarMap.Bounded : FzScalarMap K V → Prop
  | .hash m => m.table.Bounded
  | .dense m => m.Bounded
  | .sparse m => m.Bounded

theorem FzScalarMap.build_bounded [Target] {b : Build} {sort : Sorter (K × V)} (hs : SorterOk sort) {index : K → Nat}
    (hi : ∀ k, index k ≤ usizeMax) {es : List (K × V)} (hn : es.length < sizeLimit) {a : ScalarAnalysis}
    (ha : analyzeScalarKeys b (es.map (fun x => index x.1)) = .ok a) {m : FzScalarMap K V}
    (h : FzScalarMap.build b sort index es a = .ok m) : m.Bounded := by
  cases a with
  | denseRange =>
    have hd := analyze_dense (fun x hx => by obtain ⟨y, -, rfl⟩ := List.mem_map.1 hx; exact hi _) ha
    simp only [FzScalarMap.build, DenseMap.fromSortedAndDedupped, Bind.bind, Except.bind] at h
    cases h1 : idx es 0 with
    | error e => rw [h1] at h; cases h
    | ok first =>
      cases h2 : subM b es.length 1 with
      | error e => rw [h1, h2] at h; cases h
      | ok lp =>
        cases h3 : idx es lp with
        | error e => simp only [h1, h2, h3] at h; cases h
        | ok last =>
          simp only [h1, h2, h3] at h
          cases h
          intro _
          have := hd _ (List.mem_map_of_mem (idx_mem h1)) _ (List.mem_map_of_mem (idx_mem h3))
          simpa using this
  | sparseRange =>
    simp only [FzScalarMap.build, Bind.bind, Except.bind] at h
    cases h1 : SparseMap.fromSortedAndDedupped b index es with
    | error e => rw [h1] at h; cases h
    | ok m' =>
      rw [h1] at h
      cases h
      exact SparseMap.fromSorted_bounded hi h1
  | general =>
    simp only [FzScalarMap.build, Bind.bind, Except.bind] at h
    cases h1 : HashMap.fromDedupped .large sort (scalarHash index) es with
    | error e => rw [h1] at h; cases h
    | ok r =>
      rw [h1] at h
      cases r with
      | error e => cases h
      | ok m' =>
        cases h
        exact HashMap.fromDedupped_bounded hs hn h1

theorem FzScalarMap.Bounded.safe {m : FzScalarMap K V} (h : m.Bounded) (qindex : Q → Nat) (mt : Q → K → Bool) :
    MemSafe (FzScalarMap.impl qindex mt) m := by
  cases m with
  | hash m =>
    obtain ⟨a, b, c, d, e⟩ := HashMap.safe h (fun q => (NoUb.ok _ : NoUb (scalarHash qindex q))) mt
    exact ⟨a, b, c, d, e⟩
  | dense m =>
    obtain ⟨a, b, c, d, e⟩ := DenseMap.Bounded.safe h qindex
    exact ⟨a, b, c, d, e⟩
  | sparse m =>
    obtain ⟨a, b, c, d, e⟩ := SparseMap.Bounded.safe h qindex
    exact ⟨a, b, c, d, e⟩

theorem FzScalarMap.Bounded.write {m : FzScalarMap K V} (h : m.Bounded) (i : Nat) (v : V) : (m.write i v).Bounded := by
  cases m with
  | hash m => exact ⟨h.1, fun s hs => by have := h.2 s hs; simpa [writeAt_length] using this⟩
  | dense m => intro hle; have := h hle; simpa [writeAt_length] using this
  | sparse m => exact ⟨h.1, fun v hv => by have := h.2 v hv; simpa [writeAt_length] using this⟩

/-- The wrapped table is within bounds. -/
def FzStringMap.Bounded : FzStringMap V → Prop
  | .leftRange _ m => m.table.Bounded
  | .rightRange _ m => m.table.Bounded
  | .hash m => m.table.Bounded

theorem FzStringMap.build_bounded [Target] {sort : Sorter (Str × V)} (hs : SorterOk sort) {bhStr bhSlice : Str → Nat}
    {es : List (Str × V)} (hn : es.length < sizeLimit) {a : SliceAnalysis} {m : FzStringMap V}
    (h : FzStringMap.build sort bhStr bhSlice es a = .ok m) : m.Bounded := by
  have key : ∀ (hK : Str → Res Nat) (f : HashMap Str V → FzStringMap V),
      (∀ m, m.table.Bounded → (f m).Bounded) →
      (do let r ← HashMap.fromDedupped .large sort hK es
          let m ← unwrapR r
          (.ok (f m) : Res _)) = .ok m → m.Bounded := by
    intro hK f hf h
    simp only [Bind.bind, Except.bind] at h
    cases h1 : HashMap.fromDedupped .large sort hK es with
    | error e => rw [h1] at h; cases h
    | ok r =>
      rw [h1] at h
      cases r with
      | error e => cases h
      | ok m' =>
        cases h
        exact hf _ (HashMap.fromDedupped_bounded hs hn h1)
  cases a with
  | general => exact key _ .hash (fun _ h => h) h
  | length => exact key _ .hash (fun _ h => h) h
  | left r => exact key _ (.leftRange r) (fun _ h => h) h
  | right r => exact key _ (.rightRange r) (fun _ h => h) h

theorem FzStringMap.Bounded.safe {m : FzStringMap V} (h : m.Bounded) (bhStr bhSlice : Str → Nat) :
    MemSafe (FzStringMap.impl bhStr bhSlice) m := by
  cases m with
  | leftRange r m =>
    obtain ⟨a, b, c, d, e⟩ := HashMap.safe h (leftRangeHash_noUb bhSlice r) strEq
    exact ⟨a, b, c, d, e⟩
  | rightRange r m =>
    obtain ⟨a, b, c, d, e⟩ := HashMap.safe h (rightRangeHash_noUb bhSlice r) strEq
    exact ⟨a, b, c, d, e⟩
  | hash m =>
    obtain ⟨a, b, c, d, e⟩ := HashMap.safe h (fun q => (NoUb.ok _ : NoUb (bridgeHash bhStr q))) strEq
    exact ⟨a, b, c, d, e⟩

theorem FzStringMap.Bounded.write {m : FzStringMap V} (h : m.Bounded) (i : Nat) (v : V) : (m.write i v).Bounded := by
  cases m with
  | leftRange r m => exact ⟨h.1, fun s hs => by have := h.2 s hs; simpa [writeAt_length] using this⟩
  | rightRange r m => exact ⟨h.1, fun s hs => by have := h.2 s hs; simpa [writeAt_length] using this⟩
  | hash m => exact ⟨h.1, fun s hs => by have := h.2 s hs; simpa [writeAt_length] using this⟩

/-! ## Emitted code -/

theorem litAs_inv {ty : String} {max n m : Nat} {t suf : Tok} (h : litEval t = some (n, suf))
    (h' : litAs ty max t = some m) : m = n := by
  unfold litAs at h'
  rw [h] at h'
  simp only at h'
  split at h'
  · cases h'; rfl
  · cases h'

theorem litMags_inv [Target] {cm : Magnitude} : ∀ {ns : List Nat} {out : List Nat}, litMags cm (ns.map digits) = some out →
    out = ns
  | [], out, h => by cases h; rfl
  | n :: ns, out, h => by
    simp only [List.map_cons, litMags] at h
    split at h
    · rename_i a b h1 h2
      cases h
      rw [litMags_inv h2, litAs_inv (by simpa using litEval_digits n SuffixOk.nil) h1]
    · cases h

theorem litSlots_inv [Target] {cm : Magnitude} : ∀ {ss out : List Slot}, litSlots cm (ss.map Slot.toTokens) = some out → out = ss
  | [], out, h => by cases h; rfl
  | s :: ss, out, h => by
    simp only [List.map_cons, litSlots] at h
    split at h
    · rename_i a b c h1 h2 h3
      cases h
      rw [litSlots_inv h3, litAs_inv (by simpa [Slot.toTokens] using litEval_digits s.minIndex SuffixOk.nil) h1,
        litAs_inv (by simpa [Slot.toTokens] using litEval_digits s.maxIndex SuffixOk.nil) h2]
    · cases h

variable {F : Type}

theorem inlRes_inv {r : Res (InlineMap K V)} {m : InlineMap K V} (h : inlRes (F := F) r = .ok (.inl m)) : r = .ok m := by
  cases r with
  | error e => cases h
  | ok x => cases h; rfl

theorem inrRes_inv {r : Res F} {m : InlineMap K V} (h : inrRes (K := K) (V := V) r = .ok (.inl m)) : False := by
  cases r with
  | error e => cases h
  | ok x => cases h

theorem compile_plain_bounded [Target] {eq' : K → K → Bool} {cmp' : K → K → Ordering}
    {fz : FzKind → List (K × V) → Option (Res F)} {e : Emitted K V} {m : InlineMap K V}
    (he : (∃ l es, e = .scanRaw l es) ∨ (∃ l es, e = .scanNew l es) ∨ (∃ l es, e = .eytzingerRaw l es) ∨
      (∃ l es, e = .eytzingerNew l es))
    (hc : e.compile eq' cmp' fz = some (.ok (.inl m))) : m.Bounded := by
  rcases he with ⟨l, es, rfl⟩ | ⟨l, es, rfl⟩ | ⟨l, es, rfl⟩ | ⟨l, es, rfl⟩
  · change (arrayLen l es).map _ = _ at hc
    rw [Option.map_eq_some_iff] at hc
    obtain ⟨n, -, h⟩ := hc
    cases h
    trivial
  · change (litUsize l).map _ = _ at hc
    rw [Option.map_eq_some_iff] at hc
    obtain ⟨n, -, h⟩ := hc
    have h := inlRes_inv h
    simp only [InlineMap.scanNew, Bind.bind, Except.bind] at h
    split at h
    · cases h
    · cases h; trivial
  · change (arrayLen l es).map _ = _ at hc
    rw [Option.map_eq_some_iff] at hc
    obtain ⟨n, -, h⟩ := hc
    cases h
    trivial
  · change (litUsize l).map _ = _ at hc
    rw [Option.map_eq_some_iff] at hc
    obtain ⟨n, -, h⟩ := hc
    have h := inlRes_inv h
    simp only [InlineMap.eytzingerNew, Bind.bind, Except.bind] at h
    split at h
    · cases h
    · split at h
      · cases h
      · cases h; trivial

theorem compile_genHash_bounded [Target] {eq' : K → K → Bool} {cmp' : K → K → Ordering}
    {fz : FzKind → List (K × V) → Option (Res F)} {sort : Sorter (CollectionEntry B K V)} (hs : SorterOk sort)
    {hash : B → Nat} {g : Generator} {S : List (CollectionEntry B K V)} (hn : S.length < sizeLimit) {hasher : HasherTok}
    {e : Emitted K V} {m : InlineMap K V} (h : g.genHash sort S hash hasher = .ok e)
    (hc : e.compile eq' cmp' fz = some (.ok (.inl m))) : m.Bounded := by
  have hu := target_cases
  obtain ⟨ht, hnew, hok, hperm, hmax⟩ := (HashTable.new_spec .large hs S (fun x => hash x.key) hn).1
    (by show S.length ≤ usizeMax; omega)
  obtain ⟨hshape, -⟩ := HashTable.new_shape hs hnew
  obtain ⟨r, hr⟩ := hasCollisions_ok hok
  obtain ⟨b1, b2⟩ := hok.bounded
  obtain ⟨k, hk, hm⟩ := hok.pow
  have hpos := Nat.two_pow_pos k
  unfold Generator.genHash at h
  simp only [hnew, unwrapR, hr, bind, Except.bind] at h
  cases r with
  | true =>
    simp only [if_true] at h
    cases h
    simp only [Emitted.compile] at hc
    split at hc
    · rename_i n _ ss hh h1 h2 h3 h4
      have h5 := inlRes_inv (Option.some.inj hc)
      have h6 := litSlots_inv h3
      subst h6
      simp only [runHash, HashTable.newRaw, csub, if_pos (show 1 ≤ ht.slots.length by omega), bind, Except.bind] at h5
      cases h5
      refine ⟨by show ht.slots.length - 1 < ht.slots.length; omega, fun s hs => ?_⟩
      have := b2 s hs
      simpa using this
    · cases hc
  | false =>
    simp only [Bool.false_eq_true, if_false] at h
    cases h
    have e0 : ht.slots.map ncSlotTok = (ht.slots.map ncSlot).map digits := by
      rw [List.map_map]
      apply List.map_congr_left
      intro s _
      simp only [ncSlotTok, ncSlot, Function.comp_apply]
      split <;> rfl
    simp only [Emitted.compile, e0] at hc
    split at hc
    · rename_i n _ ss hh h1 h2 h3 h4
      have h5 := inlRes_inv (Option.some.inj hc)
      have h6 := litMags_inv h3
      subst h6
      simp only [runHashNC, HashTableNC.newRaw, csub, List.length_map, if_pos (show 1 ≤ ht.slots.length by omega), bind,
        Except.bind] at h5
      cases h5
      refine ⟨by show ht.slots.length - 1 < (ht.slots.map ncSlot).length; rw [List.length_map]; omega, fun v hv => ?_⟩
      obtain ⟨s, hs, rfl⟩ := List.mem_map.1 hv
      have h7 := b2 s hs
      have h8 := hshape s hs
      simp only [List.length_map]
      unfold ncSlot
      split
      · omega
      · rename_i h0
        rcases h8 with rfl | h8
        · simp at h0
        · omega
    · cases hc

theorem compile_genScalar_bounded [Target] {eq' : K → K → Bool} {cmp' : K → K → Ordering}
    {fz : FzKind → List (K × V) → Option (Res F)} {b : Build} {sort : Sorter (CollectionEntry B K V)} (hs : SorterOk sort)
    {index : B → Nat} (hi : ∀ k, index k ≤ usizeMax) {g : Generator} {S : List (CollectionEntry B K V)}
    (hn : S.length < sizeLimit) {a : ScalarAnalysis} (ha : analyzeScalarKeys b (S.map (fun x => index x.key)) = .ok a)
    {e : Emitted K V} {m : InlineMap K V} (h : g.genScalar b sort index S a = .ok e)
    (hc : e.compile eq' cmp' fz = some (.ok (.inl m))) : m.Bounded := by
  cases a with
  | general =>
    simp only [Generator.genScalar] at h
    split at h
    · cases h
      exact compile_plain_bounded (.inl ⟨_, _, rfl⟩) hc
    · exact compile_genHash_bounded hs hn h hc
  | denseRange =>
    have hd := analyze_dense (fun x hx => by obtain ⟨y, -, rfl⟩ := List.mem_map.1 hx; exact hi _) ha
    simp only [Generator.genScalar, Generator.genDense, Bind.bind, Except.bind] at h
    cases h1 : idx S 0 with
    | error e => rw [h1] at h; cases h
    | ok first =>
      cases h2 : subM b S.length 1 with
      | error e => rw [h1, h2] at h; cases h
      | ok lp =>
        cases h3 : idx S lp with
        | error e => simp only [h1, h2, h3] at h; cases h
        | ok last =>
          simp only [h1, h2, h3] at h
          cases h
          simp only [Emitted.compile] at hc
          split at hc
          · rename_i n x y g1 g2 g3
            cases hc
            have e1 := litAs_inv (litEval_inject (index first.key) SuffixOk.usize) g2
            have e2 := litAs_inv (litEval_inject (index last.key) SuffixOk.usize) g3
            subst e1 e2
            intro _
            have := hd _ (List.mem_map_of_mem (idx_mem h1)) _ (List.mem_map_of_mem (idx_mem h3))
            simpa using this
          · cases hc
  | sparseRange =>
    simp only [Generator.genScalar, Generator.genSparse, Bind.bind, Except.bind] at h
    cases h1 : idx S 0 with
    | error e => rw [h1] at h; cases h
    | ok first =>
      cases h2 : subM b S.length 1 with
      | error e => rw [h1, h2] at h; cases h
      | ok lp =>
        cases h3 : idx S lp with
        | error e => simp only [h1, h2, h3] at h; cases h
        | ok last =>
          simp only [h1, h2, h3] at h
          cases h4 : subM b (index last.key) (index first.key) with
          | error e => rw [h4] at h; cases h
          | ok d =>
            rw [h4] at h
            simp only at h
            cases h5 : addM b d 1 with
            | error e => rw [h5] at h; cases h
            | ok c =>
              rw [h5] at h
              simp only at h
              cases h6 : vecZeroed c with
              | error e => rw [h6] at h; cases h
              | ok zeros =>
                rw [h6] at h
                simp only at h
                cases h7 : genFillLookup b index (index first.key) S 0 zeros with
                | error e => rw [h7] at h; cases h
                | ok lookup =>
                  rw [h7] at h
                  cases h
                  obtain ⟨g1, g3⟩ := genFillLookup_bound b S 0 zeros lookup h7
                  have hz : zeros ≠ [] := by
                    rintro rfl
                    cases S with
                    | nil => cases h1
                    | cons e S =>
                      simp only [genFillLookup, bind, Except.bind] at h7
                      split at h7
                      · cases h7
                      · simp only [setIdx, List.length_nil, Nat.not_lt_zero, if_false] at h7
                        cases h7
                  have hb := sparse_bounds (hi _) h4 h5 h6 g1 hz g3
                  simp only [Emitted.compile] at hc
                  split at hc
                  · rename_i n _ l x y k1 k2 k3 k4 k5
                    cases hc
                    have e1 := litAs_inv (litEval_digits (index first.key) SuffixOk.usize) k4
                    have e2 := litAs_inv (litEval_digits (index last.key) SuffixOk.usize) k5
                    have e3 := litMags_inv k3
                    subst e1 e2 e3
                    refine ⟨hb.1, fun v hv => ?_⟩
                    have := hb.2 v hv
                    simpa using this
                  · cases hc

end Frozen.Model
