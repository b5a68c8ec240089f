import Verif.Lemmas.Built
import Verif.Lemmas.Eytzinger
import Verif.Lemmas.Emit

/-!
# Lemmas on the order of iteration
-/

namespace Frozen.Model

open Frozen Frozen.Spec

variable {T K V B : Type}

/-- The entries of a table stand in descending order of their slots. -/
theorem HashTable.new_order [Target] {cm : Magnitude} {sort : Sorter T} (hsort : SorterOk sort) {entries : List T} {hash : T → Nat}
    (hsz : entries.length < sizeLimit) {t : HashTable T} (ht : HashTable.new cm sort entries hash = .ok (.ok t)) :
    t.entries.Pairwise (fun a b => hash b % t.slots.length ≤ hash a % t.slots.length) := by
  unfold HashTable.new at ht
  by_cases he : entries = []
  · subst he
    cases ht
    exact List.Pairwise.nil
  rw [if_neg (by simpa using he)] at ht
  by_cases hcap : entries.length > cm.maxCapacity
  · rw [if_pos hcap] at ht; cases ht
  rw [if_neg hcap] at ht
  obtain ⟨s, c, minK, maxK, h1, ⟨b, _, _, hs, _⟩, _⟩ :=
    analyzeHashCodes_spec (entries.map hash) (by simpa using he) (by simpa using hsz)
  have hpos : 0 < 2 ^ b := Nat.pow_pos (by omega)
  rw [h1] at ht
  simp only [bind, Except.bind, hs] at ht
  rw [prepItems_spec hash (2 ^ b) hpos] at ht
  simp only at ht
  generalize hprep : sort (entries.reverse.map (fun e => (hash e % 2 ^ b, e))) = prep at ht
  have hperm : prep.Perm (entries.reverse.map (fun e => (hash e % 2 ^ b, e))) := by
    rw [← hprep]; exact hsort.perm _
  have hsorted : prep.Pairwise (fun a b => a.1 ≤ b.1) := by rw [← hprep]; exact hsort.sorted _
  have hslot : ∀ p ∈ prep, p.1 = hash p.2 % 2 ^ b := by
    intro p hp
    have := hperm.subset hp
    rw [List.mem_map] at this
    obtain ⟨e, _, rfl⟩ := this
    rfl
  have hplen : prep.length = entries.length := by rw [hperm.length_eq]; simp
  obtain ⟨slots', e1, e2, e3⟩ := fillSlots_spec cm prep.reverse.length prep.reverse
    (List.replicate (2 ^ b) ⟨0, 0⟩) [] (Nat.le_refl _)
    (by rw [List.pairwise_reverse]; exact hsorted)
    (by simp)
    (by
      intro i hi
      rw [List.length_replicate, hslot i (by simpa using hi)]
      exact Nat.mod_lt _ hpos)
    (by simp only [List.length_nil, List.length_reverse]; omega)
    (by intro s hs; simp)
  simp only [List.length_nil, List.map_nil, List.nil_append] at e1
  rw [List.length_replicate] at e2
  rw [e1] at ht
  simp only [csub, e2] at ht
  rw [if_pos (by omega)] at ht
  cases ht
  simp only [e2]
  rw [List.pairwise_map, List.pairwise_reverse]
  refine hsorted.imp_of_mem ?_
  intro x y hx hy hxy
  rw [← hslot x hx, ← hslot y hy]
  exact hxy

/-- A sorted list of at least two elements is not sorted any more after it has been laid out. -/
theorem eytzingerLayout_sorted_iff [Target] {r : T → T → Prop} (hr : ∀ a b, r a b → ¬ r b a) {S A : List T} (hS : S.Pairwise r)
    (hA : eytzingerLayout S = .ok A) : A.Pairwise r ↔ S.length ≤ 1 := by
  obtain ⟨A', hA', hl, hget⟩ := eytzingerLayout_spec S
  rw [hA] at hA'
  cases hA'
  constructor
  · intro hp
    by_contra hn
    have h2 : 2 ≤ S.length := by omega
    have hg : 1 ≤ hgt S.length := by
      unfold hgt
      exact (Nat.le_log2 (by omega)).2 (by omega)
    have hd0 : dep 0 = 0 := by decide
    have hlt : rank S.length 1 < rank S.length 0 := by
      rw [rank_lt_iff (by omega) (by omega)]
      have := yRank_left (h := hgt S.length) (i := 0) (by omega)
      have hp : 0 < 2 ^ (hgt S.length - dep 0 - 1) := Nat.pow_pos (by omega)
      simp only [Nat.mul_zero, Nat.zero_add] at this
      omega
    have hr0 := rank_lt (i := 0) (n := S.length) (by omega)
    have hr1 := rank_lt (i := 1) (n := S.length) (by omega)
    have h0 := hget 0 (by omega)
    have h1 := hget 1 (by omega)
    rw [List.getElem?_eq_getElem (by omega), List.getElem?_eq_getElem hr0] at h0
    rw [List.getElem?_eq_getElem (by omega), List.getElem?_eq_getElem hr1] at h1
    have hA01 := List.pairwise_iff_getElem.1 hp 0 1 (by omega) (by omega) (by omega)
    have hS01 := List.pairwise_iff_getElem.1 hS _ _ hr1 hr0 hlt
    rw [Option.some.inj h0, Option.some.inj h1] at hA01
    exact hr _ _ hA01 hS01
  · intro hn
    rcases A with _ | ⟨a, _ | ⟨b, A⟩⟩
    · exact List.Pairwise.nil
    · exact List.pairwise_singleton _ _
    · simp only [List.length_cons] at hl; omega

theorem EytzingerMap.new_inv [Target] {cmp : K → K → Ordering} {es : List (K × V)} {m : EytzingerMap K V}
    (h : EytzingerMap.new cmp es = .ok m) : eytzingerLayout (sortedAndDedupped es (fun x y => cmp x.1 y.1)) = .ok m.entries := by
  unfold EytzingerMap.new EytzingerMap.fromSortedAndDedupped at h
  simp only [bind, Except.bind] at h
  split at h
  · cases h
  · rename_i A hA
    cases h
    exact hA

/-- The table of a hash map. -/
theorem HashMap.fromDedupped_table [Target] {cm : Magnitude} {sort : Sorter (K × V)} {hK : K → Res Nat} {hk : K → Nat}
    (hok : ∀ k, hK k = .ok (hk k)) {es : List (K × V)} {m : HashMap K V} (h : HashMap.fromDedupped cm sort hK es = .ok (.ok m)) :
    HashTable.new cm sort es (fun e => hk e.1) = .ok (.ok m.table) := by
  unfold HashMap.fromDedupped at h
  rw [hashAll_ok hok, hashVal_ok hok] at h
  simp only [bind, Except.bind] at h
  split at h
  · cases h
  · rename_i r hr
    cases r with
    | error msg => cases h
    | ok t => cases h; exact hr

theorem unwrapR_inv {α : Type} {r : Except String α} {x : α} (h : unwrapR r = .ok x) : r = .ok x := by
  cases r with
  | error => cases h
  | ok y => cases h; rfl

/-- What a scalar map holds: the sorted entries, or a hash table of them. -/
theorem FzScalarMap.new_entries [Target] {b : Build} {sort : Sorter (K × V)} {cmp : K → K → Ordering} {index : K → Nat}
    {es : List (K × V)} {m : FzScalarMap K V} (h : FzScalarMap.new b sort cmp index es = .ok m) :
    ((∀ h, m ≠ .hash h) → m.entries = sortedAndDedupped es (fun x y => cmp x.1 y.1)) ∧
    ∀ h, m = .hash h →
      HashTable.new .large sort (sortedAndDedupped es (fun x y => cmp x.1 y.1)) (fun e => index e.1) = .ok (.ok h.table) := by
  unfold FzScalarMap.new at h
  simp only [bind, Except.bind] at h
  generalize sortedAndDedupped es (fun x y => cmp x.1 y.1) = S at h ⊢
  split at h
  · cases h
  · rename_i r hr
    cases r with
    | denseRange =>
      simp only [FzScalarMap.build, bind, Except.bind] at h
      split at h
      · cases h
      · rename_i d hd
        cases h
        refine ⟨fun _ => ?_, fun h hh => by cases hh⟩
        unfold DenseMap.fromSortedAndDedupped at hd
        simp only [bind, Except.bind] at hd
        repeat (split at hd; · cases hd)
        cases hd
        rfl
    | sparseRange =>
      simp only [FzScalarMap.build, bind, Except.bind] at h
      split at h
      · cases h
      · rename_i d hd
        cases h
        refine ⟨fun _ => ?_, fun h hh => by cases hh⟩
        unfold SparseMap.fromSortedAndDedupped at hd
        simp only [bind, Except.bind] at hd
        repeat (split at hd; · cases hd)
        cases hd
        rfl
    | general =>
      simp only [FzScalarMap.build, bind, Except.bind] at h
      split at h
      · cases h
      · rename_i r' hr'
        split at h
        · cases h
        · rename_i hm hu
          cases h
          refine ⟨fun hh => absurd rfl (hh _), fun h hh => ?_⟩
          cases hh
          rw [unwrapR_inv hu] at hr'
          exact HashMap.fromDedupped_table (hk := index) (fun _ => rfl) hr'

/-- The entries in the array of a constructor expression. -/
def Emitted.listed : Emitted K V → List (K × V)
  | .scanRaw _ es => es
  | .scanNew _ es => es
  | .eytzingerRaw _ es => es
  | .eytzingerNew _ es => es
  | .dense _ es _ _ => es
  | .sparse _ _ _ es _ _ _ => es
  | .hash _ _ _ _ es _ => es
  | .hashNC _ _ _ _ es _ => es
  | .fz _ es => es

/-- The constructor takes the array as it is. -/
def Emitted.Raw : Emitted K V → Prop
  | .scanNew _ _ => False
  | .eytzingerNew _ _ => False
  | .fz _ _ => False
  | _ => True

theorem Emitted.compile_listed [Target] {F : Type} {eq' : K → K → Bool} {cmp' : K → K → Ordering}
    {fz : FzKind → List (K × V) → Option (Res F)} {e : Emitted K V} (hr : e.Raw) {m : InlineMap K V}
    (h : e.compile eq' cmp' fz = some (.ok (.inl m))) : m.entries = e.listed := by
  cases e with
  | scanNew => exact hr.elim
  | eytzingerNew => exact hr.elim
  | fz => exact hr.elim
  | scanRaw len es =>
    simp only [Emitted.compile, Option.map_eq_some_iff] at h
    obtain ⟨n, -, h⟩ := h
    cases h; rfl
  | eytzingerRaw len es =>
    simp only [Emitted.compile, Option.map_eq_some_iff] at h
    obtain ⟨n, -, h⟩ := h
    cases h; rfl
  | dense len es mn mx =>
    simp only [Emitted.compile] at h
    split at h
    · cases h; rfl
    · cases h
  | sparse len ns cm es lk mn mx =>
    simp only [Emitted.compile] at h
    split at h
    · cases h; rfl
    · cases h
  | hash len ns cm slots es hs =>
    simp only [Emitted.compile] at h
    split at h
    · simp only [runHash, inlRes, HashTable.newRaw, bind, Except.bind, Option.some.injEq] at h
      split at h
      · cases h
      · rename_i m' h'
        cases h
        split at h'
        · cases h'
        · rename_i t' h''
          cases h'
          split at h''
          · cases h''
          · cases h''; rfl
    · cases h
  | hashNC len ns cm slots es hs =>
    simp only [Emitted.compile] at h
    split at h
    · simp only [runHashNC, inlRes, HashTableNC.newRaw, bind, Except.bind, Option.some.injEq] at h
      split at h
      · cases h
      · rename_i m' h'
        cases h
        split at h'
        · cases h'
        · rename_i t' h''
          cases h'
          split at h''
          · cases h''
          · cases h''; rfl
    · cases h

end Frozen.Model
