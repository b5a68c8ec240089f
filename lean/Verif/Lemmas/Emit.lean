import Verif.Lemmas.InlineMaps
import Verif.Lemmas.Literals
import Verif.Lemmas.Facts

/-! # Lemmas about emitted code -/

namespace Frozen.Model

open Frozen Frozen.Spec

variable {B Q K V : Type}

/-! ## Deduplication commutes with evaluating the key expressions -/

theorem keepLast_map {α β : Type} {eq : α → α → Bool} {eq' : β → β → Bool} {f : α → β} {l : List α}
    (h : ∀ x ∈ l, ∀ y ∈ l, eq x y = eq' (f x) (f y)) : (keepLast eq l).map f = keepLast eq' (l.map f) := by
  induction l with
  | nil => rfl
  | cons x xs ih =>
    have ih' := ih (fun a ha b hb => h a (List.mem_cons_of_mem _ ha) b (List.mem_cons_of_mem _ hb))
    have hany : xs.any (eq x) = (xs.map f).any (eq' (f x)) := by
      rw [List.any_map, Bool.eq_iff_iff, List.any_eq_true, List.any_eq_true]
      constructor
      · rintro ⟨y, hy, h1⟩
        exact ⟨y, hy, by rw [Function.comp_apply, ← h x List.mem_cons_self y (List.mem_cons_of_mem _ hy)]; exact h1⟩
      · rintro ⟨y, hy, h1⟩
        exact ⟨y, hy, by rw [h x List.mem_cons_self y (List.mem_cons_of_mem _ hy)]; exact h1⟩
    simp only [keepLast, List.map_cons, ← hany]
    split
    · exact ih'
    · rw [List.map_cons, ih']

theorem Pairwise_map_congr {α β : Type} {R : α → α → Prop} {R' : β → β → Prop} {f : α → β} {l : List α}
    (hl : l.Pairwise R) (h : ∀ x ∈ l, ∀ y ∈ l, R x y → R' (f x) (f y)) : (l.map f).Pairwise R' := by
  rw [List.pairwise_map]
  exact hl.imp_of_mem (fun hx hy hr => h _ hx _ hy hr)

/-! ## What emitted code amounts to -/

/-- The expression compiles, evaluates without a panic, and gives a well-formed map holding the entries `L`. -/
def Emitted.Good [Target] (t : QueryTraits Q K) (eqK : K → K → Bool) (mt : Q → K → Bool) (e : Emitted K V)
    (L : List (K × V)) : Prop :=
  ∃ m : InlineMap K V, (∀ (F : Type) eq' cmp (fz : FzKind → List (K × V) → Option (Res F)),
    e.compile eq' cmp fz = some (.ok (.inl m))) ∧ InlineMap.Inv t eqK mt m ∧ m.entries.Perm L

theorem Generator.new_len [Target] {n : Nat} (h : n ≤ usizeMax) : litUsize (Generator.new n).len = some n :=
  litUsize_digits_inject h

theorem genScan_good [Target] {t : QueryTraits Q K} {eqK : K → K → Bool} {g : Generator} {S : List (CollectionEntry B K V)}
    (hg : litUsize g.len = some S.length) (hd : Distinct (entryEq eqK) (S.map (fun e => e.toTokens))) :
    (g.genScan S).Good t eqK t.equivalent (S.map (fun e => e.toTokens)) := by
  refine ⟨{ sz := S.length, repr := .scan { entries := S.map (fun e => e.toTokens) } }, ?_, ?_, .refl _⟩
  · intro F eq' cmp fz
    simp only [Generator.genScan, Emitted.compile, arrayLen_of hg (show S.length = (S.map (fun e => e.toTokens)).length by simp),
      Option.map_some]
  · exact ⟨by simp [InlineMap.entries], rfl, hd⟩

theorem genEytzinger_good [Target] {t : QueryTraits Q K} {cmp : K → K → Ordering} (hc : LawfulCmp cmp)
    (hq : LawfulQueryCmp cmp t.compare) {g : Generator} {S : List (CollectionEntry B K V)}
    (hg : litUsize g.len = some S.length)
    (hs : (S.map (fun e => e.toTokens)).Pairwise (fun a b => cmp a.1 b.1 = .lt)) :
    ∃ e, g.genEytzinger S = .ok e ∧
      e.Good t (fun a b => cmp a b == .eq) (fun q k => t.compare q k == .eq) (S.map (fun e => e.toTokens)) := by
  obtain ⟨A, hA, hl, hget⟩ := eytzingerLayout_spec S
  obtain ⟨A', hA', hl', hget'⟩ := eytzingerLayout_spec (S.map (fun e => e.toTokens))
  have hAA : A.map (fun e => e.toTokens) = A' := by
    apply List.ext_getElem?
    intro j
    by_cases hj : j < S.length
    · rw [List.getElem?_map, hget j hj, hget' j (by simpa using hj)]
      simp
    · rw [List.getElem?_eq_none (by simp; omega), List.getElem?_eq_none (by rw [hl']; simp; omega)]
  unfold Generator.genEytzinger
  simp only [hA, bind, Except.bind]
  refine ⟨_, rfl, { sz := S.length, repr := .eytzinger { entries := A' } }, ?_, ?_, ?_⟩
  · intro F eq' cmp fz
    rw [hAA]
    simp only [Emitted.compile, arrayLen_of hg (show S.length = A'.length by rw [hl']; simp), Option.map_some]
  · refine ⟨by simp [InlineMap.entries, hl'], cmp, hc, hq, rfl, rfl, S.map (fun e => e.toTokens), hA', hs⟩
  · exact eytzingerLayout_perm hA'

/-- First and last element of the emitted list. -/
theorem map_ends {S : List (CollectionEntry B K V)} (hne : S ≠ []) :
    ∃ f l, S[0]? = some f ∧ S[S.length - 1]? = some l ∧ f ∈ S ∧ l ∈ S ∧
      (S.map (fun e => e.toTokens))[0]? = some f.toTokens ∧
      (S.map (fun e => e.toTokens))[(S.map (fun e => e.toTokens)).length - 1]? = some l.toTokens := by
  have hpos : 0 < S.length := List.length_pos_of_ne_nil hne
  refine ⟨S[0], S[S.length - 1], List.getElem?_eq_getElem hpos, List.getElem?_eq_getElem (by omega),
    List.getElem_mem _, List.getElem_mem _, ?_, ?_⟩
  · rw [List.getElem?_map, List.getElem?_eq_getElem hpos]; rfl
  · rw [List.length_map, List.getElem?_map, List.getElem?_eq_getElem (by omega)]; rfl

theorem genDense_good [Target] (b : Build) {t : QueryTraits Q K} {cmp : K → K → Ordering} {indexK : K → Nat} {index : B → Nat}
    (hk : LawfulScalar cmp indexK) {g : Generator} {S : List (CollectionEntry B K V)}
    (hg : litUsize g.len = some S.length) (hi : ∀ e ∈ S, indexK e.keyExpr = index e.key)
    (hs : (S.map (fun e => e.toTokens)).Pairwise (fun a b => cmp a.1 b.1 = .lt))
    {f l : CollectionEntry B K V} (hf : S[0]? = some f) (hl : S[S.length - 1]? = some l)
    (hc : index l.key + 1 - index f.key = S.length) :
    ∃ e, g.genDense b index S = .ok e ∧
      e.Good t (fun a b => cmp a b == .eq) (scalarMatch indexK t.index) (S.map (fun e => e.toTokens)) := by
  have hne : S ≠ [] := by rintro rfl; simp at hf
  have hpos : 1 ≤ S.length := List.length_pos_of_ne_nil hne
  obtain ⟨f', l', hf', hl', hfm, hlm, hft, hlt⟩ := map_ends hne
  rw [hf] at hf'; rw [hl] at hl'
  cases hf'; cases hl'
  have e1 := hi f hfm
  have e2 := hi l hlm
  have b1 : index f.key ≤ usizeMax := by rw [← e1]; exact hk.bound _
  have b2 : index l.key ≤ usizeMax := by rw [← e2]; exact hk.bound _
  obtain ⟨m, hm, hinv, hent⟩ := DenseMap.fromSortedAndDedupped_spec b hk hs hft hlt
    (by simp only [CollectionEntry.toTokens, e1, e2, List.length_map]; exact hc)
  simp only [DenseMap.fromSortedAndDedupped, idx_ok hft, subM_ok b (show 1 ≤ (S.map (fun e => e.toTokens)).length by simpa using hpos),
    idx_ok hlt, bind, Except.bind, Except.ok.injEq] at hm
  unfold Generator.genDense
  simp only [idx_ok hf, subM_ok b hpos, idx_ok hl, bind, Except.bind]
  refine ⟨_, rfl, { sz := S.length, repr := .dense m }, ?_, ?_, by rw [InlineMap.entries]; simp only [hent]; exact .refl _⟩
  · intro F eq' cmp fz
    simp only [Emitted.compile, arrayLen_of hg (show S.length = (S.map (fun e => e.toTokens)).length by simp),
      litUsize_usizeTok_inject b1, litUsize_usizeTok_inject b2]
    rw [← hm]
    simp only [CollectionEntry.toTokens, e1, e2]
  · refine ⟨by simp [InlineMap.entries, hent], cmp, indexK, hk, rfl, rfl, hinv⟩

theorem genFillLookup_eq [Target] (b : Build) {indexK : K → Nat} {index : B → Nat} (min : Nat) (S : List (CollectionEntry B K V)) :
    ∀ (i : Nat) (L : List Nat), (∀ e ∈ S, indexK e.keyExpr = index e.key) →
      genFillLookup b index min S i L = fillLookup b indexK min (S.map (fun e => e.toTokens)) i L := by
  induction S with
  | nil => intro i L _; rfl
  | cons e S ih =>
    intro i L h
    have he := h e List.mem_cons_self
    simp only [genFillLookup, List.map_cons, fillLookup, CollectionEntry.toTokens, he, bind, Except.bind]
    cases subM b (index e.key) min with
    | error x => rfl
    | ok d =>
      simp only
      cases setIdx L d (i + 1) with
      | error x => rfl
      | ok L' =>
        simp only
        rw [ih (i + 1) L' (fun e he => h e (List.mem_cons_of_mem _ he))]
        rfl

/-- The generator computes the same table as `SparseScalarLookupMap`. -/
theorem genSparse_eq [Target] (b : Build) {indexK : K → Nat} {index : B → Nat} {g : Generator}
    {S : List (CollectionEntry B K V)} {f l : CollectionEntry B K V} (hf : S[0]? = some f)
    (hl : S[S.length - 1]? = some l) (hle : index f.key ≤ index l.key)
    (hi : ∀ e ∈ S, indexK e.keyExpr = index e.key) :
    (∀ x, SparseMap.fromSortedAndDedupped b indexK (S.map (fun e => e.toTokens)) = .error x →
      g.genSparse b index S = .error x) ∧
    (∀ m, SparseMap.fromSortedAndDedupped b indexK (S.map (fun e => e.toTokens)) = .ok m →
      ∃ count, addM b (m.max - m.min) 1 = .ok count ∧ m.entries = S.map (fun e => e.toTokens) ∧
      m.min = index f.key ∧ m.max = index l.key ∧
      g.genSparse b index S = .ok (.sparse g.len (digits m.lookup.length) (collectionMagnitude count)
        m.entries (m.lookup.map digits) (usizeTok m.min) (usizeTok m.max))) := by
  have hne : S ≠ [] := by rintro rfl; simp at hf
  have hpos : 1 ≤ S.length := List.length_pos_of_ne_nil hne
  obtain ⟨f', l', hf', hl', hfm, hlm, hft, hlt⟩ := map_ends hne
  rw [hf] at hf'; rw [hl] at hl'
  cases hf'; cases hl'
  have e1 := hi f hfm
  have e2 := hi l hlm
  have hpos' : 1 ≤ (S.map (fun e => e.toTokens)).length := by simpa using hpos
  unfold SparseMap.fromSortedAndDedupped Generator.genSparse
  simp only [idx_ok hf, subM_ok b hpos, idx_ok hl, idx_ok hft, idx_ok hlt, subM_ok b hpos', bind, Except.bind]
  rw [show indexK (l.toTokens).1 = index l.key from e2, show indexK (f.toTokens).1 = index f.key from e1]
  simp only [subM_ok b hle]
  cases h2 : addM b (index l.key - index f.key) 1 with
  | error y => exact ⟨fun x h => by simpa using h, fun m h => by simp at h⟩
  | ok count =>
    simp only
    cases h3 : vecZeroed count with
    | error y => exact ⟨fun x h => by simpa using h, fun m h => by simp at h⟩
    | ok z =>
      simp only
      rw [genFillLookup_eq b _ S 0 z hi]
      cases h4 : fillLookup b indexK (index f.key) (S.map (fun e => e.toTokens)) 0 z with
      | error y => exact ⟨fun x h => by simpa using h, fun m h => by simp at h⟩
      | ok L =>
        refine ⟨fun x h => by simp at h, fun m h => ?_⟩
        simp only [Except.ok.injEq] at h
        subst h
        exact ⟨count, h2, rfl, rfl, rfl, rfl⟩

theorem genSparse_good [Target] (b : Build) {t : QueryTraits Q K} {cmp : K → K → Ordering} {indexK : K → Nat} {index : B → Nat}
    (hk : LawfulScalar cmp indexK) {g : Generator} {S : List (CollectionEntry B K V)}
    (hg : litUsize g.len = some S.length) (hi : ∀ e ∈ S, indexK e.keyExpr = index e.key)
    (hs : (S.map (fun e => e.toTokens)).Pairwise (fun a b => cmp a.1 b.1 = .lt))
    {f l : CollectionEntry B K V} (hf : S[0]? = some f) (hl : S[S.length - 1]? = some l)
    (hsz : index l.key + 1 - index f.key < wordLimit) :
    ∃ e, g.genSparse b index S = .ok e ∧
      e.Good t (fun a b => cmp a b == .eq) (scalarMatch indexK t.index) (S.map (fun e => e.toTokens)) := by
  have hu := target_cases
  have hne : S ≠ [] := by rintro rfl; simp at hf
  obtain ⟨f', l', hf', hl', hfm, hlm, hft, hlt⟩ := map_ends hne
  rw [hf] at hf'; rw [hl] at hl'
  cases hf'; cases hl'
  have e1 : indexK f.toTokens.1 = index f.key := hi f hfm
  have e2 : indexK l.toTokens.1 = index l.key := hi l hlm
  obtain ⟨f'', l'', hf'', hl'', hfl, hall⟩ := ascending_ends hk hs (by simpa using hne)
  rw [hft] at hf''; rw [hlt] at hl''
  cases hf''; cases hl''
  rw [e1, e2] at hfl
  have b1 : index f.key ≤ usizeMax := by rw [← e1]; exact hk.bound _
  have b2 : index l.key ≤ usizeMax := by rw [← e2]; exact hk.bound _
  obtain ⟨m, hm, hinv, hent⟩ := SparseMap.fromSortedAndDedupped_spec b hk hs hft hlt (by rw [e1, e2]; exact hsz)
  obtain ⟨count, hcount, _, hmin, hmax, hgen⟩ := (genSparse_eq (g := g) b hf hl (by omega) hi).2 m hm
  rw [hmin, hmax] at hcount
  rw [addM_ok b (by omega)] at hcount
  cases hcount
  have hsize : m.lookup.length = index l.key - index f.key + 1 := by rw [hinv.size, hmin, hmax]; omega
  refine ⟨_, hgen, { sz := S.length, repr := .sparse m }, ?_, ?_, by rw [InlineMap.entries]; simp only [hent]; exact .refl _⟩
  · intro F eq' cmp fz
    have hlook : ∀ v ∈ m.lookup, v ≤ (collectionMagnitude (index l.key - index f.key + 1)).maxCapacity := by
      intro v hv
      obtain ⟨j, hj⟩ := List.getElem?_of_mem hv
      have hcap := collectionMagnitude_le (index l.key - index f.key + 1) (by omega)
      rcases hinv.slot j v hj with ⟨h0, _⟩ | ⟨i, e, h1, h2, _⟩
      · omega
      · have := (List.getElem?_eq_some_iff.1 h2).1
        rw [hent, List.length_map] at this
        rw [List.length_map] at hfl
        omega
    simp only [Emitted.compile, arrayLen_of hg (show S.length = m.entries.length by rw [hent]; simp),
      arrayLen_of (litUsize_digits (show m.lookup.length ≤ usizeMax by omega)) (show m.lookup.length = (m.lookup.map digits).length by simp),
      litMags_digits hlook, litUsize_usizeTok (show m.min ≤ usizeMax by omega), litUsize_usizeTok (show m.max ≤ usizeMax by omega)]
  · refine ⟨by simp [InlineMap.entries, hent], cmp, indexK, hk, rfl, rfl, hinv⟩

theorem growth_le (n : Nat) : growth n * n ≤ 10 * 128 ∨ growth n * n ≤ 7 * n := by
  unfold growth
  split
  · left; omega
  · right; split <;> omega

theorem genHash_good [Target] {t : QueryTraits Q K} {sort : Sorter (CollectionEntry B K V)} (hsort : SorterOk sort)
    {eqK : K → K → Bool} (he : LawfulEq' eqK) {hash : B → Nat} {hk : K → Nat} {hq : Q → Nat}
    (hh : LawfulHash eqK t.equivalent hk hq) {g : Generator} {S : List (CollectionEntry B K V)}
    (hg : litUsize g.len = some S.length) (hne : S ≠ []) (hsz : S.length < sizeLimit)
    (hhash : ∀ e ∈ S, hk e.keyExpr = hash e.key) {hasher : HasherTok} {h : InlineHasher}
    (heval : hasher.eval = some h) (hone : ∀ q, h.hashOne t q = .ok (hq q))
    (hd : Distinct (entryEq eqK) (S.map (fun e => e.toTokens))) :
    ∃ e, g.genHash sort S hash hasher = .ok e ∧ e.Good t eqK t.equivalent (S.map (fun e => e.toTokens)) := by
  have hu := target_cases
  obtain ⟨ht, hnew, hok, hperm, hmax⟩ := (HashTable.new_spec .large hsort S (fun x => hash x.key) hsz).1
    (by show S.length ≤ usizeMax; omega)
  obtain ⟨hshape, hslots⟩ := HashTable.new_shape hsort hnew
  have hslots := hslots hne hsz
  have hsl : ht.slots.length ≤ usizeMax := by
    have := growth_le S.length
    omega
  have hspos : 1 ≤ ht.slots.length := by
    obtain ⟨k, hk', _⟩ := hok.pow
    rw [hk']; exact Nat.one_le_two_pow
  have hmask : csub ht.slots.length 1 = .ok ht.mask := by
    obtain ⟨k, hk', hm'⟩ := hok.pow
    simp only [csub, if_pos hspos, hm', hk']
    rw [if_pos Nat.one_le_two_pow]
  have hlen := hperm.length_eq
  obtain ⟨r, hr⟩ := hasCollisions_ok hok
  have hcap := collectionMagnitude_le ht.entries.length (by omega)
  have hmem : ∀ e ∈ ht.entries, hk e.toTokens.1 = hash e.key := fun e he => hhash e (hperm.mem_iff.1 he)
  have hdist : Distinct (entryEq eqK) (ht.entries.map (fun e => e.toTokens)) :=
    Distinct.perm he.entry (hperm.symm.map _) hd
  have hsl2 : ∀ s ∈ ht.slots, s.minIndex ≤ s.maxIndex := by
    intro s hs
    obtain ⟨i, hi, rfl⟩ := List.mem_iff_getElem.1 hs
    exact (hok.bucket i hi).1
  unfold Generator.genHash
  simp only [hnew, unwrapR, hr, bind, Except.bind]
  cases r with
  | true =>
    simp only [if_true]
    refine ⟨_, rfl, { sz := S.length, repr := .hash h { table :=
      { slots := ht.slots, entries := ht.entries.map (fun e => e.toTokens), mask := ht.mask } } }, ?_, ?_, hperm.map _⟩
    · intro F eq' cmp fz
      simp only [Emitted.compile, arrayLen_of hg (show S.length = (ht.entries.map (fun e => e.toTokens)).length by simp [hlen]),
        arrayLen_of (litUsize_digits hsl) (show ht.slots.length = (ht.slots.map Slot.toTokens).length by simp),
        litSlots_toTokens (cm := collectionMagnitude ht.entries.length) (ss := ht.slots) (by
          intro s hs
          have h1 := hmax s hs
          have h2 := hsl2 s hs
          omega), heval, runHash, HashTable.newRaw, hmask, bind, Except.bind, inlRes]
    · refine ⟨by simp [InlineMap.entries, hlen], rfl, hk, hq, hh, hone, ?_, hdist⟩
      exact hok.map (fun e => e.toTokens) (fun e => hk e.1) hmem
  | false =>
    simp only [Bool.false_eq_true, if_false]
    have hnc := hok.nc hshape hr
    refine ⟨_, rfl, { sz := S.length, repr := .hashNC h { table :=
      { slots := ht.slots.map ncSlot, entries := ht.entries.map (fun e => e.toTokens), mask := ht.mask } } }, ?_, ?_, hperm.map _⟩
    · intro F eq' cmp fz
      have htok : ht.slots.map ncSlotTok = (ht.slots.map ncSlot).map digits := by
        rw [List.map_map]
        apply List.map_congr_left
        intro s _
        simp only [ncSlotTok, ncSlot, Function.comp_apply]
        split <;> rfl
      rw [htok]
      simp only [Emitted.compile, arrayLen_of hg (show S.length = (ht.entries.map (fun e => e.toTokens)).length by simp [hlen]),
        arrayLen_of (litUsize_digits hsl) (show ht.slots.length = ((ht.slots.map ncSlot).map digits).length by simp),
        litMags_digits (cm := collectionMagnitude ht.entries.length) (ns := ht.slots.map ncSlot) (by
          intro v hv
          obtain ⟨s, hs, rfl⟩ := List.mem_map.1 hv
          have h1 := hmax s hs
          have h2 := hsl2 s hs
          unfold ncSlot
          split
          · omega
          · rename_i h0
            have h0' : s.maxIndex ≠ 0 := by simpa using h0
            rcases hshape s hs with rfl | h3
            · exact absurd rfl h0'
            · omega), heval, runHashNC, HashTableNC.newRaw, List.length_map, hmask, bind, Except.bind, inlRes]
    · refine ⟨by simp [InlineMap.entries, hlen], rfl, hk, hq, hh, hone, ?_, hdist⟩
      exact hnc.map (fun e => e.toTokens) (fun e => hk e.1) hmem

/-! ## The emit functions -/

theorem Emitted.Good.perm [Target] {t : QueryTraits Q K} {eqK : K → K → Bool} {mt : Q → K → Bool} {e : Emitted K V}
    {L L' : List (K × V)} (h : e.Good t eqK mt L) (hp : L.Perm L') : e.Good t eqK mt L' := by
  obtain ⟨m, h1, h2, h3⟩ := h
  exact ⟨m, h1, h2, h3.trans hp⟩

theorem Emitter.finish_inv {α : Type} {em : Emitter} {n : Nat} {gen : Generator → Res α} {item : Item α}
    (h : em.finish n gen = .ok (.ok item)) : gen (Generator.new n) = .ok item.ctor := by
  unfold Emitter.finish at h
  cases hp : em.preflight n with
  | error msg => rw [hp] at h; cases h
  | ok g =>
    rw [hp] at h
    have hg : g = Generator.new n := by
      unfold Emitter.preflight at hp
      repeat' split at hp
      all_goals first | cases hp; done | (cases hp; rfl)
    subst hg
    simp only [bind, Except.bind] at h
    cases hg : gen (Generator.new n) with
    | error e => rw [hg] at h; cases h
    | ok out =>
      rw [hg] at h
      simp only at h
      unfold Emitter.postflight at h
      repeat' split at h
      all_goals first | cases h; done | (cases h; rename_i hh; repeat' split at hh) | skip
      all_goals first | cases hh; done | (cases hh; rfl)

/-- The entries as written in the emitted code. -/
theorem Emitter.cleanValues_map (em : Emitter) (unit : V) (entries : List (CollectionEntry B K V)) :
    (em.cleanValues unit entries).map (fun e => e.toTokens) =
      entries.map (fun e => (e.keyExpr, if em.hasValueType then e.valueExpr else unit)) := by
  unfold Emitter.cleanValues
  cases em.hasValueType <;> simp [CollectionEntry.toTokens]

theorem Emitter.cleanValues_mem {em : Emitter} {unit : V} {entries : List (CollectionEntry B K V)}
    {e : CollectionEntry B K V} (h : e ∈ em.cleanValues unit entries) :
    ∃ e' ∈ entries, e.key = e'.key ∧ e.keyExpr = e'.keyExpr := by
  unfold Emitter.cleanValues at h
  split at h
  · exact ⟨e, h, rfl, rfl⟩
  · obtain ⟨e', h1, rfl⟩ := List.mem_map.1 h
    exact ⟨e', h1, rfl, rfl⟩

theorem Emitter.cleanValues_length (em : Emitter) (unit : V) (entries : List (CollectionEntry B K V)) :
    (em.cleanValues unit entries).length = entries.length := by
  unfold Emitter.cleanValues
  split <;> simp

theorem _root_.Frozen.Spec.LawfulEq'.comap {α β : Type} {eq : β → β → Bool} (h : LawfulEq' eq) (f : α → β) :
    LawfulEq' (fun x y => eq (f x) (f y)) where
  refl a := h.refl _
  symm a b := h.symm _ _
  trans a b c := h.trans _ _ _

theorem _root_.Frozen.Spec.LawfulCmp.comap {α β : Type} {cmp : β → β → Ordering} (h : LawfulCmp cmp) (f : α → β) :
    LawfulCmp (fun x y => cmp (f x) (f y)) where
  refl a := h.refl _
  swap a b := h.swap _ _
  trans a b c := h.trans _ _ _

/-- Deduplicating with the emitter's equality agrees with deduplicating the emitted entries. -/
theorem dedup_agrees {eqB : B → B → Bool} {eqK : K → K → Bool} {em : Emitter} {unit : V}
    {entries : List (CollectionEntry B K V)}
    (hag : ∀ x ∈ entries, ∀ y ∈ entries, eqB x.key y.key = eqK x.keyExpr y.keyExpr) :
    (keepLast (fun x y => eqB x.key y.key) (em.cleanValues unit entries)).map (fun e => e.toTokens) =
      survivors eqK (entries.map (fun e => (e.keyExpr, if em.hasValueType then e.valueExpr else unit))) := by
  rw [keepLast_map (eq' := fun a b => eqK a.1 b.1), Emitter.cleanValues_map]
  · rfl
  · intro x hx y hy
    obtain ⟨x', hx', e1, e2⟩ := Emitter.cleanValues_mem hx
    obtain ⟨y', hy', e3, e4⟩ := Emitter.cleanValues_mem hy
    simp only [CollectionEntry.toTokens, e1, e2, e3, e4]
    exact hag x' hx' y' hy'

/-- The emit function runs the generator on the expected entries; the generated code is good. -/
def EmitsGood [Target] (t : QueryTraits Q K) (eqK : K → K → Bool) (mt : Q → K → Bool) (em : Emitter)
    (r : Res (Except String (Item (Emitted K V)))) (L : List (K × V)) : Prop :=
  ∃ n gen out, r = em.finish n gen ∧ gen (Generator.new n) = .ok out ∧ out.Good t eqK mt L

theorem Emitter.emitHash_spec [Target] {t : QueryTraits Q K} {em : Emitter} {unit : V} {find : HbFind} (hfind : HbFindOk find)
    {sort : Sorter (CollectionEntry B K V)} (hsort : SorterOk sort) {eqB : B → B → Bool} (heB : LawfulEq' eqB)
    {eqK : K → K → Bool} (he : LawfulEq' eqK) {fixedState : Nat → B → Nat} {seed : Nat} (hseed : seed < 2 ^ 64)
    (hB : ∀ a b, eqB a b = true → fixedState seed a = fixedState seed b) {hk : K → Nat}
    (hh : LawfulHash eqK t.equivalent hk (t.fixedState seed)) {entries : List (CollectionEntry B K V)}
    (hag : ∀ x ∈ entries, ∀ y ∈ entries, eqB x.key y.key = eqK x.keyExpr y.keyExpr)
    (hhash : ∀ x ∈ entries, hk x.keyExpr = fixedState seed x.key) (hn : entries.length < sizeLimit) :
    EmitsGood t eqK t.equivalent em (em.emitHash unit find sort eqB fixedState seed entries)
      (survivors eqK (entries.map (fun e => (e.keyExpr, if em.hasValueType then e.valueExpr else unit)))) := by
  have hu := target_cases
  have hdd := dedup_agrees (em := em) (unit := unit) hag
  unfold Emitter.emitHash
  rw [usingHash_eq_keepLast hfind (heB.comap (fun x : CollectionEntry B K V => x.key)) (fun a b h => hB _ _ h)]
  simp only [bind, Except.bind]
  have hsub := keepLast_sublist (fun x y : CollectionEntry B K V => eqB x.key y.key) (em.cleanValues unit entries)
  have hlen := hsub.length_le
  rw [Emitter.cleanValues_length] at hlen
  have hmem : ∀ e ∈ keepLast (fun x y : CollectionEntry B K V => eqB x.key y.key) (em.cleanValues unit entries),
      hk e.keyExpr = fixedState seed e.key := by
    intro e hm
    obtain ⟨e', h1, h2, h3⟩ := Emitter.cleanValues_mem (hsub.subset hm)
    rw [h2, h3]; exact hhash e' h1
  generalize keepLast (fun x y : CollectionEntry B K V => eqB x.key y.key) (em.cleanValues unit entries) = S at *
  rw [← hdd]
  have hd : Distinct (entryEq eqK) (S.map (fun e => e.toTokens)) := by rw [hdd]; exact survivors_distinct _ _
  have hg : litUsize (Generator.new S.length).len = some S.length := Generator.new_len (by omega)
  by_cases h4 : S.length < 4
  · exact ⟨_, _, _, rfl, by simp only [if_pos h4], genScan_good hg hd⟩
  · obtain ⟨e, h1, h2⟩ := genHash_good (t := t) (hash := fixedState seed) (hasher := .bridge (injectUnderscores (u64Tok seed)))
      (h := .bridge seed) hsort he hh hg (by rintro rfl; simp at h4)
      (by omega) hmem (by simp only [HasherTok.eval, litU64_u64Tok_inject hseed, Option.map_some]) (fun q => rfl) hd
    exact ⟨_, _, _, rfl, by simp only [if_neg h4]; exact h1, h2⟩

/-- Sorting with the emitter's order gives the emitted entries sorted with the run-time order. -/
theorem sorted_agrees {cmpB : B → B → Ordering} (hB : LawfulCmp cmpB) {cmp : K → K → Ordering} {em : Emitter} {unit : V}
    {entries : List (CollectionEntry B K V)}
    (hag : ∀ x ∈ entries, ∀ y ∈ entries, cmpB x.key y.key = cmp x.keyExpr y.keyExpr) :
    ((sortedAndDedupped (em.cleanValues unit entries) (fun x y => cmpB x.key y.key)).map (fun e => e.toTokens)).Perm
      (survivors (fun a b => cmp a b == .eq)
        (entries.map (fun e => (e.keyExpr, if em.hasValueType then e.valueExpr else unit)))) ∧
    ((sortedAndDedupped (em.cleanValues unit entries) (fun x y => cmpB x.key y.key)).map (fun e => e.toTokens)).Pairwise
      (fun a b => cmp a.1 b.1 = .lt) ∧
    (∀ e ∈ sortedAndDedupped (em.cleanValues unit entries) (fun x y => cmpB x.key y.key),
      ∃ e' ∈ entries, e.key = e'.key ∧ e.keyExpr = e'.keyExpr) ∧
    (sortedAndDedupped (em.cleanValues unit entries) (fun x y => cmpB x.key y.key)).length ≤ entries.length := by
  have hB' := hB.comap (fun x : CollectionEntry B K V => x.key)
  have hp := sortedAndDedupped_perm hB' (em.cleanValues unit entries)
  have hs := sortedAndDedupped_strict hB' (em.cleanValues unit entries)
  have hsub := keepLast_sublist (fun x y : CollectionEntry B K V => cmpB x.key y.key == .eq) (em.cleanValues unit entries)
  have hmem : ∀ e ∈ sortedAndDedupped (em.cleanValues unit entries) (fun x y => cmpB x.key y.key),
      ∃ e' ∈ entries, e.key = e'.key ∧ e.keyExpr = e'.keyExpr := fun e he =>
    Emitter.cleanValues_mem (hsub.subset (hp.mem_iff.1 he))
  refine ⟨?_, ?_, hmem, ?_⟩
  · rw [← dedup_agrees (eqB := fun a b => cmpB a b == .eq) (fun x hx y hy => by rw [hag x hx y hy])]
    exact hp.map _
  · refine Pairwise_map_congr hs ?_
    intro x hx y hy hlt
    obtain ⟨x', hx', e1, e2⟩ := hmem x hx
    obtain ⟨y', hy', e3, e4⟩ := hmem y hy
    simp only [CollectionEntry.toTokens]
    rw [e2, e4, ← hag x' hx' y' hy', ← e1, ← e3]
    exact hlt
  · rw [hp.length_eq, ← Emitter.cleanValues_length em unit entries]
    exact hsub.length_le

theorem Emitter.emitOrdered_spec [Target] {t : QueryTraits Q K} {em : Emitter} {unit : V} {cmpB : B → B → Ordering}
    (hB : LawfulCmp cmpB) {cmp : K → K → Ordering} (hc : LawfulCmp cmp) (hq : LawfulQueryCmp cmp t.compare)
    (heqv : t.equivalent = fun q k => t.compare q k == .eq) {entries : List (CollectionEntry B K V)}
    (hag : ∀ x ∈ entries, ∀ y ∈ entries, cmpB x.key y.key = cmp x.keyExpr y.keyExpr) (hn : entries.length < sizeLimit) :
    EmitsGood t (fun a b => cmp a b == .eq) (fun q k => t.compare q k == .eq) em (em.emitOrdered unit cmpB entries)
      (survivors (fun a b => cmp a b == .eq)
        (entries.map (fun e => (e.keyExpr, if em.hasValueType then e.valueExpr else unit)))) := by
  have hu := target_cases
  obtain ⟨hp, hs, hmem, hlen⟩ := sorted_agrees (em := em) (unit := unit) hB hag
  unfold Emitter.emitOrdered
  generalize sortedAndDedupped (em.cleanValues unit entries) (fun x y => cmpB x.key y.key) = S at *
  have hg : litUsize (Generator.new S.length).len = some S.length := Generator.new_len (by omega)
  by_cases h4 : S.length < 4
  · refine ⟨_, _, (Generator.new S.length).genScan S, rfl, by simp only [if_pos h4], ?_⟩
    rw [← heqv]
    exact (genScan_good hg (Pairwise_lt_distinct hs)).perm hp
  · obtain ⟨e, h1, h2⟩ := genEytzinger_good hc hq hg hs
    exact ⟨_, _, _, rfl, by simp only [if_neg h4]; exact h1, h2.perm hp⟩

theorem Emitter.emitScalar_spec [Target] {t : QueryTraits Q K} {em : Emitter} {unit : V} (b : Build)
    {sort : Sorter (CollectionEntry B K V)} (hsort : SorterOk sort) {cmpB : B → B → Ordering} {index : B → Nat}
    (hB : LawfulScalar cmpB index) {cmp : K → K → Ordering} {indexK : K → Nat} (hk : LawfulScalar cmp indexK)
    (heqv : t.equivalent = scalarMatch indexK t.index) {entries : List (CollectionEntry B K V)}
    (hag : ∀ x ∈ entries, indexK x.keyExpr = index x.key) (hn : entries.length < tableLimit)
    (hspan : ∀ x ∈ entries, ∀ y ∈ entries, index x.key - index y.key < usizeMax) :
    EmitsGood t (fun a b => cmp a b == .eq) (scalarMatch indexK t.index) em
      (em.emitScalar unit b sort cmpB index entries)
      (survivors (fun a b => cmp a b == .eq)
        (entries.map (fun e => (e.keyExpr, if em.hasValueType then e.valueExpr else unit)))) := by
  have hu := target_cases
  obtain ⟨hp, hs, hmem, hlen⟩ := sorted_agrees (em := em) (unit := unit) (cmp := cmp) (entries := entries) hB.lawfulCmp
    (fun x hx y hy => by rw [hB.cmp, hk.cmp, hag x hx, hag y hy])
  unfold Emitter.emitScalar
  generalize sortedAndDedupped (em.cleanValues unit entries) (fun x y => cmpB x.key y.key) = S at *
  have hg : litUsize (Generator.new S.length).len = some S.length := Generator.new_len (by omega)
  have hag' : ∀ x ∈ S, indexK x.keyExpr = index x.key := by
    intro x hx
    obtain ⟨x', h1, h2, h3⟩ := hmem x hx
    rw [h2, h3]; exact hag x' h1
  have hscan : ((Generator.new S.length).genScan S).Good t (fun a b => cmp a b == .eq) (scalarMatch indexK t.index)
      (S.map (fun e => e.toTokens)) := by
    rw [← heqv]; exact genScan_good hg (Pairwise_lt_distinct hs)
  simp only []
  by_cases hne : S = []
  · subst hne
    refine ⟨0, fun g => .ok (g.genScan []), _, ?_, rfl, hscan.perm hp⟩
    simp only [List.map_nil, analyzeScalarKeys, scalarScan, List.foldl_nil, bind, Except.bind, if_true]
    rfl
  · obtain ⟨f, l, hf, hl, hfm, hlm, hft, hlt⟩ := map_ends hne
    obtain ⟨f', l', hf', hl', hfl, hall⟩ := ascending_ends hk hs (by simpa using hne)
    rw [hft] at hf'; rw [hlt] at hl'
    cases hf'; cases hl'
    have e1 : indexK f.toTokens.1 = index f.key := hag' f hfm
    have e2 : indexK l.toTokens.1 = index l.key := hag' l hlm
    rw [e1, e2] at hfl hall
    rw [List.length_map] at hfl
    have hsp : index l.key - index f.key < usizeMax := by
      obtain ⟨f', hf', k1, -⟩ := hmem f hfm
      obtain ⟨l', hl', k2, -⟩ := hmem l hlm
      rw [k1, k2]
      exact hspan l' hl' f' hf'
    have hA := analyzeScalarKeys_spec b (l := S.map (fun e => index e.key)) (by
        intro x hx
        obtain ⟨e, _, rfl⟩ := List.mem_map.1 hx
        exact hB.bound _) (mn := index f.key) (mx := index l.key)
      (List.mem_map.2 ⟨f, hfm, rfl⟩) (List.mem_map.2 ⟨l, hlm, rfl⟩) (by
        intro x hx
        obtain ⟨e, he, rfl⟩ := List.mem_map.1 hx
        obtain ⟨i, hi⟩ := List.getElem?_of_mem he
        have := hall i e.toTokens (by rw [List.getElem?_map, hi]; rfl)
        have h3 : indexK e.toTokens.1 = index e.key := hag' e he
        omega) hsp
    rw [hA]
    simp only [bind, Except.bind, List.length_map]
    have := hB.bound l.key
    cases hd : scalarDecide (index l.key - index f.key + 1) S.length with
    | denseRange =>
      have := scalarDecide_dense hd
      obtain ⟨e, h1, h2⟩ := genDense_good b (t := t) hk hg hag' hs hf hl (by omega)
      exact ⟨_, _, _, rfl, h1, h2.perm hp⟩
    | sparseRange =>
      have := scalarDecide_sparse hd
      obtain ⟨e, h1, h2⟩ := genSparse_good b (t := t) hk hg hag' hs hf hl (by omega)
      exact ⟨_, _, _, rfl, h1, h2.perm hp⟩
    | general =>
      by_cases h8 : S.length < 8
      · exact ⟨_, _, _, rfl, by simp only [Generator.genScalar, if_pos h8], hscan.perm hp⟩
      · obtain ⟨e, h1, h2⟩ := genHash_good (t := t) (hash := index) (hasher := .scalar) (h := .scalar) hsort
          (LawfulCmp'.eqLawful hk.lawfulCmp) (by rw [heqv]; exact hk.hash t.index) hg hne (by omega) hag' rfl (fun q => rfl)
          (Pairwise_lt_distinct hs)
        refine ⟨_, _, _, rfl, by simp only [Generator.genScalar, if_neg h8]; exact h1, ?_⟩
        rw [← heqv]
        exact h2.perm hp

/-- Keys that span the whole `usize` range cannot be emitted. -/
theorem Emitter.emitScalar_over [Target] {em : Emitter} {unit : V} (b : Build)
    {sort : Sorter (CollectionEntry B K V)} {cmpB : B → B → Ordering} {index : B → Nat}
    (hB : LawfulScalar cmpB index) {entries : List (CollectionEntry B K V)} {x y : CollectionEntry B K V}
    (hx : x ∈ entries) (hy : y ∈ entries) (hsp : index x.key - index y.key = usizeMax) (item : Item (Emitted K V)) :
    em.emitScalar unit b sort cmpB index entries ≠ .ok (.ok item) := by
  have hu := target_cases
  have hB' := hB.lawfulCmp.comap (fun x : CollectionEntry B K V => x.key)
  have hp := sortedAndDedupped_perm hB' (em.cleanValues unit entries)
  have hs := sortedAndDedupped_strict hB' (em.cleanValues unit entries)
  have hmem : ∀ e ∈ entries, ∃ e' ∈ sortedAndDedupped (em.cleanValues unit entries) (fun x y => cmpB x.key y.key),
      index e'.key = index e.key := by
    intro e he
    have : ∃ c ∈ em.cleanValues unit entries, c.key = e.key := by
      unfold Emitter.cleanValues
      split
      · exact ⟨e, he, rfl⟩
      · exact ⟨_, List.mem_map.2 ⟨e, he, rfl⟩, rfl⟩
    obtain ⟨c, hc, hce⟩ := this
    obtain ⟨e', h1, h2⟩ := exists_mem_keepLast (LawfulCmp'.eqLawful hB') hc
    refine ⟨e', hp.mem_iff.2 h1, ?_⟩
    have := hB.eq_iff c.key e'.key
    simp only [h2] at this
    rw [← hce]
    exact (eq_of_beq this.symm).symm
  unfold Emitter.emitScalar
  generalize sortedAndDedupped (em.cleanValues unit entries) (fun x y => cmpB x.key y.key) = S at *
  simp only []
  obtain ⟨x', hx', hxi⟩ := hmem x hx
  obtain ⟨y', hy', hyi⟩ := hmem y hy
  have hne : S ≠ [] := List.ne_nil_of_mem hx'
  obtain ⟨h1, h2⟩ := analyzeScalarKeys_over b (l := S.map (fun e => index e.key)) (by
        intro z hz
        obtain ⟨e, _, rfl⟩ := List.mem_map.1 hz
        exact hB.bound _) (mn := index y'.key) (mx := index x'.key)
      (List.mem_map.2 ⟨y', hy', rfl⟩) (List.mem_map.2 ⟨x', hx', rfl⟩) (by omega)
  cases b with
  | debug => rw [h1 rfl]; intro h; cases h
  | release =>
    rw [h2 rfl]
    simp only [bind, Except.bind]
    intro h
    have h := Emitter.finish_inv h
    simp only [Generator.genScalar] at h
    -- the same table would be built by the run-time constructor from the entries `(key, ())`
    let E : List (CollectionEntry B B V) := S.map (fun e => { key := e.key, keyExpr := e.key, valueExpr := e.valueExpr })
    have hs' : (E.map (fun e => e.toTokens)).Pairwise (fun a b => cmpB a.1 b.1 = .lt) := by
      simp only [E, List.map_map]
      exact Pairwise_map_congr hs (fun a _ b _ h => h)
    obtain ⟨f, l, hf, hl, hfl, hall⟩ := ascending_ends hB hs' (by simpa [E] using hne)
    have hE : ∀ (i : Nat) (e : CollectionEntry B K V), S[i]? = some e →
        (E.map (fun e => e.toTokens))[i]? = some (e.key, e.valueExpr) := by
      intro i e hi
      simp [E, List.getElem?_map, hi, CollectionEntry.toTokens]
    obtain ⟨i, hi⟩ := List.getElem?_of_mem hx'
    obtain ⟨j, hj⟩ := List.getElem?_of_mem hy'
    have a1 := hall i _ (hE i _ hi)
    have a2 := hall j _ (hE j _ hj)
    simp only at a1 a2
    have hb := hB.bound l.1
    have hpos : 0 < S.length := List.length_pos_of_ne_nil hne
    have hf' : S[0]? = some S[0] := List.getElem?_eq_getElem hpos
    have hl' : S[S.length - 1]? = some (S[S.length - 1]'(by omega)) := List.getElem?_eq_getElem (by omega)
    have q1 := hE 0 _ hf'
    have q2 := hE (S.length - 1) _ hl'
    rw [hf] at q1
    have hEl : (E.map (fun e => e.toTokens)).length = S.length := by simp [E]
    rw [hEl] at hl
    rw [hl] at q2
    have q1' : f = (S[0].key, S[0].valueExpr) := Option.some.inj q1
    have q2' := Option.some.inj q2
    rw [q1', q2'] at a1 a2 hfl
    rw [q2'] at hb
    simp only at a1 a2 hb hfl
    unfold Generator.genSparse at h
    have hspan : index (S[S.length - 1]'(by omega)).key - index (S[0]).key = usizeMax := by omega
    simp only [idx_ok hf', idx_ok hl', subM_ok .release (show 1 ≤ S.length by omega), bind, Except.bind,
      subM_ok .release (show index (S[0]).key ≤ index (S[S.length - 1]'(by omega)).key by omega),
      addM_over_release hspan] at h
    cases hS : S with
    | nil => exact hne hS
    | cons e rest =>
      simp only [hS, List.getElem_cons_zero] at h
      simp [vecZeroed_eq, genFillLookup, subM_ok .release (Nat.le_refl (index e.key)), bind, Except.bind, setIdx] at h

theorem Emitter.emitString_spec [Target] {t : QueryTraits Q K} {em : Emitter} {unit : V}
    {sort : Sorter (CollectionEntry Str K V)} (hsort : SorterOk sort) {fsStr fsSlice : Nat → Str → Nat} {seed : Nat}
    (hseed : seed < 2 ^ 64) {bytesK : K → Str} (heqv : t.equivalent = fun q k => t.bytes q == bytesK k)
    (hstr : ∀ q, t.fixedState seed q = fsStr seed (t.bytes q)) (hslice : t.fixedStateSlice seed = fsSlice seed)
    {entries : List (CollectionEntry Str K V)} (hag : ∀ x ∈ entries, bytesK x.keyExpr = x.key)
    (hn : entries.length < sizeLimit) (hkl : ∀ x ∈ entries, x.key.length ≤ usizeMax) :
    EmitsGood t (fun a b => bytesK a == bytesK b) t.equivalent em
      (em.emitString unit sort fsStr fsSlice seed entries)
      (survivors (fun a b => bytesK a == bytesK b)
        (entries.map (fun e => (e.keyExpr, if em.hasValueType then e.valueExpr else unit)))) := by
  have hu := target_cases
  have hcmp : (fun a b => strCmp (bytesK a) (bytesK b) == .eq) = fun a b => bytesK a == bytesK b := by
    funext a b; exact strCmp_beq _ _
  obtain ⟨hp, hs, hmem, hlen⟩ := sorted_agrees (em := em) (unit := unit) (cmp := fun a b => strCmp (bytesK a) (bytesK b))
    (entries := entries) strCmp_lawful (fun x hx y hy => by rw [hag x hx, hag y hy])
  have hd := Pairwise_lt_distinct (cmp := fun a b => strCmp (bytesK a) (bytesK b)) hs
  rw [hcmp] at hp hd
  have heq : LawfulEq' (fun a b => bytesK a == bytesK b) := strEq_lawful.comap bytesK
  unfold Emitter.emitString usingCmp
  generalize sortedAndDedupped (em.cleanValues unit entries) (fun x y => strCmp x.key y.key) = S at *
  have hg : litUsize (Generator.new S.length).len = some S.length := Generator.new_len (by omega)
  have hag' : ∀ x ∈ S, bytesK x.keyExpr = x.key ∧ x.key.length ≤ usizeMax := by
    intro x hx
    obtain ⟨x', h1, h2, h3⟩ := hmem x hx
    rw [h2, h3]; exact ⟨hag x' h1, hkl x' h1⟩
  have hlaw : ∀ (f : Str → Nat), LawfulHash (fun a b => bytesK a == bytesK b) t.equivalent (fun k => f (bytesK k))
      (fun q => f (t.bytes q)) := by
    intro f
    refine ⟨fun a b h => by rw [eq_of_beq h], fun q a h => ?_⟩
    rw [heqv] at h
    rw [eq_of_beq h]
  refine ⟨S.length, fun g => g.genStringOrScan sort fsStr fsSlice seed S, ?_⟩
  by_cases h4 : S.length < 4
  · exact ⟨_, rfl, by simp only [Generator.genStringOrScan, if_pos h4], (genScan_good hg hd).perm hp⟩
  · have hne : S ≠ [] := by rintro rfl; simp at h4
    obtain ⟨s0, hs0⟩ := List.exists_mem_of_ne_nil S hne
    obtain ⟨a, ha, -, hL, hR⟩ := analyzeSliceKeys_spec (fun x y : UInt8 => x == y) (fsSlice seed) (S.map (fun x => x.key))
    have main : ∀ (f : Str → Nat) (hasher : HasherTok) (h : InlineHasher), hasher.eval = some h →
        (∀ q, h.hashOne t q = .ok (f (t.bytes q))) →
        ∃ e, (Generator.new S.length).genHash sort S f hasher = .ok e ∧
          e.Good t (fun a b => bytesK a == bytesK b) t.equivalent (S.map (fun e => e.toTokens)) := by
      intro f hasher h heval hone
      exact genHash_good hsort heq (hlaw f) hg hne (by omega) (fun x hx => by rw [(hag' x hx).1]) heval hone hd
    have hkeys : s0.key ∈ S.map (fun x => x.key) := List.mem_map.2 ⟨s0, hs0, rfl⟩
    have hs0l := (hag' s0 hs0).2
    suffices hsuff : ∃ e, (Generator.new S.length).genString sort fsStr fsSlice seed S a = .ok e ∧
        e.Good t (fun a b => bytesK a == bytesK b) t.equivalent (S.map (fun e => e.toTokens)) by
      obtain ⟨e, h1, h2⟩ := hsuff
      refine ⟨e, rfl, ?_, h2.perm hp⟩
      simp only [Generator.genStringOrScan, if_neg h4, ha, bind, Except.bind]
      exact h1
    cases a with
    | general =>
      refine main (fsStr seed) _ (.bridge seed) ?_ ?_
      · simp only [HasherTok.eval, litU64_u64Tok_inject hseed, Option.map_some]
      · intro q
        simp only [InlineHasher.hashOne, bridgeHash, hstr]
    | length =>
      have hv : emitHashVal lengthHash = fun s : Str => s.length := hashVal_ok (fun _ => rfl)
      simp only [Generator.genString, hv]
      exact main _ _ .length rfl (fun q => rfl)
    | left r =>
      have hG := hL r rfl
      have hr : r.lo ≤ r.hi := by have := hG.1; omega
      have hrl := hG.2.2.1 _ hkeys
      have hok := leftRangeHash_ok (fsSlice seed) r hr
      have hv : emitHashVal (leftRangeHash (fsSlice seed) r) = rangeHk true (fsSlice seed) r := hashVal_ok hok
      simp only [Generator.genString, hv, hashAll_ok hok, bind, Except.bind]
      refine main _ _ (.left r.lo r.hi seed) ?_ ?_
      · simp only [HasherTok.eval, litU64_u64Tok_inject hseed, litUsize_digits_inject (show r.lo ≤ usizeMax by omega),
          litUsize_digits_inject (show r.hi ≤ usizeMax by omega)]
      · intro q
        simp only [InlineHasher.hashOne, hslice, inlineLeft_eq]
        exact hok _
    | right r =>
      have hG := hR r rfl
      have hr : r.lo ≤ r.hi := by have := hG.1; omega
      have hrl := hG.2.2.1 _ hkeys
      have hok := rightRangeHash_ok (fsSlice seed) r hr
      have hv : emitHashVal (rightRangeHash (fsSlice seed) r) = rangeHk false (fsSlice seed) r := hashVal_ok hok
      simp only [Generator.genString, hv, hashAll_ok hok, bind, Except.bind]
      refine main _ _ (.right r.lo r.hi seed) ?_ ?_
      · simp only [HasherTok.eval, litU64_u64Tok_inject hseed, litUsize_digits_inject (show r.lo ≤ usizeMax by omega),
          litUsize_digits_inject (show r.hi ≤ usizeMax by omega)]
      · intro q
        simp only [InlineHasher.hashOne, hslice, inlineRight_eq]
        exact hok _

end Frozen.Model
