import Verif.Lemmas.FzMaps

/-! # Lemmas: overflow of `max - min + 1`, and what the property theorems use of a built map -/

namespace Frozen.Model

open Frozen Frozen.Spec

variable {M Q K V : Type}

/-! ## Overflow of `max - min + 1` -/

theorem addM_over_debug [Target] {x : Nat} (h : x = usizeMax) : addM .debug x 1 = .error (.panic "attempt to add with overflow") := by
  subst h
  unfold addM
  rw [if_neg (by omega)]

theorem addM_over_release [Target] {x : Nat} (h : x = usizeMax) : addM .release x 1 = .ok 0 := by
  subst h
  unfold addM
  rw [if_neg (by omega)]
  simp only [usizeMax_succ, Nat.mod_self]

/-- Everything about `DenseScalarLookupMap::new`. -/
theorem DenseMap.new_cases [Target] (b : Build) {cmp : K → K → Ordering} {index : K → Nat} (h : LawfulScalar cmp index)
    {es S : List (K × V)} (hS : S = sortedAndDedupped es (fun x y => cmp x.1 y.1)) (hlen : es.length < sizeLimit) :
    (S = [] → DenseMap.new b cmp index es = .ok (.ok DenseMap.default)) ∧
    ∀ f l, S[0]? = some f → S[S.length - 1]? = some l →
      (index l.1 + 1 - index f.1 = S.length →
        ∃ m, DenseMap.new b cmp index es = .ok (.ok m) ∧ DenseMap.Inv index m ∧ m.entries = S) ∧
      (index l.1 + 1 - index f.1 ≠ S.length →
        (index l.1 - index f.1 < usizeMax ∨ b = .release → DenseMap.new b cmp index es = .ok (.error notContiguous)) ∧
        (index l.1 - index f.1 = usizeMax → b = .debug →
          DenseMap.new b cmp index es = .error (.panic "attempt to add with overflow"))) := by
  have hs := sortedAndDedupped_strict (h.lawfulCmp.entry (V := V)) es
  have hsl := survivors_length_le (fun a b => cmp a b == .eq) es
  have hl := (sortedAndDedupped_survivors h.lawfulCmp es).length_eq
  unfold DenseMap.new
  rw [← hS] at hs hl ⊢
  refine ⟨fun he => by rw [he]; rfl, fun f l hf hl' => ?_⟩
  have hne : S ≠ [] := by intro h0; rw [h0] at hf; simp at hf
  have hpos : 1 ≤ S.length := List.length_pos_of_ne_nil hne
  have hemp : S.isEmpty = false := by rw [List.isEmpty_eq_false_iff]; exact hne
  obtain ⟨f', l', hf', hl'', hfl, hall⟩ := ascending_ends h hs hne
  rw [hf] at hf'; rw [hl'] at hl''
  cases hf'; cases hl''
  have hb := h.bound l.1
  simp only [hemp, Bool.false_eq_true, if_false, idx_ok hf, subM_ok b hpos, idx_ok hl', bind, Except.bind,
    subM_ok b (show index f.1 ≤ index l.1 by omega)]
  constructor
  · intro hc
    obtain ⟨m, h1, h2, h3⟩ := DenseMap.fromSortedAndDedupped_spec b h hs hf hl' hc
    have hu := target_cases
    rw [addM_ok b (by omega)]
    refine ⟨m, ?_, h2, h3⟩
    simp only [if_pos (show S.length = index l.1 - index f.1 + 1 by omega), h1]
  · intro hc
    constructor
    · rintro (hsp | rfl)
      · rw [addM_ok b (by omega)]
        simp only [if_neg (show ¬ S.length = index l.1 - index f.1 + 1 by omega)]
      · by_cases hsp : index l.1 - index f.1 < usizeMax
        · rw [addM_ok .release (by omega)]
          simp only [if_neg (show ¬ S.length = index l.1 - index f.1 + 1 by omega)]
        · rw [addM_over_release (by omega)]
          simp only [if_neg (show ¬ S.length = 0 by omega)]
    · intro hsp hb
      subst hb
      rw [addM_over_debug hsp]

/-- `SparseScalarLookupMap::from_sorted_and_dedupped` fails on a range that wraps around. -/
theorem SparseMap.fromSorted_over [Target] (b : Build) {index : K → Nat} {S : List (K × V)} {f l : K × V} (hf : S[0]? = some f)
    (hl : S[S.length - 1]? = some l) (hsp : index l.1 - index f.1 = usizeMax) :
    ∃ x, SparseMap.fromSortedAndDedupped b index S = .error x := by
  have hu := target_cases
  unfold SparseMap.fromSortedAndDedupped
  cases S with
  | nil => simp at hf
  | cons e rest =>
    simp only [idx_ok hf, subM_ok b (show 1 ≤ (e :: rest).length by simp), idx_ok hl, bind, Except.bind,
      subM_ok b (show index f.1 ≤ index l.1 by omega)]
    cases b with
    | debug => rw [addM_over_debug hsp]; exact ⟨_, rfl⟩
    | release =>
      rw [addM_over_release hsp]
      simp at hf
      subst hf
      exact ⟨.panic "index out of bounds", by
        simp [vecZeroed_eq, fillLookup, subM_ok .release (Nat.le_refl (index e.1)), bind, Except.bind, setIdx]⟩

/-- A successful `from_sorted_and_dedupped` of the sparse map means that the lookup table was allocatable. -/
theorem SparseMap.fromSorted_ok_size [Target] (b : Build) {cmp : K → K → Ordering} {index : K → Nat}
    (h : LawfulScalar cmp index) {S : List (K × V)} (hs : S.Pairwise (fun a b => cmp a.1 b.1 = .lt))
    {f l : K × V} (hf : S[0]? = some f)
    (hl : S[S.length - 1]? = some l) {m : SparseMap K V} (hm : SparseMap.fromSortedAndDedupped b index S = .ok m) :
    index l.1 + 1 - index f.1 < wordLimit := by
  have hne : S ≠ [] := by intro h0; rw [h0] at hf; simp at hf
  have hpos : 1 ≤ S.length := List.length_pos_of_ne_nil hne
  obtain ⟨f', l', hf', hl'', hfl, hall⟩ := ascending_ends h hs hne
  rw [hf] at hf'; rw [hl] at hl''
  cases hf'; cases hl''
  have hb := h.bound l.1
  by_cases hsp : index l.1 - index f.1 = usizeMax
  · obtain ⟨x, hx⟩ := SparseMap.fromSorted_over b hf hl hsp
    rw [hx] at hm; cases hm
  · unfold SparseMap.fromSortedAndDedupped at hm
    by_contra hbig
    simp only [idx_ok hf, subM_ok b hpos, idx_ok hl, bind, Except.bind,
      subM_ok b (show index f.1 ≤ index l.1 by omega),
      addM_ok b (show index l.1 - index f.1 + 1 ≤ usizeMax by omega), vecZeroed_eq,
      if_neg (show ¬ index l.1 - index f.1 + 1 < wordLimit by omega)] at hm
    cases hm

theorem analyzeScalarKeys_over [Target] (b : Build) {l : List Nat} (hb : ∀ x ∈ l, x ≤ usizeMax)
    {mn mx : Nat} (hmn : mn ∈ l) (hmx : mx ∈ l) (hspan : mx - mn = usizeMax) :
    (b = .debug → analyzeScalarKeys b l = .error (.panic "attempt to add with overflow")) ∧
    (b = .release → analyzeScalarKeys b l = .ok .sparseRange) := by
  have hne : l ≠ [] := List.ne_nil_of_mem hmn
  obtain ⟨mn', mx', h1, h2, h3, h4⟩ := scalarScan_spec hne hb
  have hm1 := h4 mn hmn
  have hm2 := h4 mx hmx
  have hm3 := hb mx' h3
  have hsp : mx' - mn' = usizeMax := by omega
  have hl : l.length ≠ 0 := fun h => hne (List.length_eq_zero_iff.1 h)
  unfold analyzeScalarKeys
  rw [h1]
  constructor
  · rintro rfl
    simp only [if_neg hl, subM_ok .debug (show mn' ≤ mx' by omega), addM_over_debug hsp, bind, Except.bind]
  · rintro rfl
    simp only [if_neg hl, subM_ok .release (show mn' ≤ mx' by omega), addM_over_release hsp, bind, Except.bind]
    simp [scalarDecide, Ne.symm hl, alwaysSparseThreshold]

/-- `FzScalarMap::new` fails whenever two keys are a full `usize` range apart. -/
theorem FzScalarMap.new_over [Target] (b : Build) (sort : Sorter (K × V)) {cmp : K → K → Ordering} {index : K → Nat}
    (h : LawfulScalar cmp index) {es : List (K × V)} {x y : K × V} (hx : x ∈ es) (hy : y ∈ es)
    (hspan : index x.1 - index y.1 = usizeMax) : ∃ e, FzScalarMap.new b sort cmp index es = .error e := by
  have hp := sortedAndDedupped_survivors h.lawfulCmp es
  have hs := sortedAndDedupped_strict (h.lawfulCmp.entry (V := V)) es
  have hmem : ∀ e ∈ es, ∃ e' ∈ sortedAndDedupped es (fun x y => cmp x.1 y.1), index e'.1 = index e.1 := by
    intro e he
    obtain ⟨e', h1, h2⟩ := exists_mem_keepLast (LawfulCmp'.eqLawful (h.lawfulCmp.entry (V := V))) he
    refine ⟨e', hp.mem_iff.2 h1, ?_⟩
    have := h.eq_iff e.1 e'.1
    simp only [h2] at this
    exact (eq_of_beq this.symm).symm
  unfold FzScalarMap.new
  generalize sortedAndDedupped es (fun x y => cmp x.1 y.1) = S at *
  simp only []
  obtain ⟨x', hx', hxi⟩ := hmem x hx
  obtain ⟨y', hy', hyi⟩ := hmem y hy
  have hne : S ≠ [] := List.ne_nil_of_mem hx'
  obtain ⟨h1, h2⟩ := analyzeScalarKeys_over b (l := S.map (fun e => index e.1)) (by
        intro z hz
        obtain ⟨e, _, rfl⟩ := List.mem_map.1 hz
        exact h.bound _) (mn := index y'.1) (mx := index x'.1)
      (List.mem_map.2 ⟨y', hy', rfl⟩) (List.mem_map.2 ⟨x', hx', rfl⟩) (by omega)
  cases b with
  | debug => rw [h1 rfl]; exact ⟨_, rfl⟩
  | release =>
    rw [h2 rfl]
    obtain ⟨f, l, hf, hl', hfl, hall⟩ := ascending_ends h hs hne
    obtain ⟨i, hi⟩ := List.getElem?_of_mem hx'
    obtain ⟨j, hj⟩ := List.getElem?_of_mem hy'
    have a1 := hall i x' hi
    have a2 := hall j y' hj
    have := h.bound l.1
    obtain ⟨e, he⟩ := SparseMap.fromSorted_over .release (index := index) hf hl' (by omega)
    simp only [bind, Except.bind, FzScalarMap.build, he]
    exact ⟨_, rfl⟩

/-! ## Main lemma -/

theorem FzOrderedMap.new_spec [Target] {cmp : K → K → Ordering} (hc : LawfulCmp cmp) (es : List (K × V)) :
    ∃ m, FzOrderedMap.new cmp es = .ok m ∧ EytzingerMap.Inv cmp m ∧
      m.entries.Perm (survivors (fun a b => cmp a b == .eq) es) := EytzingerMap.new_spec hc es

/-- What the property theorems use of a built map. -/
structure Facts (eqK : K → K → Bool) (mt : Q → K → Bool) (es : List (K × V)) (I : MapImpl M Q K V) (m : M)
    (Inv : M → Prop) : Prop where
  eq : LawfulEq' eqK
  query : LawfulQuery eqK mt
  lawful : LawfulMap I eqK mt Inv
  inv : Inv m
  perm : (I.entries m).Perm (survivors eqK es)

end Frozen.Model
