import Verif.Props.Maps
import Mathlib.Data.Finset.Interval
import Mathlib.Order.Interval.Finset.Nat

/-!
# Property theorems: scalar key analysis and the scalar maps' constructors (C17, C18, C19)
-/

namespace Frozen.Props

open Frozen.Spec Frozen.Model

variable {M Q K V : Type}

/-! ## C17 -/

theorem fills_iff {l : List Nat} (hnd : l.Nodup) {mn mx : Nat} (hall : ∀ x ∈ l, mn ≤ x ∧ x ≤ mx)
    (hle : mn ≤ mx) : mx - mn + 1 = l.length ↔ ∀ c, mn ≤ c → c ≤ mx → c ∈ l := by
  have hsub : l.toFinset ⊆ Finset.Icc mn mx := by
    intro x hx
    rw [List.mem_toFinset] at hx
    exact Finset.mem_Icc.2 (hall x hx)
  have hcard : l.toFinset.card = l.length := List.toFinset_card_of_nodup hnd
  have hicc : (Finset.Icc mn mx).card = mx - mn + 1 := by rw [Nat.card_Icc]; omega
  constructor
  · intro h c h1 h2
    have : l.toFinset = Finset.Icc mn mx := Finset.eq_of_subset_of_card_le hsub (by omega)
    rw [← List.mem_toFinset, this]
    exact Finset.mem_Icc.2 ⟨h1, h2⟩
  · intro h
    have : l.toFinset = Finset.Icc mn mx := by
      apply Finset.Subset.antisymm hsub
      intro c hc
      rw [Finset.mem_Icc] at hc
      exact List.mem_toFinset.2 (h c hc.1 hc.2)
    rw [← hcard, this, hicc]

/-- **C17**.  Let `l` be the indices of the distinct keys of a non-empty collection, `mn` and `mx` the smallest and the largest.
If they do not span the whole range of `usize`, the analysis returns normally, in debug and release builds; it picks the
dense representation iff every index between `mn` and `mx` belongs to a key; it picks the sparse one only if the lookup
table has at most `max(128, 10 * count)` slots; it picks hashing iff the keys do not fill the range, the table would have
more than 128 slots, and at least ten times as many slots as there are keys. -/
theorem c17_scalar_analysis [Target] (b : Build) {l : List Nat} (hnd : l.Nodup) (hb : ∀ x ∈ l, x ≤ usizeMax)
    (hn : l.length < sizeLimit) {mn mx : Nat} (hmn : mn ∈ l) (hmx : mx ∈ l) (hall : ∀ x ∈ l, mn ≤ x ∧ x ≤ mx)
    (hspan : mx - mn < usizeMax) :
    ∃ r, analyzeScalarKeys b l = .ok r ∧
      (r = .denseRange ↔ ∀ c, mn ≤ c → c ≤ mx → c ∈ l) ∧
      (r = .sparseRange → mx - mn + 1 ≤ max 128 (10 * l.length)) ∧
      (r = .general ↔ (¬ ∀ c, mn ≤ c → c ≤ mx → c ∈ l) ∧ 128 < mx - mn + 1 ∧ 10 * l.length ≤ mx - mn + 1) := by
  refine ⟨_, analyzeScalarKeys_spec b hb hmn hmx hall hspan, ?_, ?_, ?_⟩
  · rw [← fills_iff hnd hall (hall mx hmx).1]
    unfold scalarDecide
    constructor
    · exact scalarDecide_dense
    · intro h; rw [if_pos h]
  · intro h
    have := scalarDecide_sparse h
    omega
  · rw [← fills_iff hnd hall (hall mx hmx).1]
    have hu := target_cases
    unfold scalarDecide satMul alwaysSparseThreshold maxSparseMultiplier
    split
    · rename_i h; simp [h]
    · rename_i h
      split
      · simp; omega
      · simp; omega

/-- **C17** (the representation is the one the analysis picked).  The map uses a plain array iff the keys fill their
range. -/
theorem c17_representation [Target] (b : Build) {sort : Sorter (K × V)} {cmp : K → K → Ordering}
    {index : K → Nat} (hs : LawfulScalar cmp index) (es : List (K × V)) (hne : es ≠ [])
    (hn : es.length < tableLimit) {m : FzScalarMap K V} (hm : FzScalarMap.new b sort cmp index es = .ok m) :
    (∃ d, m = .dense d) ↔ ∀ x ∈ es, ∀ y ∈ es, ∀ c, index x.1 ≤ c → c ≤ index y.1 → ∃ z ∈ es, index z.1 = c := by
  have hu := target_cases
  have hspan : ∀ x ∈ es, ∀ y ∈ es, index x.1 - index y.1 < usizeMax := by
    intro x hx y hy
    by_contra hge
    have := hs.bound x.1
    obtain ⟨e, he⟩ := FzScalarMap.new_over b sort hs hx hy (by omega)
    rw [he] at hm; cases hm
  have hp := sortedAndDedupped_survivors hs.lawfulCmp es
  have hst := sortedAndDedupped_strict (hs.lawfulCmp.entry (V := V)) es
  have hmem : ∀ c, (∃ e ∈ sortedAndDedupped es (fun x y => cmp x.1 y.1), index e.1 = c) ↔ ∃ e ∈ es, index e.1 = c := by
    intro c
    constructor
    · rintro ⟨e, he, h⟩
      exact ⟨e, survivors_mem (hp.mem_iff.1 he), h⟩
    · rintro ⟨e, he, h⟩
      obtain ⟨e', h1, h2⟩ := exists_mem_keepLast (LawfulCmp'.eqLawful (hs.lawfulCmp.entry (V := V))) he
      refine ⟨e', hp.mem_iff.2 h1, ?_⟩
      have := hs.eq_iff e.1 e'.1
      simp only [h2] at this
      rw [← h]
      exact (eq_of_beq this.symm).symm
  have hsub : ∀ e ∈ sortedAndDedupped es (fun x y => cmp x.1 y.1), e ∈ es := fun e he =>
    survivors_mem (hp.mem_iff.1 he)
  have hSne : sortedAndDedupped es (fun x y => cmp x.1 y.1) ≠ [] := by
    obtain ⟨e, he⟩ := List.exists_mem_of_ne_nil es hne
    obtain ⟨e', he', _⟩ := (hmem (index e.1)).2 ⟨e, he, rfl⟩
    exact List.ne_nil_of_mem he'
  have hlen : (sortedAndDedupped es (fun x y => cmp x.1 y.1)).length ≤ es.length := by
    rw [hp.length_eq]; exact survivors_length_le _ es
  unfold FzScalarMap.new at hm
  generalize sortedAndDedupped es (fun x y => cmp x.1 y.1) = S at *
  obtain ⟨f, l, hf, hl', hfl, hall⟩ := ascending_ends hs hst hSne
  have hfm := List.mem_of_getElem? hf
  have hlm := List.mem_of_getElem? hl'
  have hall' : ∀ x ∈ S.map (fun e => index e.1), index f.1 ≤ x ∧ x ≤ index l.1 := by
    intro x hx
    obtain ⟨e, he, rfl⟩ := List.mem_map.1 hx
    obtain ⟨i, hi⟩ := List.getElem?_of_mem he
    have := hall i e hi
    omega
  have hnd : (S.map (fun e => index e.1)).Nodup := (index_ascending hs hst).imp (by intro a b h; omega)
  obtain ⟨r, hr, hrd, -, -⟩ := c17_scalar_analysis b (l := S.map (fun e => index e.1)) hnd (by
      intro x hx
      obtain ⟨e, _, rfl⟩ := List.mem_map.1 hx
      exact hs.bound _) (by rw [List.length_map]; omega) (mn := index f.1) (mx := index l.1)
    (List.mem_map.2 ⟨f, hfm, rfl⟩) (List.mem_map.2 ⟨l, hlm, rfl⟩) hall' (hspan l (hsub l hlm) f (hsub f hfm))
  have hfill : (∀ c, index f.1 ≤ c → c ≤ index l.1 → c ∈ S.map (fun e => index e.1)) ↔
      ∀ x ∈ es, ∀ y ∈ es, ∀ c, index x.1 ≤ c → c ≤ index y.1 → ∃ z ∈ es, index z.1 = c := by
    constructor
    · intro h x hx y hy c h1 h2
      obtain ⟨x', hx', hxi⟩ := (hmem _).2 ⟨x, hx, rfl⟩
      obtain ⟨y', hy', hyi⟩ := (hmem _).2 ⟨y, hy, rfl⟩
      have a1 := hall' _ (List.mem_map.2 ⟨x', hx', rfl⟩)
      have a2 := hall' _ (List.mem_map.2 ⟨y', hy', rfl⟩)
      obtain ⟨z, hz, hzc⟩ := List.mem_map.1 (h c (by omega) (by omega))
      exact (hmem c).1 ⟨z, hz, hzc⟩
    · intro h c h1 h2
      obtain ⟨z, hz, hzc⟩ := (hmem c).2 (h f (hsub f hfm) l (hsub l hlm) c h1 h2)
      exact List.mem_map.2 ⟨z, hz, hzc⟩
  rw [← hfill, ← hrd]
  simp only [hr, bind, Except.bind] at hm
  cases r with
  | denseRange =>
    simp only [FzScalarMap.build, bind, Except.bind] at hm
    split at hm
    · cases hm
    · cases hm; exact ⟨fun _ => rfl, fun _ => ⟨_, rfl⟩⟩
  | sparseRange =>
    simp only [FzScalarMap.build, bind, Except.bind] at hm
    split at hm
    · cases hm
    · cases hm; simp
  | general =>
    simp only [FzScalarMap.build, bind, Except.bind] at hm
    split at hm
    · cases hm
    · split at hm
      · cases hm
      · cases hm; simp

attribute [local instance] w64 in
example : analyzeScalarKeys .debug [7, 5, 6] = .ok .denseRange := by decide
attribute [local instance] w64 in
example : analyzeScalarKeys .debug [7, 5, 130] = .ok .sparseRange := by decide
attribute [local instance] w64 in
example : analyzeScalarKeys .debug [7, 5, 134] = .ok .general := by decide
attribute [local instance] w64 in
/-- The hypotheses of `c17_scalar_analysis` at keys touching the upper end of the range. -/
example : ∃ r, analyzeScalarKeys .debug [usizeMax, 1] = .ok r ∧ r = .general :=
  ⟨_, (c17_scalar_analysis .debug (l := [usizeMax, 1]) (by decide) (by decide) (by decide) (mn := 1) (mx := usizeMax)
    (by decide) (by decide) (by decide) (by decide)).choose_spec.1, by
    have h := (c17_scalar_analysis .debug (l := [usizeMax, 1]) (by decide) (by decide) (by decide) (mn := 1)
      (mx := usizeMax) (by decide) (by decide) (by decide) (by decide)).choose_spec
    refine h.2.2.2.2 ⟨fun h => ?_, by decide, by decide⟩
    have := h 2 (by decide) (by decide)
    simp [usizeMax] at this⟩

/-! ## C18 -/

attribute [local instance] w64 in
/-- **C18 is false**: with keys `0` and `u64::MAX` construction fails, both with overflow checks (the computation of
`max - min + 1` panics) and without (the wrapped count selects an empty lookup table, and filling it panics). -/
theorem c18_construction_can_fail :
    FzScalarMap.new .debug slotSort u64Cmp UInt64.toNat [(0, "a"), (18446744073709551615, "b")] =
      .error (.panic "attempt to add with overflow") ∧
    FzScalarMap.new .release slotSort u64Cmp UInt64.toNat [(0, "a"), (18446744073709551615, "b")] =
      .error (.panic "index out of bounds") := by
  constructor <;> cbv

attribute [local instance] w32 in
/-- **C18 is false** on targets with 32 bits, with keys `0` and `u32::MAX`. -/
theorem c18_construction_can_fail_32 :
    FzScalarMap.new .debug slotSort u32Cmp UInt32.toNat [(0, "a"), (4294967295, "b")] = .error (.panic "attempt to add with overflow") ∧
    FzScalarMap.new .release slotSort u32Cmp UInt32.toNat [(0, "a"), (4294967295, "b")] = .error (.panic "index out of bounds") := by
  constructor <;> cbv

/-- **C18** (the exact boundary; what is missing for the full claim is false, see `c18_construction_can_fail`).  In every
build mode `FzScalarMap::new` succeeds iff the input does not contain two keys whose indices are `0` and `usize::MAX`. -/
theorem c18_construction_partial [Target] (b : Build) {sort : Sorter (K × V)} (hsort : SorterOk sort) {cmp : K → K → Ordering}
    {index : K → Nat} (hs : LawfulScalar cmp index) (es : List (K × V)) (hn : es.length < tableLimit) :
    (∃ m, FzScalarMap.new b sort cmp index es = .ok m) ↔
      ¬ ∃ x ∈ es, ∃ y ∈ es, index x.1 = 0 ∧ index y.1 = usizeMax := by
  constructor
  · rintro ⟨m, hm⟩ ⟨x, hx, y, hy, h1, h2⟩
    obtain ⟨e, he⟩ := FzScalarMap.new_over b sort hs hy hx (by omega)
    rw [he] at hm; cases hm
  · intro h
    obtain ⟨m, h1, _⟩ := FzScalarMap.new_spec b hsort hs es hn (by
      intro x hx y hy
      by_contra hge
      have := hs.bound x.1
      have hu := target_cases
      exact h ⟨y, hy, x, hx, by omega, by omega⟩)
    exact ⟨m, h1⟩

attribute [local instance] w64 in
/-- Keys one short of the full range are accepted. -/
example : ∃ m, FzScalarMap.new .debug slotSort u64Cmp UInt64.toNat [(1, "a"), (18446744073709551615, "b")] = .ok m :=
  (c18_construction_partial .debug slotSort_ok u64_scalar _ (by decide)).2 (by decide)

/-! ## C19 -/

/-- The indices of the keys form a contiguous range (possibly empty). -/
def Contiguous (index : K → Nat) (es : List (K × V)) : Prop :=
  ∀ x ∈ es, ∀ y ∈ es, ∀ c, index x.1 ≤ c → c ≤ index y.1 → ∃ z ∈ es, index z.1 = c

/-- **C19**.  For keys not spanning the whole range of `usize` (in release builds: for all keys), `DenseScalarLookupMap::new`
returns a map iff the keys form a contiguous range, and that map answers lookups according to the last matching entry;
otherwise it returns the documented error. -/
theorem c19_dense_new [Target] (b : Build) {cmp : K → K → Ordering} {index : K → Nat} (hs : LawfulScalar cmp index)
    (qindex : Q → Nat) (es : List (K × V)) (hn : es.length < sizeLimit)
    (hspan : b = .release ∨ ∀ x ∈ es, ∀ y ∈ es, index x.1 - index y.1 < usizeMax) :
    (Contiguous index es → ∃ m, DenseMap.new b cmp index es = .ok (.ok m) ∧
      Lookups (DenseMap.impl qindex) m (scalarMatch index qindex) es) ∧
    (¬ Contiguous index es → DenseMap.new b cmp index es =
      .ok (.error "keys must be in a contiguous range <= usize::MAX in size")) := by
  obtain ⟨c1, c2⟩ := DenseMap.new_cases b hs (es := es) rfl hn
  have hp := sortedAndDedupped_survivors hs.lawfulCmp es
  have hst := sortedAndDedupped_strict (hs.lawfulCmp.entry (V := V)) es
  have hmem : ∀ c, c ∈ (sortedAndDedupped es (fun x y => cmp x.1 y.1)).map (fun e => index e.1) ↔
      ∃ e ∈ es, index e.1 = c := by
    intro c
    rw [List.mem_map]
    constructor
    · rintro ⟨e, he, h⟩
      exact ⟨e, survivors_mem (hp.mem_iff.1 he), h⟩
    · rintro ⟨e, he, h⟩
      obtain ⟨e', h1, h2⟩ := exists_mem_keepLast (LawfulCmp'.eqLawful (hs.lawfulCmp.entry (V := V))) he
      refine ⟨e', hp.mem_iff.2 h1, ?_⟩
      have := hs.eq_iff e.1 e'.1
      simp only [h2] at this
      rw [← h]
      exact (eq_of_beq this.symm).symm
  have hlook : ∀ m, DenseMap.new b cmp index es = .ok (.ok m) →
      Lookups (DenseMap.impl qindex) m (scalarMatch index qindex) es := by
    intro m hm
    obtain ⟨_, F⟩ := (Built.dense (qindex := qindex) hs hn hm).facts
    exact F.lookups
  have hsub : ∀ e ∈ sortedAndDedupped es (fun x y => cmp x.1 y.1), e ∈ es := fun e he =>
    survivors_mem (hp.mem_iff.1 he)
  generalize sortedAndDedupped es (fun x y => cmp x.1 y.1) = S at *
  by_cases hne : S = []
  · refine ⟨fun _ => ⟨_, c1 hne, hlook _ (c1 hne)⟩, fun h => absurd ?_ h⟩
    intro x hx
    have := (hmem (index x.1)).2 ⟨x, hx, rfl⟩
    rw [hne] at this; cases this
  · obtain ⟨f, l, hf, hl, hfl, hends⟩ := ascending_ends hs hst hne
    have hcontig : Contiguous index es ↔ index l.1 + 1 - index f.1 = S.length := by
      rw [contiguous_iff hs hst hf hl]
      constructor
      · intro h a b c ha hb h1 h2
        obtain ⟨x, hx, rfl⟩ := (hmem a).1 ha
        obtain ⟨y, hy, rfl⟩ := (hmem b).1 hb
        exact (hmem c).2 (h x hx y hy c h1 h2)
      · intro h x hx y hy c h1 h2
        exact (hmem c).1 (h _ _ c ((hmem _).2 ⟨x, hx, rfl⟩) ((hmem _).2 ⟨y, hy, rfl⟩) h1 h2)
    obtain ⟨c3, c4⟩ := c2 f l hf hl
    rw [hcontig]
    refine ⟨fun h => ?_, fun h => ?_⟩
    · obtain ⟨m, hm, _⟩ := c3 h
      exact ⟨m, hm, hlook m hm⟩
    · refine (c4 h).1 ?_
      rcases hspan with h | h
      · exact Or.inr h
      · exact Or.inl (h l (hsub l (List.mem_of_getElem? hl)) f (hsub f (List.mem_of_getElem? hf)))

attribute [local instance] w64 in
/-- The excluded case: with overflow checks, keys `0` and `u64::MAX` panic instead of returning the error. -/
theorem c19_full_span_panics :
    DenseMap.new .debug u64Cmp UInt64.toNat [(0, "a"), (18446744073709551615, "b")] =
      .error (.panic "attempt to add with overflow") := by
  cbv

attribute [local instance] w64 in
example : ∃ m, DenseMap.new .debug u64Cmp UInt64.toNat [(7, "a"), (6, "b"), (7, "c"), (8, "d")] = .ok (.ok m) ∧
    (DenseMap.impl UInt64.toNat).get m 7 = .ok (some "c") := by
  obtain ⟨m, h1, h2⟩ := (c19_dense_new .debug u64_scalar UInt64.toNat [(7, "a"), (6, "b"), (7, "c"), (8, "d")] (by decide)
    (Or.inr (by decide))).1 (by
      intro x hx y hy c h1 h2
      have hx' : 6 ≤ x.1.toNat := by
        simp only [List.mem_cons, List.not_mem_nil, or_false] at hx; rcases hx with rfl | rfl | rfl | rfl <;> decide
      have hy' : y.1.toNat ≤ 8 := by
        simp only [List.mem_cons, List.not_mem_nil, or_false] at hy; rcases hy with rfl | rfl | rfl | rfl <;> decide
      have : c = 6 ∨ c = 7 ∨ c = 8 := by omega
      rcases this with rfl | rfl | rfl <;> decide)
  exact ⟨m, h1, by rw [h2.get]; decide⟩

attribute [local instance] w64 in
example : DenseMap.new .debug u64Cmp UInt64.toNat [(7, "a"), (6, "b"), (9, "d")] =
    .ok (.error "keys must be in a contiguous range <= usize::MAX in size") := by cbv

end Frozen.Props
