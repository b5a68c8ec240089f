import Verif.Lemmas.History
import Verif.Props.Maps

/-! # C23, C24: mutable access, and operation histories -/

namespace Frozen.Props

open Frozen Frozen.Spec Frozen.Model

variable {M Q K V : Type}

/-- **C23** (panic) `get_disjoint_mut` panics whenever two of the keys are equal. -/
theorem c23_duplicates_panic [Target] {eqK : K → K → Bool} {mt : Q → K → Bool} {es : List (K × V)} {I : MapImpl M Q K V}
    {m : M} (hb : Built eqK mt es I m) (eqQ : Q → Q → Bool) (qs : List Q) (hd : ¬ Distinct eqQ qs) :
    I.getDisjointMut eqQ m qs = .error (.panic "duplicate keys found") := by
  obtain ⟨Inv, F⟩ := hb.facts
  rw [disjoint_spec F.lawful F.inv, if_pos]
  by_contra hc
  exact hd ((someEqual_iff eqQ qs).1 (by simpa using hc))

/-- **C23** (results) whenever `get_disjoint_mut` returns, and always for `get_disjoint_unchecked_mut`, the result number
`i` is what `get_mut` returns for key number `i`. -/
theorem c23_results_are_get_mut [Target] {eqK : K → K → Bool} {mt : Q → K → Bool} {es : List (K × V)} {I : MapImpl M Q K V}
    {m : M} (hb : Built eqK mt es I m) (eqQ : Q → Q → Bool) (qs : List Q) :
    ∃ ps, I.getDisjointUncheckedMut m qs = .ok ps ∧ (Distinct eqQ qs → I.getDisjointMut eqQ m qs = .ok ps) ∧
      ps.length = qs.length ∧ ∀ (i : Nat) q p, qs[i]? = some q → ps[i]? = some p → I.getMut m q = .ok p := by
  obtain ⟨Inv, F⟩ := hb.facts
  refine ⟨_, unchecked_spec F.lawful F.inv qs, fun hd => ?_, by simp, ?_⟩
  · rw [disjoint_spec F.lawful F.inv, (someEqual_iff eqQ qs).2 hd]; rfl
  · intro i q p hq hp
    rw [List.getElem?_map, hq] at hp
    cases hp
    exact F.lawful.getMut m F.inv q

/-- **C23** (partial: for query types where two queries that match the same key are equal) the references that
`get_disjoint_mut` returns are to pairwise different entries.

Missing: query types whose `Eq` distinguishes queries that are equivalent to the same key.  For those the claim is
false, see `c23_finer_eq_aliases`. -/
theorem c23_no_aliasing_partial [Target] {eqK : K → K → Bool} {mt : Q → K → Bool} {es : List (K × V)} {I : MapImpl M Q K V}
    {m : M} (hb : Built eqK mt es I m) {eqQ : Q → Q → Bool} (hc : EqCompatible eqQ mt) {qs : List Q}
    {ps : List (Option Nat)} (h : I.getDisjointMut eqQ m qs = .ok ps) {i j a b : Nat} (hij : i < j)
    (hi : ps[i]? = some (some a)) (hj : ps[j]? = some (some b)) : a ≠ b := by
  obtain ⟨Inv, F⟩ := hb.facts
  rw [disjoint_spec F.lawful F.inv] at h
  cases he : someEqual eqQ qs with
  | true => rw [he] at h; cases h
  | false =>
    rw [he] at h
    have hd := (someEqual_iff eqQ qs).1 he
    simp only [Bool.false_eq_true, if_false] at h
    cases h
    rw [List.getElem?_map] at hi hj
    obtain ⟨q, hq, h1⟩ := Option.map_eq_some_iff.1 hi
    obtain ⟨q', hq', h2⟩ := Option.map_eq_some_iff.1 hj
    rintro rfl
    rw [List.findIdx?_eq_some_iff_getElem] at h1 h2
    obtain ⟨_, a1, _⟩ := h1
    obtain ⟨_, a2, _⟩ := h2
    obtain ⟨hli, rfl⟩ := List.getElem?_eq_some_iff.1 hq
    obtain ⟨hlj, rfl⟩ := List.getElem?_eq_some_iff.1 hq'
    have := List.pairwise_iff_getElem.1 hd i j hli hlj hij
    rw [hc _ _ _ a1 a2] at this
    cases this

/-- **C23** (exactly)  Two references that `get_disjoint_mut` returns are to the same entry if and only if some key that was put into the
map is matched by both queries; no condition on the query type's `Eq`. -/
theorem c23_aliasing_iff [Target] {eqK : K → K → Bool} {mt : Q → K → Bool} {es : List (K × V)} {I : MapImpl M Q K V}
    {m : M} (hb : Built eqK mt es I m) {eqQ : Q → Q → Bool} {qs : List Q}
    {ps : List (Option Nat)} (h : I.getDisjointMut eqQ m qs = .ok ps) {i j : Nat} {q q' : Q} (hi : qs[i]? = some q)
    (hj : qs[j]? = some q') :
    (∃ a, ps[i]? = some (some a) ∧ ps[j]? = some (some a)) ↔ ∃ e ∈ es, mt q e.1 = true ∧ mt q' e.1 = true := by
  obtain ⟨Inv, F⟩ := hb.facts
  rw [disjoint_spec F.lawful F.inv] at h
  cases he : someEqual eqQ qs with
  | true => rw [he] at h; cases h
  | false =>
    rw [he] at h
    simp only [Bool.false_eq_true, if_false] at h
    cases h
    simp only [List.getElem?_map, hi, hj, Option.map_some, Option.some.injEq]
    constructor
    · rintro ⟨a, h1, h2⟩
      rw [List.findIdx?_eq_some_iff_getElem] at h1 h2
      obtain ⟨ha, a1, -⟩ := h1
      obtain ⟨_, a2, -⟩ := h2
      exact ⟨_, survivors_mem (F.perm.mem_iff.1 (List.getElem_mem ha)), a1, a2⟩
    · rintro ⟨e, hmem, h1, h2⟩
      have hsame : (fun e : K × V => mt q e.1) = fun e => mt q' e.1 := by
        funext b
        rw [Bool.eq_iff_iff, F.query.congr q _ b.1 h1, F.query.congr q' _ b.1 h2]
      rw [hsame]
      obtain ⟨e', h3, h4⟩ := exists_mem_keepLast (F.eq.comap (fun e : K × V => e.1)) hmem
      have h5 : mt q' e'.1 = true := (F.query.congr q' _ e'.1 h2).2 h4
      cases hf : (I.entries m).findIdx? (fun e => mt q' e.1) with
      | none =>
        rw [List.findIdx?_eq_none_iff] at hf
        have := hf e' (F.perm.mem_iff.2 h3)
        rw [h5] at this; cases this
      | some a => exact ⟨a, rfl, rfl⟩

/-- Queries of the key type itself are fine: `EqCompatible` is symmetry and transitivity of key equality. -/
theorem c23_key_queries_compatible {eqK : K → K → Bool} (he : LawfulEq' eqK) : EqCompatible eqK eqK :=
  fun q q' k h h' => he.trans q k q' h (he.symm _ _ h')

/-- **C23** (refuted in general) A query type may be compared more finely by `Eq` than by `Equivalent`: here queries are
compared as numbers but match keys modulo 10.  That meets the contract of the maps, yet `get_disjoint_mut(&[3, 13])` does
not panic and returns two mutable references to the value of key 3.  In safe Rust this is undefined behaviour. -/
theorem c23_finer_eq_aliases [Target] :
    LawfulEq' mod10Eq ∧ LawfulQuery mod10Eq mod10Eq ∧ LawfulEq' natEq ∧ Distinct natEq [3, 13] ∧
    Built mod10Eq mod10Eq [(3, 'a')] (ScanMap.impl mod10Eq) (ScanMap.new mod10Eq [(3, 'a')]) ∧
    (ScanMap.impl mod10Eq).getDisjointMut natEq (ScanMap.new mod10Eq [(3, 'a')]) [3, 13] = .ok [some 0, some 0] :=
  ⟨mod10Eq_lawful, mod10Eq_query, natEq_lawful, by unfold Distinct; decide, .scan mod10Eq_lawful mod10Eq_query, by decide⟩

attribute [local instance] w64 in
/-- The map and the queries of `c23_finer_eq_aliases` meet the hypotheses of `c23_aliasing_iff`. -/
example : ∃ a, [some 0, some 0][0]? = some (some a) ∧ [some 0, some (0 : Nat)][1]? = some (some a) :=
  (c23_aliasing_iff c23_finer_eq_aliases.2.2.2.2.1 c23_finer_eq_aliases.2.2.2.2.2 (i := 0) (j := 1) rfl rfl).2
    ⟨(3, 'a'), by simp, by decide, by decide⟩

/-- Non-trivial case of `c23_no_aliasing_partial`: two present keys and one absent key. -/
example : (ScanMap.impl natEq).getDisjointMut natEq (ScanMap.new natEq [(3, 'a'), (5, 'b'), (3, 'c')]) [3, 9, 5] =
    .ok [some 1, none, some 0] := by decide

/-- Non-trivial case of `c23_duplicates_panic`. -/
example : ¬ Distinct natEq [3, 9, 3] ∧
    (ScanMap.impl natEq).getDisjointMut natEq (ScanMap.new natEq [(3, 'a'), (5, 'b')]) [3, 9, 3] =
      .error (.panic "duplicate keys found") := ⟨by unfold Distinct; decide, by decide⟩

/-- **C24** For every constructed map there is a dictionary holding exactly the last-wins input entries, such that every
program of reads, writes through `get_mut`, `iter_mut`, `values_mut` and `get_disjoint_mut`, and iterations observes the same on
the map as on the dictionary (in particular never undefined behaviour, and a panic only for `index` of a missing
key or `get_disjoint_mut` of equal keys), and afterwards the map holds the dictionary's entries.  The keys, their number and
their order never change.  The query type must be `EqCompatible`, see C23. -/
theorem c24_any_history [Target] {eqK : K → K → Bool} {mt : Q → K → Bool} {es : List (K × V)} {I : MapImpl M Q K V} {m : M}
    (hb : Built eqK mt es I m) {eqQ : Q → Q → Bool} (hc : EqCompatible eqQ mt) :
    ∃ d, (∀ e, e ∈ d ↔ lastMatch eqK es e.1 = some e) ∧ Distinct eqK (d.map (fun e => e.1)) ∧
      ∀ ops, (I.run eqQ m ops).1 = (dictRun eqQ mt d ops).1 ∧
        I.entries (I.run eqQ m ops).2 = (dictRun eqQ mt d ops).2 ∧
        (I.entries (I.run eqQ m ops).2).map (fun e => e.1) = d.map (fun e => e.1) ∧
        I.len (I.run eqQ m ops).2 = I.len m := by
  obtain ⟨Inv, F⟩ := hb.facts
  refine ⟨I.entries m, F.contents.mem, F.contents.distinct, fun ops => ?_⟩
  obtain ⟨h1, h2, h3⟩ := run_sim F.query F.lawful hc ops F.inv
  have h4 := dictRun_keys eqQ mt (I.entries m) ops
  refine ⟨h1, h2, ?_, ?_⟩
  · rw [h2]; exact h4
  · rw [F.lawful.len _ h3, F.lawful.len _ F.inv, h2]
    have := congrArg List.length h4
    simpa using this

/-- **C24** (safety) No program ever runs into undefined behaviour; and whatever a program has done to a map, no call on it is undefined behaviour,
whatever the queries. -/
theorem c24_no_undefined_behaviour [Target] {eqK : K → K → Bool} {mt : Q → K → Bool} {es : List (K × V)} {I : MapImpl M Q K V}
    {m : M} (hb : Built eqK mt es I m) {eqQ : Q → Q → Bool} (hc : EqCompatible eqQ mt) (ops : List (Op Q K V)) :
    Out.ub ∉ (I.run eqQ m ops).1 ∧ ∀ msg q qs,
      I.get (I.run eqQ m ops).2 q ≠ .error (.ub msg) ∧ I.getMut (I.run eqQ m ops).2 q ≠ .error (.ub msg) ∧
      I.getKeyValue (I.run eqQ m ops).2 q ≠ .error (.ub msg) ∧ I.containsKey (I.run eqQ m ops).2 q ≠ .error (.ub msg) ∧
      I.index (I.run eqQ m ops).2 q ≠ .error (.ub msg) ∧ I.getDisjointMut eqQ (I.run eqQ m ops).2 qs ≠ .error (.ub msg) := by
  constructor
  · obtain ⟨d, _, _, h⟩ := c24_any_history hb hc
    rw [(h ops).1]
    clear h
    have key : ∀ (ops : List (Op Q K V)) (d : List (K × V)), Out.ub ∉ (dictRun eqQ mt d ops).1 := by
      intro ops
      induction ops with
      | nil => intro d; simp [dictRun]
      | cons op ops ih =>
        intro d
        simp only [dictRun, List.mem_cons, not_or]
        refine ⟨?_, ih _⟩
        cases op <;> simp only [dictStep] <;> try (split <;> simp)
        all_goals simp
    exact key ops d
  · obtain ⟨Inv, F⟩ := hb.facts
    obtain ⟨-, -, hi⟩ := run_sim F.query F.lawful hc ops F.inv
    intro msg q qs
    have hg := F.lawful.get _ hi q
    refine ⟨by rw [hg]; simp, by rw [F.lawful.getMut _ hi q]; simp, by rw [F.lawful.getKeyValue _ hi q]; simp, ?_, ?_, ?_⟩
    · rw [F.lawful.containsKey _ hi q]; simp
    · simp only [MapImpl.index, hg, bind, Except.bind]; split <;> simp
    · rw [disjoint_spec F.lawful hi]; split <;> simp

/-- A program on a three-entry map (one key given twice): lookup, store, failing index, bulk update, disjoint stores. -/
example : (((ScanMap.impl natEq).run natEq (ScanMap.new natEq [(3, 10), (5, 20), (3, 30)])
      [.get 3, .update 3 (· + 1), .index 7, .valuesMut (fun i v => v + 100 * i), .disjointMut [5, 3] (fun i v => v + i),
        .iterate]).1) =
    [.value (some 30), .value (some 30), .panic, .unit, .values [some 20, some 131], .entries [(5, 20), (3, 132)]] := by
  decide

end Frozen.Props
