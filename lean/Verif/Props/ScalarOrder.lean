import Verif.Lemmas.ScalarOrder
import Mathlib.Data.Finset.Max
import Verif.Props.ScalarTrait

/-! # C67: scalar collections whatever order the key type has

The trait `Scalar` asks for an order and for indices, not that they agree. -/

namespace Frozen.Props

open Frozen Frozen.Spec Frozen.Model

variable {K V Q : Type} {cmp : K → K → Ordering} {index : K → Nat} {es : List (K × V)} {R : List Nat} {mn mx : Nat}

/-- **C67** (partial) If the order fits the indices of the keys at hand (not at all if the indices are scattered, at the two ends if they
leave gaps, everywhere if they leave none), then the map can be built and finds for every query the last entry with the query's index. -/
theorem c67_lookups_partial [Target] (b : Build) {sort : Sorter (K × V)} (hsort : SorterOk sort) (H : ScalarKeys cmp index)
    (hsz : es.length < tableLimit) (hspan : ∀ x ∈ es, ∀ y ∈ es, index x.1 - index y.1 < usizeMax)
    (hfit : ∀ R mn mx, Indices index es R mn mx → OrderFits cmp index es R mn mx) (qindex : Q → Nat) :
    ∃ m, FzScalarMap.new b sort cmp index es = .ok m ∧
      Lookups (FzScalarMap.impl qindex (scalarMatch index qindex)) m (scalarMatch index qindex) es ∧
      Contents (FzScalarMap.impl qindex (scalarMatch index qindex)) m (fun a b => cmp a b == .eq) es := by
  have hE : LawfulEq' (fun a b => cmp a b == .eq) := LawfulCmp'.eqLawful H.ord
  suffices h : ∃ m, FzScalarMap.new b sort cmp index es = .ok m ∧ FzScalarMap.Inv (indexCmp index) index m ∧
      m.entries.Perm (survivors (fun a b => cmp a b == .eq) es) by
    obtain ⟨m, h1, h2, h3⟩ := h
    have F : Facts (fun a b => cmp a b == .eq) (scalarMatch index qindex) es (FzScalarMap.impl qindex (scalarMatch index qindex)) m
        (FzScalarMap.Inv (indexCmp index) index) := by
      refine ⟨hE, ?_, ?_, h2, h3⟩
      · rw [← H.eqv]; exact H.byIndex.query qindex
      · rw [← H.eqv]; exact FzScalarMap.lawful H.byIndex qindex
    exact ⟨m, h1, F.lookups, F.contents⟩
  by_cases hne : es = []
  · subst hne
    obtain ⟨m, h1, h2, h3⟩ := FzScalarMap.new_spec b hsort H.byIndex ([] : List (K × V)) (by simp) (by simp)
    have hnil : ∀ c : K → K → Ordering, sortedAndDedupped ([] : List (K × V)) (fun x y => c x.1 y.1) = [] := fun c => by
      simp [sortedAndDedupped]
    refine ⟨m, ?_, h2, h3⟩
    unfold FzScalarMap.new at h1 ⊢
    rw [hnil] at h1 ⊢
    exact h1
  · -- the indices, and their ends
    have hex : ∃ R mn mx, Indices index es R mn mx := by
      obtain ⟨e, es', rfl⟩ := List.exists_cons_of_ne_nil hne
      have hmem : index e.1 ∈ ((e :: es').map (fun e => index e.1)).dedup := by simp
      have hFn : ((e :: es').map (fun e => index e.1)).toFinset.Nonempty := ⟨index e.1, by simp⟩
      refine ⟨((e :: es').map (fun e => index e.1)).dedup, Finset.min' _ hFn, Finset.max' _ hFn, List.nodup_dedup _, fun n => ?_, ?_, ?_, ?_⟩
      · rw [List.mem_dedup, List.mem_map]
      · rw [List.mem_dedup]; exact List.mem_toFinset.1 (Finset.min'_mem _ hFn)
      · rw [List.mem_dedup]; exact List.mem_toFinset.1 (Finset.max'_mem _ hFn)
      · intro n hn
        rw [List.mem_dedup, ← List.mem_toFinset] at hn
        exact ⟨Finset.min'_le _ _ hn, Finset.le_max' _ _ hn⟩
    obtain ⟨R, mn, mx, I⟩ := hex
    have hsp : mx - mn < usizeMax := by
      obtain ⟨x, hx, rfl⟩ := (I.mem _).1 I.max
      obtain ⟨y, hy, rfl⟩ := (I.mem _).1 I.min
      exact hspan x hx y hy
    obtain ⟨S, f, l, N, hnew⟩ := FzScalarMap.new_form b sort H I hsp
    have hR := Model.Indices.bound I
    obtain ⟨m, h1, h2, h3⟩ := FzScalarMap.build_fits b hsort H I N (by omega) (hfit R mn mx I)
    exact ⟨m, by rw [hnew, h1], h2, h3.trans N.perm⟩

/-- **C67** Without gaps the map is always built and no lookup faults, but unless the order is that of the indices some key that is
present is not found, or found with another key's entry. -/
theorem c67_dense_wrong [Target] (b : Build) (sort : Sorter (K × V)) (H : ScalarKeys cmp index) (I : Indices index es R mn mx)
    (hsz : es.length < tableLimit) (hg : NoGap R mn mx) :
    ∃ m, FzScalarMap.new b sort cmp index es = .ok m ∧
      (∀ (Q : Type) (qindex : Q → Nat) (eqv : Q → K → Bool) (q : Q), ∃ r, (FzScalarMap.impl qindex eqv).getKeyValue m q = .ok r) ∧
      (¬ Ascending cmp index es → ∃ e ∈ es,
        (FzScalarMap.impl index (scalarMatch index index)).getKeyValue m e.1 ≠ .ok (lastMatch (scalarMatch index index) es e.1)) := by
  have hu := target_cases
  have hmn := (I.range mn I.min).2
  have hR := Model.Indices.bound I
  have hcount := (fills_iff I.nodup I.range hmn).2 hg
  obtain ⟨S, f, l, N, hnew⟩ := FzScalarMap.new_form b sort H I (by omega)
  rw [(scalarDecide_cases I (by omega)).1 hg] at hnew
  have hlen := N.len
  have hpos : 0 < S.length := by omega
  have h2 := I.range _ ((N.mem _).2 ⟨f, List.mem_of_getElem? N.first, rfl⟩)
  have h3 := I.range _ ((N.mem _).2 ⟨l, List.mem_of_getElem? N.last, rfl⟩)
  refine ⟨.dense ⟨index f.1, index l.1, S⟩, ?_, ?_, ?_⟩
  · rw [hnew]
    simp only [FzScalarMap.build, DenseMap.fromSortedAndDedupped, idx_ok N.first, subM_ok b hpos, idx_ok N.last, bind, Except.bind]
  · intro Q qindex eqv q
    show ∃ r, DenseMap.getKeyValue qindex _ q = .ok r
    unfold DenseMap.getKeyValue
    by_cases hq : qindex q ≥ index f.1 ∧ qindex q ≤ index l.1
    · have hlt : qindex q - index f.1 < S.length := by omega
      rw [if_pos hq, getUnchecked_ok (List.getElem?_eq_getElem hlt)]
      exact ⟨_, rfl⟩
    · rw [if_neg hq]
      exact ⟨_, rfl⟩
  · intro hasc
    by_contra hall
    apply hasc
    rw [N.ascending_iff H]
    have hnd : ∀ (i j : Nat) (a b : K × V), S[i]? = some a → S[j]? = some b → index a.1 = index b.1 → i = j := by
      intro i j a c ha hc he
      have hlt := N.lt
      rw [List.pairwise_iff_getElem] at hlt
      obtain ⟨hi, rfl⟩ := List.getElem?_eq_some_iff.1 ha
      obtain ⟨hj, rfl⟩ := List.getElem?_eq_some_iff.1 hc
      by_contra hne
      rcases Nat.lt_or_gt_of_ne hne with h | h
      · have := hlt i j hi hj h
        rw [(H.same _ _).1 he] at this
        cases this
      · have := hlt j i hj hi h
        rw [(H.same _ _).1 he.symm] at this
        cases this
    have hpos' : ∀ (i : Nat) (e : K × V), S[i]? = some e → index e.1 = index f.1 + i := by
      intro i e he
      have heS := List.mem_of_getElem? he
      have hlast : lastMatch (scalarMatch index index) es e.1 = some e := by
        have hsm : (fun a b => cmp a b == .eq) = scalarMatch index index := by
          funext a c
          rw [Bool.eq_iff_iff]
          unfold scalarMatch
          rw [beq_iff_eq, beq_iff_eq, H.same]
        have := (lastMatch_self (LawfulCmp'.eqLawful H.ord)).1 (N.perm.mem_iff.1 heS)
        rw [← hsm]
        exact this
      have h1 : DenseMap.getKeyValue index ⟨index f.1, index l.1, S⟩ e.1 = .ok (some e) := by
        by_contra hc
        exact hall ⟨e, N.sub e heS, by rw [hlast]; exact hc⟩
      unfold DenseMap.getKeyValue at h1
      by_cases hq : index e.1 ≥ index f.1 ∧ index e.1 ≤ index l.1
      · have hlt : index e.1 - index f.1 < S.length := by
          have := I.range _ ((N.mem _).2 ⟨e, heS, rfl⟩)
          omega
        rw [if_pos hq, getUnchecked_ok (List.getElem?_eq_getElem hlt)] at h1
        simp only [bind, Except.bind, Except.ok.injEq, Option.some.injEq] at h1
        have h4 : S[index e.1 - index f.1]? = some e := by
          rw [List.getElem?_eq_getElem hlt]
          exact congrArg some h1
        have := hnd _ _ _ _ h4 he rfl
        omega
      · rw [if_neg hq] at h1
        cases h1
    rw [List.pairwise_iff_getElem]
    intro i j hi hj hij
    rw [hpos' i _ (List.getElem?_eq_getElem hi), hpos' j _ (List.getElem?_eq_getElem hj)]
    omega

/-- **C67** With gaps, not scattered: if the order does not fit at the ends, building the map panics, with and without overflow
checks. -/
theorem c67_sparse_panics [Target] (b : Build) (sort : Sorter (K × V)) (H : ScalarKeys cmp index) (I : Indices index es R mn mx)
    (hsz : es.length < tableLimit) (hg : ¬ NoGap R mn mx) (hs : ¬ Scattered R mn mx) (he : ¬ EndsFit cmp index es) :
    ∃ msg, FzScalarMap.new b sort cmp index es = .error (.panic msg) := by
  have hu := target_cases
  have hR := Model.Indices.bound I
  have hd := (scalarDecide_cases I (by omega)).2.1 hg hs
  have hd' := scalarDecide_sparse hd
  obtain ⟨S, f, l, N, hnew⟩ := FzScalarMap.new_form b sort H I (by omega)
  rw [hd] at hnew
  obtain ⟨msg, hm⟩ := SparseMap.fromEnds_panics b (index := index) N.first N.last
    (fun e he => I.range _ ((N.mem _).2 ⟨e, he, rfl⟩)) (by
      obtain ⟨x, -, rfl⟩ := (I.mem _).1 I.max
      exact H.bound _) (by omega) (fun h => he ((N.ends_iff H).2 h))
  refine ⟨msg, ?_⟩
  rw [hnew]
  simp only [FzScalarMap.build, hm, bind, Except.bind]

/-- **C67** Exactly: the map can be built and finds what it should if and only if the order fits the indices. -/
theorem c67_lookups_iff [Target] (b : Build) {sort : Sorter (K × V)} (hsort : SorterOk sort) (H : ScalarKeys cmp index)
    (I : Indices index es R mn mx) (hsz : es.length < tableLimit) (hspan : mx - mn < usizeMax) :
    (∃ m, FzScalarMap.new b sort cmp index es = .ok m ∧
      Lookups (FzScalarMap.impl index (scalarMatch index index)) m (scalarMatch index index) es) ↔ OrderFits cmp index es R mn mx := by
  constructor
  · rintro ⟨m, hm, hL⟩
    constructor
    · intro hg
      by_contra ha
      obtain ⟨m', hm', -, hw⟩ := c67_dense_wrong b sort H I hsz hg
      rw [hm] at hm'
      cases hm'
      obtain ⟨e, -, hne⟩ := hw ha
      exact hne (hL.getKeyValue e.1)
    · intro hg hs
      by_contra he
      obtain ⟨msg, hp⟩ := c67_sparse_panics b sort H I hsz hg hs he
      rw [hm] at hp
      cases hp
  · intro hfit
    have huniq : ∀ R' mn' mx', Indices index es R' mn' mx' → OrderFits cmp index es R' mn' mx' := by
      intro R' mn' mx' I'
      have hRR : ∀ n, n ∈ R' ↔ n ∈ R := fun n => by rw [I.mem, I'.mem]
      have e1 : mn' = mn := Nat.le_antisymm (I'.range mn ((hRR _).2 I.min)).1 (I.range mn' ((hRR _).1 I'.min)).1
      have e2 : mx' = mx := Nat.le_antisymm (I.range mx' ((hRR _).1 I'.max)).2 (I'.range mx ((hRR _).2 I.max)).2
      subst e1 e2
      have hlen : R'.length = R.length := ((List.perm_ext_iff_of_nodup I'.nodup I.nodup).2 hRR).length_eq
      have hN : NoGap R' mn' mx' ↔ NoGap R mn' mx' := by
        unfold NoGap
        simp only [hRR]
      refine ⟨fun h => hfit.1 (hN.1 h), fun h h' => hfit.2 (fun hc => h (hN.2 hc)) (fun hc => h' ?_)⟩
      refine ⟨h, hc.2.1, ?_⟩
      rw [hlen]
      exact hc.2.2
    obtain ⟨m, h1, h2, -⟩ := c67_lookups_partial b hsort H hsz (fun x hx y hy => by
      have h1 := I.range _ ((I.mem _).2 ⟨x, hx, rfl⟩)
      have h2 := I.range _ ((I.mem _).2 ⟨y, hy, rfl⟩)
      omega) huniq index
    exact ⟨m, h1, h2⟩

/-- **C67** Exactly: membership alone is right for every value of the key type if and only if the indices are scattered or the order fits at
the two ends. -/
theorem c67_contains_iff [Target] (b : Build) {sort : Sorter (K × V)} (hsort : SorterOk sort) (H : ScalarKeys cmp index)
    (I : Indices index es R mn mx) (hsz : es.length < tableLimit) (hspan : mx - mn < usizeMax) :
    (∃ m, FzScalarMap.new b sort cmp index es = .ok m ∧
      ∀ q : K, ∃ r, (FzScalarMap.impl index (scalarMatch index index)).containsKey m q = .ok r ∧
        (r = true ↔ ∃ e ∈ es, index e.1 = index q)) ↔ (¬ Scattered R mn mx → EndsFit cmp index es) := by
  have hu := target_cases
  have hR := Model.Indices.bound I
  have hgood : OrderFits cmp index es R mn mx → ∃ m, FzScalarMap.new b sort cmp index es = .ok m ∧
      ∀ q : K, ∃ r, (FzScalarMap.impl index (scalarMatch index index)).containsKey m q = .ok r ∧
        (r = true ↔ ∃ e ∈ es, index e.1 = index q) := by
    intro hfit
    obtain ⟨m, hm, hL⟩ := (c67_lookups_iff b hsort H I hsz hspan).2 hfit
    refine ⟨m, hm, fun q => ⟨_, hL.containsKey q, ?_⟩⟩
    constructor
    · intro h
      obtain ⟨e, he⟩ := Option.isSome_iff_exists.1 h
      obtain ⟨h1, h2⟩ := lastMatch_mem he
      exact ⟨e, h1, (eq_of_beq h2).symm⟩
    · rintro ⟨e, he, hq⟩
      rw [lastMatch_eq_getLast?, List.getLast?_isSome]
      refine List.ne_nil_of_mem (List.mem_filter.2 ⟨he, ?_⟩)
      unfold scalarMatch
      rw [hq]
      exact beq_self_eq_true _
  by_cases hs : Scattered R mn mx
  · refine ⟨fun _ h => absurd hs h, fun _ => hgood ⟨fun hg => absurd hg hs.1, fun _ h => absurd hs h⟩⟩
  · by_cases hg : NoGap R mn mx
    · have hmn := (I.range mn I.min).2
      have hcount := (fills_iff I.nodup I.range hmn).2 hg
      obtain ⟨S, f, l, N, hnew⟩ := FzScalarMap.new_form b sort H I (by omega)
      rw [(scalarDecide_cases I (by omega)).1 hg] at hnew
      have hlen := N.len
      have hpos : 0 < S.length := by omega
      have h2 := I.range _ ((N.mem _).2 ⟨f, List.mem_of_getElem? N.first, rfl⟩)
      have h3 := I.range _ ((N.mem _).2 ⟨l, List.mem_of_getElem? N.last, rfl⟩)
      have hm : FzScalarMap.new b sort cmp index es = .ok (.dense ⟨index f.1, index l.1, S⟩) := by
        rw [hnew]
        simp only [FzScalarMap.build, DenseMap.fromSortedAndDedupped, idx_ok N.first, subM_ok b hpos, idx_ok N.last, bind, Except.bind]
      have hcont : ∀ q : K, (FzScalarMap.impl index (scalarMatch index index)).containsKey (.dense ⟨index f.1, index l.1, S⟩) q =
          .ok (decide (index f.1 ≤ index q ∧ index q ≤ index l.1)) := by
        intro q
        show DenseMap.containsKey index _ q = _
        unfold DenseMap.containsKey DenseMap.get
        by_cases hq : index q ≥ index f.1 ∧ index q ≤ index l.1
        · have hlt : index q - index f.1 < S.length := by omega
          rw [if_pos hq, getUnchecked_ok (List.getElem?_eq_getElem hlt), decide_eq_true hq]
          rfl
        · rw [if_neg hq, decide_eq_false hq]
          rfl
      constructor
      · rintro ⟨m, hm', hall⟩ -
        rw [hm] at hm'
        cases hm'
        rw [N.ends_iff H]
        intro e he
        obtain ⟨r, hr, hr'⟩ := hall e.1
        rw [hcont] at hr
        cases hr
        exact of_decide_eq_true (hr'.2 ⟨e, N.sub e he, rfl⟩)
      · intro hE
        have hE := (N.ends_iff H).1 (hE hs)
        refine ⟨_, hm, fun q => ⟨_, hcont q, ?_⟩⟩
        rw [decide_eq_true_iff]
        constructor
        · intro hq
          exact (I.mem _).1 (hg _ (by omega) (by omega))
        · rintro ⟨e, he, hq⟩
          rw [← hq]
          obtain ⟨e', he', hee⟩ := (N.mem _).1 ((I.mem _).2 ⟨e, he, rfl⟩)
          rw [← hee]
          exact hE e' he'
    · constructor
      · rintro ⟨m, hm, -⟩ -
        by_contra he
        obtain ⟨msg, hp⟩ := c67_sparse_panics b sort H I hsz hg hs he
        rw [hm] at hp
        cases hp
      · intro hE
        exact hgood ⟨fun h => absurd h hg, fun _ _ => hE hs⟩

/-- **C67** Two or more keys without gaps in the reverse order: the map is built with all its entries, and no query finds anything. -/
theorem c67_reversed [Target] (b : Build) (sort : Sorter (K × V)) (H : ScalarKeys cmp index) (I : Indices index es R mn mx)
    (hsz : es.length < tableLimit) (hg : NoGap R mn mx) (h2 : mn < mx)
    (hrev : ∀ x ∈ es, ∀ y ∈ es, cmp x.1 y.1 = .lt → index y.1 < index x.1) :
    ∃ m, FzScalarMap.new b sort cmp index es = .ok m ∧ m.len = R.length ∧
      ∀ (Q : Type) (qindex : Q → Nat) (eqv : Q → K → Bool) (q : Q), (FzScalarMap.impl qindex eqv).get m q = .ok none := by
  have hu := target_cases
  have hR := Model.Indices.bound I
  have hcount := (fills_iff I.nodup I.range (by omega)).2 hg
  obtain ⟨S, f, l, N, hnew⟩ := FzScalarMap.new_form b sort H I (by omega)
  rw [(scalarDecide_cases I (by omega)).1 hg] at hnew
  have hlen := N.len
  have hpos : 0 < S.length := by omega
  refine ⟨.dense ⟨index f.1, index l.1, S⟩, ?_, hlen, ?_⟩
  · rw [hnew]
    simp only [FzScalarMap.build, DenseMap.fromSortedAndDedupped, idx_ok N.first, subM_ok b hpos, idx_ok N.last, bind, Except.bind]
  · intro Q qindex eqv q
    have hfl : index l.1 < index f.1 := by
      have hfm := N.sub f (List.mem_of_getElem? N.first)
      have hlm := N.sub l (List.mem_of_getElem? N.last)
      apply hrev f hfm l hlm
      have hlt := N.lt
      rw [List.pairwise_iff_getElem] at hlt
      have := hlt 0 (S.length - 1) hpos (by omega) (by omega)
      obtain ⟨_, e1⟩ := List.getElem?_eq_some_iff.1 N.first
      obtain ⟨_, e2⟩ := List.getElem?_eq_some_iff.1 N.last
      rw [e1, e2] at this
      exact this
    show DenseMap.get qindex _ q = .ok none
    unfold DenseMap.get
    rw [if_neg]
    simp only []
    omega

/-- **C67** An enum with a derived `Scalar` and any lawful order of its own is a scalar key type. -/
theorem c67_derived [Target] {vs : List EnumVariant} {arms : List (String × Nat)} (h : deriveScalar (.enum vs) = .ok arms)
    (hn : (vs.map (fun v => v.ident)).Nodup) (hlen : vs.length ≤ usizeMax) {index : Fin vs.length → Nat}
    (hi : ∀ i, evalMatch arms (vs[i].ident) = some (index i)) {cmp : Fin vs.length → Fin vs.length → Ordering} (hc : LawfulCmp cmp)
    (hanti : ∀ i j, cmp i j = .eq → i = j) : ScalarKeys cmp index := by
  have hL := c16_lawful h hn hlen index hi
  refine ⟨hc, fun a b => ?_, hL.bound⟩
  have h1 : compare a.val b.val = compare (index a) (index b) := hL.cmp a b
  constructor
  · intro he
    rw [he, Nat.compare_eq_eq.2 rfl, Nat.compare_eq_eq] at h1
    have : a = b := Fin.ext h1
    rw [this]
    exact hc.refl b
  · intro he
    rw [hanti a b he]

/-- **C67** A map with all variants of such an enum as keys works if and only if the order is that of the declaration. -/
theorem c67_all_variants [Target] (b : Build) {vs : List EnumVariant} {arms : List (String × Nat)} (h : deriveScalar (.enum vs) = .ok arms)
    (hn : (vs.map (fun v => v.ident)).Nodup) (hsz : vs.length < tableLimit) {index : Fin vs.length → Nat}
    (hi : ∀ i, evalMatch arms (vs[i].ident) = some (index i)) {cmp : Fin vs.length → Fin vs.length → Ordering} (hc : LawfulCmp cmp)
    (hanti : ∀ i j, cmp i j = .eq → i = j) {sort : Sorter (Fin vs.length × V)} (hsort : SorterOk sort) (value : Fin vs.length → V) :
    (∃ m, FzScalarMap.new b sort cmp index ((List.finRange vs.length).map (fun i => (i, value i))) = .ok m ∧
      Lookups (FzScalarMap.impl index (scalarMatch index index)) m (scalarMatch index index)
        ((List.finRange vs.length).map (fun i => (i, value i)))) ↔ ∀ i j, cmp i j = .lt ↔ i < j := by
  have hu := target_cases
  have H := c67_derived h hn (by omega) hi hc hanti
  have hidx : ∀ i, index i = i.val := by
    intro i
    obtain ⟨vs', hd, hx⟩ := c16_index h
    cases hd
    have h1 := hx i.val vs[i] hn (by simp)
    rw [hi i] at h1
    exact Option.some.inj h1
  have hne : vs ≠ [] := by
    rintro rfl
    cases h
  have hpos : 0 < vs.length := List.length_pos_iff.2 hne
  have hmem : ∀ x : Fin vs.length × V, x ∈ (List.finRange vs.length).map (fun i => (i, value i)) ↔ x = (x.1, value x.1) := by
    intro x
    rw [List.mem_map]
    constructor
    · rintro ⟨i, -, rfl⟩; rfl
    · intro hx; exact ⟨x.1, List.mem_finRange _, hx.symm⟩
  have I : Indices index ((List.finRange vs.length).map (fun i => (i, value i))) (List.range vs.length) 0 (vs.length - 1) := by
    refine ⟨List.nodup_range, fun n => ?_, ?_, ?_, ?_⟩
    · rw [List.mem_range]
      constructor
      · intro hlt
        exact ⟨(⟨n, hlt⟩, value ⟨n, hlt⟩), (hmem _).2 rfl, hidx _⟩
      · rintro ⟨e, -, rfl⟩
        rw [hidx]
        exact e.1.isLt
    · rw [List.mem_range]; exact hpos
    · rw [List.mem_range]; omega
    · intro n hn
      rw [List.mem_range] at hn
      omega
  have hg : NoGap (List.range vs.length) 0 (vs.length - 1) := by
    intro c _ hc
    rw [List.mem_range]
    omega
  rw [c67_lookups_iff b hsort H I (by simpa using hsz) (by omega)]
  have hfit : OrderFits cmp index ((List.finRange vs.length).map (fun i => (i, value i))) (List.range vs.length) 0 (vs.length - 1) ↔
      Ascending cmp index ((List.finRange vs.length).map (fun i => (i, value i))) :=
    ⟨fun h => h.1 hg, fun h => ⟨fun _ => h, fun hc => absurd hg hc⟩⟩
  rw [hfit]
  constructor
  · intro ha i j
    have key : ∀ i j, cmp i j = .lt → i < j := by
      intro i j hij
      have := ha (i, value i) ((hmem _).2 rfl) (j, value j) ((hmem _).2 rfl) hij
      rw [hidx, hidx] at this
      exact this
    refine ⟨key i j, fun hij => ?_⟩
    cases hcij : cmp i j with
    | lt => rfl
    | eq => exact absurd (hanti i j hcij) (Fin.ne_of_lt hij)
    | gt =>
      have := key j i (by rw [hc.swap, hcij]; rfl)
      exact absurd hij (Fin.lt_asymm this)
  · intro ha x hx y hy hxy
    rw [hidx, hidx]
    exact (ha x.1 y.1).1 hxy

/-! ## Concrete cases -/

/-- Three variants `A`, `B`, `C` with the order `A < C < B`. -/
def acbRank (i : Fin 3) : Nat := match i with | 0 => 0 | 1 => 2 | 2 => 1

def acb (i j : Fin 3) : Ordering := compare (acbRank i) (acbRank j)

theorem rank_lawful {K : Type} (r : K → Nat) : LawfulCmp (fun a b => compare (r a) (r b)) where
  refl a := Nat.compare_eq_eq.2 rfl
  swap a b := (Nat.compare_swap _ _).symm
  trans a b c h1 h2 := by
    rw [Nat.compare_ne_gt] at *
    omega

theorem acb_keys [Target] : ScalarKeys acb (fun i : Fin 3 => i.val) := by
  have hu := target_cases
  refine ⟨rank_lawful acbRank, ?_, ?_⟩
  · decide
  · intro a
    omega

/-- **C67** Refutation: for an enum `A, B, C` with `A < C < B`, looking up `B` gives the value of `C`, and `C` is not
found. -/
theorem c67_violated [T : Target] (b : Build) (sort : Sorter (Fin 3 × String)) : ∃ m,
    FzScalarMap.new b sort acb (fun i => i.val) [(0, "a"), (1, "b"), (2, "c")] = .ok m ∧
    FzScalarMap.get (fun i : Fin 3 => i.val) (scalarMatch (fun i : Fin 3 => i.val) (fun i : Fin 3 => i.val)) m 0 = .ok (some "a") ∧
    FzScalarMap.get (fun i : Fin 3 => i.val) (scalarMatch (fun i : Fin 3 => i.val) (fun i : Fin 3 => i.val)) m 1 = .ok (some "c") ∧
    FzScalarMap.get (fun i : Fin 3 => i.val) (scalarMatch (fun i : Fin 3 => i.val) (fun i : Fin 3 => i.val)) m 2 = .ok none := by
  refine ⟨.dense ⟨0, 1, [(0, "a"), (2, "c"), (1, "b")]⟩, ?_, rfl, rfl, rfl⟩
  obtain ⟨_, rfl | rfl⟩ := T <;> cases b <;> cbv

attribute [local instance] w64 in
/-- `c67_dense_wrong` applies to it. -/
example (b : Build) (sort : Sorter (Fin 3 × String)) : ∃ m,
    FzScalarMap.new b sort acb (fun i => i.val) [(0, "a"), (1, "b"), (2, "c")] = .ok m ∧ ∃ e ∈ [((0 : Fin 3), "a"), (1, "b"), (2, "c")],
      FzScalarMap.getKeyValue (fun i : Fin 3 => i.val) (scalarMatch (fun i : Fin 3 => i.val) (fun i : Fin 3 => i.val)) m e.1 ≠
        .ok (lastMatch (scalarMatch (fun i : Fin 3 => i.val) (fun i : Fin 3 => i.val)) [(0, "a"), (1, "b"), (2, "c")] e.1) := by
  have I : Indices (fun i : Fin 3 => i.val) [((0 : Fin 3), "a"), (1, "b"), (2, "c")] [0, 1, 2] 0 2 := by
    refine ⟨by decide, fun n => ?_, by decide, by decide, by decide⟩
    simp [eq_comm]
  obtain ⟨m, h1, -, h2⟩ := c67_dense_wrong b sort acb_keys I (by decide) (by intro c _ h; simp; omega)
  exact ⟨m, h1, h2 (fun h => absurd (h (2, "c") (by simp) (1, "b") (by simp) (by decide)) (by decide))⟩

/-- Five keys `u8` in reverse order (as with a wrapper type like `Reverse`). -/
def revCmp (i j : Fin 256) : Ordering := compare (255 - i.val) (255 - j.val)

theorem rev_keys [Target] : ScalarKeys revCmp (fun i : Fin 256 => i.val) := by
  have hu := target_cases
  refine ⟨rank_lawful (fun i : Fin 256 => 255 - i.val), fun a b => ?_, fun a => ?_⟩
  · unfold revCmp
    rw [Nat.compare_eq_eq]
    omega
  · omega

attribute [local instance] w64 in
/-- Reversed keys without gaps: nothing is found. -/
example (b : Build) (sort : Sorter (Fin 256 × Nat)) : ∃ m,
    FzScalarMap.new b sort revCmp (fun i => i.val) [(7, 1), (8, 2), (9, 3)] = .ok m ∧ m.len = 3 ∧
      FzScalarMap.get (fun i : Fin 256 => i.val) (scalarMatch (fun i : Fin 256 => i.val) (fun i : Fin 256 => i.val)) m 8 = .ok none := by
  have I : Indices (fun i : Fin 256 => i.val) [((7 : Fin 256), 1), (8, 2), (9, 3)] [7, 8, 9] 7 9 := by
    refine ⟨by decide, fun n => ?_, by decide, by decide, by decide⟩
    simp [eq_comm]
  obtain ⟨m, h1, h2, h3⟩ := c67_reversed b sort rev_keys I (by decide) (by intro c h1 h2; simp; omega) (by decide) (by decide)
  exact ⟨m, h1, h2, h3 _ _ _ _⟩

attribute [local instance] w64 in
/-- Reversed keys with gaps: the map cannot be built. -/
example (b : Build) (sort : Sorter (Fin 256 × Nat)) :
    ∃ msg, FzScalarMap.new b sort revCmp (fun i => i.val) [(7, 1), (8, 2), (20, 3)] = .error (.panic msg) := by
  have I : Indices (fun i : Fin 256 => i.val) [((7 : Fin 256), 1), (8, 2), (20, 3)] [7, 8, 20] 7 20 := by
    refine ⟨by decide, fun n => ?_, by decide, by decide, by decide⟩
    simp [eq_comm]
  refine c67_sparse_panics b sort rev_keys I (by decide) (fun h => absurd (h 9 (by omega) (by omega)) (by decide))
    (fun h => absurd h.2.1 (by decide)) (fun h => ?_)
  exact absurd ((h (20, 3) (by simp)).1 (by decide) (7, 1) (by simp)) (by decide)

attribute [local instance] w64 in
/-- Reversed keys far apart: the map works. -/
example (b : Build) {sort : Sorter (Fin 256 × Nat)} (hsort : SorterOk sort) : ∃ m,
    FzScalarMap.new b sort revCmp (fun i => i.val) [(7, 1), (200, 2)] = .ok m ∧
      Lookups (FzScalarMap.impl (fun i : Fin 256 => i.val) (scalarMatch (fun i : Fin 256 => i.val) (fun i : Fin 256 => i.val))) m
        (scalarMatch (fun i : Fin 256 => i.val) (fun i : Fin 256 => i.val)) [(7, 1), (200, 2)] := by
  have I : Indices (fun i : Fin 256 => i.val) [((7 : Fin 256), 1), (200, 2)] [7, 200] 7 200 := by
    refine ⟨by decide, fun n => ?_, by decide, by decide, by decide⟩
    simp [eq_comm]
  have hg : ¬ NoGap [7, 200] 7 200 := fun h => absurd (h 8 (by omega) (by omega)) (by decide)
  exact (c67_lookups_iff b hsort rev_keys I (by decide) (by decide)).2
    ⟨fun h => absurd h hg, fun _ h => absurd ⟨hg, by decide, by decide⟩ h⟩

attribute [local instance] w64 in
/-- Keys with gaps that are out of order inside, but not at the ends: the map works. -/
example (b : Build) {sort : Sorter (Fin 3 × String)} (hsort : SorterOk sort) : ∃ m,
    FzScalarMap.new b sort acb (fun i => i.val) [(2, "c"), (0, "a")] = .ok m ∧
      Lookups (FzScalarMap.impl (fun i : Fin 3 => i.val) (scalarMatch (fun i : Fin 3 => i.val) (fun i : Fin 3 => i.val))) m
        (scalarMatch (fun i : Fin 3 => i.val) (fun i : Fin 3 => i.val)) [(2, "c"), (0, "a")] := by
  have I : Indices (fun i : Fin 3 => i.val) [((2 : Fin 3), "c"), (0, "a")] [0, 2] 0 2 := by
    refine ⟨by decide, fun n => ?_, by decide, by decide, by decide⟩
    simp [eq_comm, or_comm]
  refine (c67_lookups_iff b hsort acb_keys I (by decide) (by decide)).2 ⟨fun h => absurd (h 1 (by omega) (by omega)) (by decide), fun _ _ => ?_⟩
  unfold EndsFit
  decide

/-- Four keys with the two inner ones exchanged: membership is right although lookups are not. -/
def innerRank (i : Fin 4) : Nat := match i with | 0 => 0 | 1 => 2 | 2 => 1 | 3 => 3

attribute [local instance] w64 in
example (b : Build) {sort : Sorter (Fin 4 × Unit)} (hsort : SorterOk sort) : ∃ m,
    FzScalarMap.new b sort (fun i j => compare (innerRank i) (innerRank j)) (fun i => i.val) [(0, ()), (1, ()), (2, ()), (3, ())] = .ok m ∧
      ∀ q : Fin 4, ∃ r, FzScalarMap.containsKey (fun i : Fin 4 => i.val) (scalarMatch (fun i : Fin 4 => i.val) (fun i : Fin 4 => i.val)) m q =
        .ok r ∧ (r = true ↔ ∃ e ∈ [((0 : Fin 4), ()), (1, ()), (2, ()), (3, ())], e.1.val = q.val) := by
  have H : ScalarKeys (fun i j => compare (innerRank i) (innerRank j)) (fun i : Fin 4 => i.val) := by
    refine ⟨rank_lawful innerRank, by decide, fun a => ?_⟩
    have := limits_w64
    omega
  have I : Indices (fun i : Fin 4 => i.val) [((0 : Fin 4), ()), (1, ()), (2, ()), (3, ())] [0, 1, 2, 3] 0 3 := by
    refine ⟨by decide, fun n => ?_, by decide, by decide, by decide⟩
    simp [eq_comm]
  refine (c67_contains_iff b hsort H I (by decide) (by decide)).2 (fun _ => ?_)
  unfold EndsFit
  decide

end Frozen.Props
