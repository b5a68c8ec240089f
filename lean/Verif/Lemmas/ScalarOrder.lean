import Verif.Lemmas.Built
import Verif.Props.Scalar
import Verif.Props.ScalarOrderSpec

/-! # Lemmas: scalar maps for keys with an order of their own -/

namespace Frozen.Model

open Frozen Frozen.Spec

variable {Q K V : Type}

/-- As `SparseMap.fromSortedAndDedupped_spec`, without assuming that the order is that of the indices. -/
theorem SparseMap.fromEnds_spec [Target] (b : Build) {index : K → Nat} {S : List (K × V)}
    (hdist : S.Pairwise (fun a b => index a.1 ≠ index b.1)) {f l : K × V} (hf : S[0]? = some f) (hl : S[S.length - 1]? = some l)
    (hrange : ∀ e ∈ S, index f.1 ≤ index e.1 ∧ index e.1 ≤ index l.1) (hsz : index l.1 + 1 - index f.1 < wordLimit) :
    ∃ m, SparseMap.fromSortedAndDedupped b index S = .ok m ∧ SparseMap.Inv index m ∧ m.entries = S := by
  have hne : S ≠ [] := by rintro rfl; simp at hf
  have hlen : 0 < S.length := List.length_pos_iff.2 hne
  have hle : index f.1 ≤ index l.1 := (hrange l (List.mem_of_getElem? hl)).1
  have hadd : index l.1 - index f.1 + 1 ≤ usizeMax := by have hu := target_cases; omega
  obtain ⟨L', hL', hlen', hpos, hother⟩ := fillLookup_spec b index (index f.1) S 0
    (List.replicate (index l.1 - index f.1 + 1) 0) hdist (by
      intro e he
      have := hrange e he
      rw [List.length_replicate]
      omega)
  rw [List.length_replicate] at hlen'
  refine ⟨⟨index f.1, index l.1, L', S⟩, by simp only [SparseMap.fromSortedAndDedupped, idx_ok hf, subM_ok b hlen, idx_ok hl, subM_ok b hle,
    addM_ok b hadd, vecZeroed_eq, if_pos (show index l.1 - index f.1 + 1 < wordLimit by omega), hL', bind, Except.bind], ?_, rfl⟩
  constructor
  · simp only [hlen']; omega
  · intro j v hv
    simp only at hv ⊢
    by_cases hex : ∃ e ∈ S, index e.1 = index f.1 + j
    · right
      obtain ⟨e, he, hj⟩ := hex
      obtain ⟨p, hp⟩ := List.getElem?_of_mem he
      have h1 := hpos p e hp
      rw [hj, Nat.add_sub_cancel_left, hv, Option.some.injEq] at h1
      exact ⟨p, e, by omega, hp, hj⟩
    · left
      have hn : ∀ e ∈ S, index e.1 ≠ index f.1 + j := fun e he heq => hex ⟨e, he, heq⟩
      have h1 := hother j hn
      rw [hv] at h1
      obtain ⟨_, h3⟩ := List.getElem?_eq_some_iff.1 h1.symm
      rw [List.getElem_replicate] at h3
      exact ⟨h3.symm, hn⟩
  · exact hrange
  · exact hdist

theorem subM_wrap [Target] {x y : Nat} (h : x < y) (hy : y ≤ usizeMax) : ∃ d, subM .release x y = .ok d ∧ d + y = x + (usizeMax + 1) := by
  refine ⟨(x + 2 ^ Target.width - y) % 2 ^ Target.width, by unfold subM; rw [if_neg (by omega)], ?_⟩
  rw [← usizeMax_succ, Nat.mod_eq_of_lt (by omega)]
  omega

/-- Filling the table panics if some index is outside of it. -/
theorem fillLookup_panics [Target] (b : Build) (index : K → Nat) (mn : Nat) (hmn : mn ≤ usizeMax) :
    ∀ (rest : List (K × V)) (i : Nat) (L : List Nat), (∀ e ∈ rest, mn - index e.1 + L.length ≤ usizeMax) →
      (∃ e ∈ rest, ¬ (mn ≤ index e.1 ∧ index e.1 - mn < L.length)) →
      ∃ msg, fillLookup b index mn rest i L = .error (.panic msg)
  | [], _, _, _, h => by obtain ⟨e, he, -⟩ := h; cases he
  | e :: rest, i, L, hb, h => by
    have hu := target_cases
    unfold fillLookup
    by_cases h1 : mn ≤ index e.1
    · rw [subM_ok b h1]
      simp only [bind, Except.bind]
      by_cases h2 : index e.1 - mn < L.length
      · simp only [setIdx, if_pos h2]
        refine fillLookup_panics b index mn hmn rest (i + 1) _ (fun x hx => ?_) ?_
        · rw [List.length_set]; exact hb x (List.mem_cons_of_mem _ hx)
        · obtain ⟨x, hx, hn⟩ := h
          rcases List.mem_cons.1 hx with rfl | hx
          · exact absurd ⟨h1, h2⟩ hn
          · exact ⟨x, hx, by rw [List.length_set]; exact hn⟩
      · simp only [setIdx, if_neg h2]
        exact ⟨_, rfl⟩
    · cases b with
      | debug =>
        unfold subM
        rw [if_neg h1]
        exact ⟨_, rfl⟩
      | release =>
        have := hb e (by simp)
        obtain ⟨d, hd, hd'⟩ := subM_wrap (Nat.lt_of_not_le h1) hmn
        rw [hd]
        have hn : ¬ d < L.length := by omega
        clear hd' hu
        simp only [bind, Except.bind, setIdx, if_neg hn]
        exact ⟨_, rfl⟩

/-- The sparse map cannot be built if some index is below that of the first or above that of the last entry. -/
theorem SparseMap.fromEnds_panics [Target] (b : Build) {index : K → Nat} {S : List (K × V)} {f l : K × V} (hf : S[0]? = some f)
    (hl : S[S.length - 1]? = some l) {mn mx : Nat} (hall : ∀ e ∈ S, mn ≤ index e.1 ∧ index e.1 ≤ mx) (hmx : mx ≤ usizeMax)
    (hsz : mx - mn + 1 < wordLimit) (h : ¬ ∀ e ∈ S, index f.1 ≤ index e.1 ∧ index e.1 ≤ index l.1) :
    ∃ msg, SparseMap.fromSortedAndDedupped b index S = .error (.panic msg) := by
  have hu := target_cases
  have hne : S ≠ [] := by rintro rfl; simp at hf
  have hlen : 0 < S.length := List.length_pos_iff.2 hne
  have h1 := hall f (List.mem_of_getElem? hf)
  have h2 := hall l (List.mem_of_getElem? hl)
  simp only [SparseMap.fromSortedAndDedupped, idx_ok hf, subM_ok b hlen, idx_ok hl, bind, Except.bind]
  by_cases hle : index f.1 ≤ index l.1
  · rw [subM_ok b hle]
    simp only []
    rw [addM_ok b (by omega)]
    simp only [vecZeroed_eq]
    rw [if_pos (by omega)]
    simp only []
    obtain ⟨msg, hm⟩ := fillLookup_panics b index (index f.1) (by omega) S 0 (List.replicate (index l.1 - index f.1 + 1) 0)
      (by
        intro e he
        have := hall e he
        rw [List.length_replicate]
        omega)
      (by
        by_contra hc
        apply h
        intro e he
        by_contra hn
        apply hc
        refine ⟨e, he, ?_⟩
        rw [List.length_replicate]
        omega)
    rw [hm]
    exact ⟨_, rfl⟩
  · cases b with
    | debug =>
      unfold subM
      rw [if_neg hle]
      exact ⟨_, rfl⟩
    | release =>
      obtain ⟨d, hd, hd'⟩ := subM_wrap (Nat.lt_of_not_le hle) (show index f.1 ≤ usizeMax by omega)
      rw [hd]
      simp only []
      by_cases hc : d + 1 ≤ usizeMax
      · rw [addM_ok _ hc]
        have hn : ¬ d + 1 < wordLimit := by omega
        simp only [vecZeroed_eq, if_neg hn]
        exact ⟨_, rfl⟩
      · have ha : addM .release d 1 = .ok 0 := by
          have hd1 : d + 1 = usizeMax + 1 := by omega
          unfold addM
          rw [if_neg hc, hd1]
          simp only [usizeMax_succ, Nat.mod_self]
        rw [ha]
        simp only [vecZeroed_eq]
        rw [if_pos wordLimit_pos]
        cases S with
        | nil => simp at hf
        | cons e rest =>
          simp at hf
          subst hf
          simp only [List.replicate_zero, fillLookup, subM_ok .release (Nat.le_refl (index e.1)), bind, Except.bind, setIdx, Nat.sub_self,
            List.length_nil, Nat.lt_irrefl, if_false]
          exact ⟨_, rfl⟩

/-! ## The order of the entries -/

open Frozen.Props

theorem _root_.Frozen.Spec.LawfulCmp.le_of_eq {cmp : K → K → Ordering} (h : LawfulCmp cmp) {a b : K} (hab : cmp a b = .eq) :
    cmp a b ≠ .gt ∧ cmp b a ≠ .gt := by
  refine ⟨by rw [hab]; decide, ?_⟩
  rw [h.swap, hab]; decide

theorem _root_.Frozen.Spec.LawfulCmp.le_congr {cmp : K → K → Ordering} (h : LawfulCmp cmp) {a a' b b' : K} (ha : cmp a a' = .eq)
    (hb : cmp b b' = .eq) (hab : cmp a b ≠ .gt) : cmp a' b' ≠ .gt :=
  h.trans _ _ _ (h.le_of_eq ha).2 (h.trans _ _ _ hab (h.le_of_eq hb).1)

theorem _root_.Frozen.Spec.LawfulCmp.lt_iff {cmp : K → K → Ordering} (h : LawfulCmp cmp) (a b : K) :
    cmp a b = .lt ↔ ¬ cmp b a ≠ .gt := by
  rw [h.swap a b]
  cases cmp b a <;> simp [Ordering.swap]

theorem _root_.Frozen.Spec.LawfulCmp.eq_iff' {cmp : K → K → Ordering} (h : LawfulCmp cmp) (a b : K) :
    cmp a b = .eq ↔ cmp a b ≠ .gt ∧ cmp b a ≠ .gt := by
  rw [h.swap b a]
  cases cmp a b <;> simp [Ordering.swap]

/-- The order of the indices. -/
def indexCmp (index : K → Nat) (a b : K) : Ordering := compare (index a) (index b)

theorem _root_.Frozen.Props.ScalarKeys.byIndex [Target] {cmp : K → K → Ordering} {index : K → Nat} (H : ScalarKeys cmp index) :
    LawfulScalar (indexCmp index) index := ⟨fun _ _ => rfl, H.bound⟩

theorem _root_.Frozen.Props.ScalarKeys.eqv [Target] {cmp : K → K → Ordering} {index : K → Nat} (H : ScalarKeys cmp index) :
    (fun a b => indexCmp index a b == .eq) = fun a b => cmp a b == .eq := by
  funext a b
  rw [Bool.eq_iff_iff, beq_iff_eq, beq_iff_eq, ← H.same a b]
  unfold indexCmp
  exact Nat.compare_eq_eq

/-- What `FzScalarMap::new` works with. -/
structure NewForm (cmp : K → K → Ordering) (index : K → Nat) (es : List (K × V)) (R : List Nat) (S : List (K × V)) (f l : K × V) :
    Prop where
  perm : S.Perm (survivors (fun a b => cmp a b == .eq) es)
  lt : S.Pairwise (fun a b => cmp a.1 b.1 = .lt)
  first : S[0]? = some f
  last : S[S.length - 1]? = some l
  len : S.length = R.length
  mem : ∀ n, n ∈ R ↔ ∃ e ∈ S, index e.1 = n
  rep : ∀ e ∈ es, ∃ e' ∈ S, cmp e.1 e'.1 = .eq
  sub : ∀ e ∈ S, e ∈ es
  lo : ∀ e ∈ es, cmp f.1 e.1 ≠ .gt
  hi : ∀ e ∈ es, cmp e.1 l.1 ≠ .gt

theorem sorted_le {cmp : K → K → Ordering} (h : LawfulCmp cmp) {S : List (K × V)} (hs : S.Pairwise (fun a b => cmp a.1 b.1 = .lt))
    {i j : Nat} {a b : K × V} (ha : S[i]? = some a) (hb : S[j]? = some b) (hij : i ≤ j) : cmp a.1 b.1 ≠ .gt := by
  rcases Nat.lt_or_eq_of_le hij with hij | rfl
  · rw [List.pairwise_iff_getElem] at hs
    obtain ⟨hi, rfl⟩ := List.getElem?_eq_some_iff.1 ha
    obtain ⟨hj, rfl⟩ := List.getElem?_eq_some_iff.1 hb
    rw [hs i j hi hj hij]; decide
  · rw [ha] at hb
    cases hb
    rw [h.refl]; decide

theorem FzScalarMap.new_form [Target] (b : Build) (sort : Sorter (K × V)) {cmp : K → K → Ordering} {index : K → Nat} (H : ScalarKeys cmp index)
    {es : List (K × V)} {R : List Nat} {mn mx : Nat} (I : Indices index es R mn mx) (hspan : mx - mn < usizeMax) :
    ∃ S f l, NewForm cmp index es R S f l ∧
      FzScalarMap.new b sort cmp index es = FzScalarMap.build b sort index S (scalarDecide (mx - mn + 1) R.length) := by
  have hp := sortedAndDedupped_survivors H.ord es
  have hs := sortedAndDedupped_strict (H.ord.entry (V := V)) es
  have hE : LawfulEq' (fun a b => cmp a b == .eq) := LawfulCmp'.eqLawful H.ord
  have hsub : ∀ e ∈ sortedAndDedupped es (fun x y => cmp x.1 y.1), e ∈ es := fun e he => survivors_mem (hp.mem_iff.1 he)
  have hrep : ∀ e ∈ es, ∃ e' ∈ sortedAndDedupped es (fun x y => cmp x.1 y.1), cmp e.1 e'.1 = .eq := by
    intro e he
    obtain ⟨e', h3, h4⟩ := exists_mem_keepLast hE.entry he
    exact ⟨e', hp.mem_iff.2 h3, eq_of_beq h4⟩
  unfold FzScalarMap.new
  generalize sortedAndDedupped es (fun x y => cmp x.1 y.1) = S at *
  have hmem : ∀ n, n ∈ R ↔ ∃ e ∈ S, index e.1 = n := by
    intro n
    rw [I.mem]
    constructor
    · rintro ⟨e, he, rfl⟩
      obtain ⟨e', he', hc⟩ := hrep e he
      exact ⟨e', he', ((H.same _ _).2 hc).symm⟩
    · rintro ⟨e, he, hn⟩
      exact ⟨e, hsub e he, hn⟩
  have hnd : (S.map (fun e => index e.1)).Nodup := by
    rw [List.Nodup, List.pairwise_map]
    refine hs.imp ?_
    intro a b hab he
    rw [(H.same _ _).1 he] at hab
    cases hab
  have hlen : S.length = R.length := by
    have hperm : (S.map (fun e => index e.1)).Perm R := by
      rw [List.perm_ext_iff_of_nodup hnd I.nodup]
      intro n
      rw [hmem, List.mem_map]
    simpa using hperm.length_eq
  have hpos : 0 < S.length := by
    rw [hlen]
    exact List.length_pos_of_mem I.min
  have hf : S[0]? = some S[0] := List.getElem?_eq_getElem hpos
  have hl : S[S.length - 1]? = some (S[S.length - 1]'(by omega)) := List.getElem?_eq_getElem (by omega)
  refine ⟨S, _, _, ⟨hp, hs, hf, hl, hlen, hmem, hrep, hsub, ?_, ?_⟩, ?_⟩
  · intro e he
    obtain ⟨e', he', hc⟩ := hrep e he
    obtain ⟨j, hj⟩ := List.getElem?_of_mem he'
    exact H.ord.trans _ _ _ (sorted_le H.ord hs hf hj (Nat.zero_le j)) (H.ord.le_of_eq hc).2
  · intro e he
    obtain ⟨e', he', hc⟩ := hrep e he
    obtain ⟨j, hj⟩ := List.getElem?_of_mem he'
    have := (List.getElem?_eq_some_iff.1 hj).1
    exact H.ord.trans _ _ _ (H.ord.le_of_eq hc).1 (sorted_le H.ord hs hj hl (by omega))
  · simp only []
    have hA := analyzeScalarKeys_spec b (l := S.map (fun e => index e.1)) (by
        intro x hx
        obtain ⟨e, _, rfl⟩ := List.mem_map.1 hx
        exact H.bound _) (mn := mn) (mx := mx)
      (List.mem_map.2 ((hmem mn).1 I.min)) (List.mem_map.2 ((hmem mx).1 I.max)) (by
        intro x hx
        exact I.range x ((hmem x).2 (List.mem_map.1 hx))) hspan
    rw [hA]
    simp only [bind, Except.bind, List.length_map, hlen]

theorem scalarDecide_cases [Target] {es : List (K × V)} {index : K → Nat} {R : List Nat} {mn mx : Nat} (I : Indices index es R mn mx)
    (hsz : R.length < tableLimit) :
    (NoGap R mn mx → scalarDecide (mx - mn + 1) R.length = .denseRange) ∧
    (¬ NoGap R mn mx → ¬ Scattered R mn mx → scalarDecide (mx - mn + 1) R.length = .sparseRange) ∧
    (Scattered R mn mx → scalarDecide (mx - mn + 1) R.length = .general) := by
  have hle := (I.range mn I.min).2
  have hfill := fills_iff I.nodup I.range hle
  have hu := target_cases
  refine ⟨fun h => ?_, fun h h' => ?_, fun h => ?_⟩
  · unfold scalarDecide
    rw [if_pos (hfill.2 h)]
  · unfold scalarDecide
    rw [if_neg (fun hc => h (hfill.1 hc)), if_pos]
    simp only [alwaysSparseThreshold, maxSparseMultiplier, satMul]
    by_contra hc
    apply h'
    refine ⟨h, ?_, ?_⟩ <;> omega
  · unfold scalarDecide
    obtain ⟨h, h1, h2⟩ := h
    rw [if_neg (fun hc => h (hfill.1 hc)), if_neg]
    simp only [alwaysSparseThreshold, maxSparseMultiplier, satMul]
    omega

theorem Indices.bound {index : K → Nat} {es : List (K × V)} {R : List Nat} {mn mx : Nat} (I : Indices index es R mn mx) :
    R.length ≤ es.length := by
  have h1 : R.toFinset ⊆ (es.map (fun e => index e.1)).toFinset := by
    intro n hn
    rw [List.mem_toFinset] at *
    rw [List.mem_map]
    exact (I.mem n).1 hn
  have h2 := Finset.card_le_card h1
  rw [List.toFinset_card_of_nodup I.nodup] at h2
  have h3 := (es.map (fun e => index e.1)).toFinset_card_le
  rw [List.length_map] at h3
  omega

section
variable {cmp : K → K → Ordering} {index : K → Nat} {es : List (K × V)} {R : List Nat} {S : List (K × V)} {f l : K × V}

theorem NewForm.ends_iff [Target] (H : ScalarKeys cmp index) (N : NewForm cmp index es R S f l) :
    EndsFit cmp index es ↔ ∀ e ∈ S, index f.1 ≤ index e.1 ∧ index e.1 ≤ index l.1 := by
  have hfm := N.sub f (List.mem_of_getElem? N.first)
  have hlm := N.sub l (List.mem_of_getElem? N.last)
  constructor
  · intro h e he
    exact ⟨(h f hfm).1 N.lo e (N.sub e he), (h l hlm).2 N.hi e (N.sub e he)⟩
  · intro h
    have h' : ∀ e ∈ es, index f.1 ≤ index e.1 ∧ index e.1 ≤ index l.1 := by
      intro e he
      obtain ⟨e', he', hc⟩ := N.rep e he
      rw [(H.same _ _).2 hc]
      exact h e' he'
    intro x hx
    refine ⟨fun hy y hy' => ?_, fun hy y hy' => ?_⟩
    · have : cmp x.1 f.1 = .eq := (H.ord.eq_iff' _ _).2 ⟨hy f hfm, N.lo x hx⟩
      rw [(H.same _ _).2 this]
      exact (h' y hy').1
    · have : cmp x.1 l.1 = .eq := (H.ord.eq_iff' _ _).2 ⟨N.hi x hx, hy l hlm⟩
      rw [(H.same _ _).2 this]
      exact (h' y hy').2

theorem NewForm.ascending_iff [Target] (H : ScalarKeys cmp index) (N : NewForm cmp index es R S f l) :
    Ascending cmp index es ↔ S.Pairwise (fun a b => index a.1 < index b.1) := by
  constructor
  · intro h
    refine List.Pairwise.imp_of_mem ?_ N.lt
    intro a b ha hb hab
    exact h a (N.sub a ha) b (N.sub b hb) hab
  · intro h x hx y hy hxy
    obtain ⟨x', hx', hcx⟩ := N.rep x hx
    obtain ⟨y', hy', hcy⟩ := N.rep y hy
    rw [(H.same _ _).2 hcx, (H.same _ _).2 hcy]
    obtain ⟨i, hi⟩ := List.getElem?_of_mem hx'
    obtain ⟨j, hj⟩ := List.getElem?_of_mem hy'
    have hij : i < j := by
      by_contra hc
      have h1 := sorted_le H.ord N.lt hj hi (by omega)
      have h2 := H.ord.le_congr (a := y'.1) (a' := y.1) (b := x'.1) (b' := x.1)
        (by rw [H.ord.swap, hcy]; rfl) (by rw [H.ord.swap, hcx]; rfl) h1
      exact (H.ord.lt_iff _ _).1 hxy h2
    rw [List.pairwise_iff_getElem] at h
    obtain ⟨hi', rfl⟩ := List.getElem?_eq_some_iff.1 hi
    obtain ⟨hj', rfl⟩ := List.getElem?_eq_some_iff.1 hj
    exact h i j hi' hj' hij

/-- Building succeeds with the right invariant if the order fits. -/
theorem FzScalarMap.build_fits [Target] (b : Build) {sort : Sorter (K × V)} (hsort : SorterOk sort) (H : ScalarKeys cmp index) {mn mx : Nat}
    (I : Indices index es R mn mx) (N : NewForm cmp index es R S f l) (hsz : R.length < tableLimit) (hfit : OrderFits cmp index es R mn mx) :
    ∃ m, FzScalarMap.build b sort index S (scalarDecide (mx - mn + 1) R.length) = .ok m ∧
      FzScalarMap.Inv (indexCmp index) index m ∧ m.entries.Perm S := by
  have hc := scalarDecide_cases I hsz
  have hu := target_cases
  have hmn := (I.range mn I.min).2
  have hlen := N.len
  by_cases hg : NoGap R mn mx
  · rw [hc.1 hg]
    have hasc := (N.ascending_iff H).1 (hfit.1 hg)
    have hdc := fills_iff I.nodup I.range hmn
    have hs' : S.Pairwise (fun a b => indexCmp index a.1 b.1 = .lt) := hasc.imp (fun h => Nat.compare_eq_lt.2 h)
    have hne : S ≠ [] := by rintro rfl; simpa using N.first
    obtain ⟨f', l', hf', hl', h1, hall⟩ := ascending_ends H.byIndex hs' hne
    have hf := N.first
    have hl := N.last
    rw [hf] at hf'; cases hf'
    rw [hl] at hl'; cases hl'
    have h2 := I.range _ ((N.mem _).2 ⟨f, List.mem_of_getElem? hf, rfl⟩)
    have h3 := I.range _ ((N.mem _).2 ⟨l, List.mem_of_getElem? hl, rfl⟩)
    obtain ⟨m, h4, h5, h6⟩ := DenseMap.fromSortedAndDedupped_spec b H.byIndex hs' hf hl (by
      have := hdc.2 hg
      omega)
    refine ⟨.dense m, ?_, h5, by rw [← h6]; exact List.Perm.refl _⟩
    simp only [FzScalarMap.build, h4, bind, Except.bind]
  · by_cases hs : Scattered R mn mx
    · rw [hc.2.2 hs]
      obtain ⟨m, h1, h2, h3⟩ := (HashMap.fromDedupped_spec .large hsort (LawfulCmp'.eqLawful H.ord)
        (hK := scalarHash index) (hk := index) (fun _ => rfl) (Pairwise_lt_distinct N.lt) (by omega)).1 (by
          show _ ≤ usizeMax
          omega)
      refine ⟨.hash m, ?_, ?_, h3⟩
      · simp only [FzScalarMap.build, h1, bind, Except.bind, unwrapR]
      · show HashMap.Inv _ _ _
        rw [H.eqv]
        exact h2
    · rw [hc.2.1 hg hs]
      have hr := (N.ends_iff H).1 (hfit.2 hg hs)
      have hd := scalarDecide_sparse (hc.2.1 hg hs)
      have h2 := I.range _ ((N.mem _).2 ⟨f, List.mem_of_getElem? N.first, rfl⟩)
      have h3 := I.range _ ((N.mem _).2 ⟨l, List.mem_of_getElem? N.last, rfl⟩)
      obtain ⟨m, h4, h5, h6⟩ := SparseMap.fromEnds_spec b (index := index) (S := S) (N.lt.imp (by
        intro a b hab he
        rw [(H.same _ _).1 he] at hab
        cases hab)) N.first N.last hr (by omega)
      refine ⟨.sparse m, ?_, h5, by rw [← h6]; exact List.Perm.refl _⟩
      simp only [FzScalarMap.build, h4, bind, Except.bind]

end

end Frozen.Model
