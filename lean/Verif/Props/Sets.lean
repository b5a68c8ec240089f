import Verif.Lemmas.Sets
import Verif.Props.Maps

/-! # C26-C32, C36: sets and set operations -/

namespace Frozen.Props

open Frozen Frozen.Spec Frozen.Model

variable {M M' Q T : Type}

/-! ## C32: sets -/

/-- **C32** Every constructed set contains exactly the input elements: `get` returns the last matching one, `contains`
agrees with it, the length is the number of items iterated over, and these are one for each class of equal elements. -/
theorem c32_set_contents [Target] {eqT : T → T → Bool} {mt : Q → T → Bool} {xs : List T} {I : SetImpl M Q T} {m : M}
    (h : BuiltSet eqT mt xs I m) : SetContents eqT mt xs I m := h.spec.2.2

/-- **C32** The length of a set is the number of different input elements, however they are counted. -/
theorem c32_len [Target] {eqT : T → T → Bool} {mt : Q → T → Bool} {xs : List T} {I : SetImpl M Q T} {m : M}
    (h : BuiltSet eqT mt xs I m) {R : List T} (hd : Distinct eqT R) (hc : ∀ x ∈ xs, ∃ y ∈ R, eqT x y = true)
    (ho : ∀ y ∈ R, ∃ x ∈ xs, eqT x y = true) : I.len m = R.length := by
  obtain ⟨he, _, hs⟩ := h.spec
  rw [hs.len]
  apply Nat.le_antisymm
  · apply distinct_length_le he hs.distinct
    intro x hx
    exact hc x (lastOf_some ((hs.mem x).1 hx)).1
  · apply distinct_length_le he hd
    intro y hy
    obtain ⟨x, hx, hxy⟩ := ho y hy
    have : (lastOf eqT xs y).isSome = true := by
      rw [lastOf_isSome]
      exact List.any_eq_true.2 ⟨x, hx, he.symm _ _ hxy⟩
    obtain ⟨z, hz⟩ := Option.isSome_iff_exists.1 this
    have h2 := (lastOf_some hz).2
    exact ⟨z, (hs.mem z).2 (by rw [← lastOf_congr he xs h2, hz]), h2⟩

/-- **C32** Seen by the set operations, a set built from `xs` is the set of everything equal to an element of `xs`. -/
theorem c32_is_set [Target] {eqT : T → T → Bool} {mt : T → T → Bool} {xs : List T} {I : SetImpl M T T} {m : M}
    (h : BuiltSet eqT mt xs I m) (hmt : ∀ x y, mt x y = eqT x y) :
    IsSet eqT (fun x => ∃ y ∈ xs, eqT x y = true) (I.view m) := by
  have : mt = eqT := by funext x y; exact hmt x y
  subst this
  obtain ⟨he, _, hs⟩ := h.spec
  refine ⟨fun x => ⟨_, hs.contains x, by simp⟩, fun x hx => ?_, fun x hx => ?_, hs.distinct, hs.len, ?_⟩
  · exact ⟨x, (lastOf_some ((hs.mem x).1 hx)).1, he.refl x⟩
  · have : (lastOf mt xs x).isSome = true := by
      rw [lastOf_isSome]
      simpa using hx
    obtain ⟨z, hz⟩ := Option.isSome_iff_exists.1 this
    have h2 := (lastOf_some hz).2
    exact ⟨z, (hs.mem z).2 (by rw [← lastOf_congr he xs h2, hz]), h2⟩
  · rintro x y hxy ⟨z, hz, hxz⟩
    exact ⟨z, hz, he.trans _ _ _ (he.symm _ _ hxy) hxz⟩

attribute [local instance] w64 in
/-- An ordered set, built from a list with repetitions, queried for a missing and a present element. -/
example : ∃ m, FzOrderedSet.new natCmp [3, 1, 3, 7, 1] = .ok m ∧
    (fzSetImpl (FzOrderedMap.impl natCmp)).contains m 4 = .ok false ∧
    (fzSetImpl (FzOrderedMap.impl natCmp)).get m 7 = .ok (some 7) ∧
    (fzSetImpl (FzOrderedMap.impl natCmp)).len m = 3 := by
  obtain ⟨m, hm, _⟩ := FzOrderedMap.new_spec natCmp_lawful (unitEntries [3, 1, 3, 7, 1])
  have hb : BuiltSet _ _ [3, 1, 3, 7, 1] _ m := .fzOrdered natCmp_lawful natCmp_query hm
  have hs := c32_set_contents hb
  refine ⟨m, hm, by rw [hs.contains]; decide, by rw [hs.get]; decide, ?_⟩
  exact c32_len hb (R := [1, 3, 7]) (by unfold Distinct; decide) (by decide) (by decide)

attribute [local instance] w64 in
/-- Elements that are equal but not identical: equality modulo 10, the last one given is kept. -/
example : (inlineSetImpl (ScanMap.impl mod10Eq)).get (ScanMap.new mod10Eq (unitEntries [12, 5, 22])) 2 =
    .ok (some 22) := by
  rw [(c32_set_contents (.ofMap (.scan mod10Eq_lawful mod10Eq_query))).get]
  decide

/-! ## C36: default sets -/

/-- A set as `Default` makes it: no elements, every query answered in the negative, without failing. -/
def EmptySet (I : SetImpl M Q T) (m : M) : Prop :=
  (∀ q, I.contains m q = .ok false) ∧ (∀ q, I.get m q = .ok none) ∧ I.len m = 0 ∧ I.items m = []

theorem emptySet_of_map {I : MapImpl M Q T Unit} {m : M} (h : EmptyMap I m) :
    EmptySet (fzSetImpl I) m ∧ EmptySet (inlineSetImpl I) m := by
  have hg : ∀ q, getOfMap I m q = .ok none := by
    intro q
    simp only [getOfMap, h.getKeyValue, bind, Except.bind, Option.map_none]
  have hi : (I.iter m).rest.map (fun e => e.1) = [] := by
    show (I.entries m).map _ = []
    rw [h.entries]
    rfl
  refine ⟨⟨h.containsKey, hg, h.len, hi⟩, fun q => ?_, hg, h.len, hi⟩
  show (do let e ← getOfMap I m q; .ok e.isSome) = _
  simp only [hg, bind, Except.bind, Option.isSome_none]

/-- **C36** (sets).  The default set of each type is empty, for queries of any hash code or scalar index. -/
theorem c36_default_sets (hQ : Q → Nat) (mt : Q → T → Bool) (qcmp : Q → T → Ordering) (bhStr bhSlice : Str → Nat) :
    EmptySet (fzSetImpl (FzHashMap.impl hQ mt)) FzHashSet.default ∧
    EmptySet (fzSetImpl (FzOrderedMap.impl qcmp)) FzOrderedSet.default ∧
    EmptySet (fzSetImpl (FzScalarMap.impl hQ mt)) FzScalarSet.default ∧
    EmptySet (fzSetImpl (FzStringMap.impl bhStr bhSlice)) FzStringSet.default := by
  obtain ⟨h1, h2, h3, h4, _⟩ := c36_default_maps (V := Unit) hQ mt qcmp bhStr bhSlice
  exact ⟨(emptySet_of_map h1).1, (emptySet_of_map h2).1, (emptySet_of_map h3).1, (emptySet_of_map h4).1⟩

/-- A query at the end of the index range. -/
example : (fzSetImpl (FzScalarMap.impl UInt64.toNat (scalarMatch UInt64.toNat UInt64.toNat))).contains
    FzScalarSet.default 18446744073709551615 = .ok false :=
  (c36_default_sets UInt64.toNat _ (fun _ _ => .eq) (fun _ => 0) (fun _ => 0)).2.2.1.1 _

/-! ## C26, C27: union, intersection, difference, symmetric difference -/

section ops

variable {eqT : T → T → Bool} {A B : T → Prop} {s1 s2 : SetView T}

theorem produces_of_walks {S : Type} {next : S → Res (Option T × S)} {Inv : S → Prop} {toList : S → List T}
    (w : WalksM next Inv toList) {s : S} (hi : Inv s) {mem : T → Prop} {src : List T}
    (hd : Distinct eqT (toList s)) (hm : ∀ x ∈ toList s, mem x ∧ x ∈ src)
    (hc : ∀ x, mem x → ∃ y ∈ toList s, eqT x y = true) : Produces eqT next s mem src := by
  obtain ⟨s', h1, h2, _⟩ := w.yields _ s hi rfl
  exact ⟨_, s', h1, h2, hd, hm, hc⟩

theorem distinct_filter {l : List T} (h : Distinct eqT l) (p : T → Bool) : Distinct eqT (l.filter p) :=
  List.Pairwise.filter p h

/-- A set followed by those elements of another set that it does not have. -/
theorem distinct_append_missing (he : LawfulEq' eqT) (h1 : IsSet eqT A s1) (h2 : IsSet eqT B s2) {c : T → Bool}
    (hc : ∀ x, c x = true ↔ A x) : Distinct eqT (s1.items ++ s2.items.filter (fun x => !c x)) := by
  unfold Distinct
  rw [List.pairwise_append]
  refine ⟨h1.distinct, distinct_filter h2.distinct _, ?_⟩
  intro x hx y hy
  cases hxy : eqT x y with
  | false => rfl
  | true =>
    have := h1.congr x y hxy (h1.sound x hx)
    rw [List.mem_filter] at hy
    rw [(hc y).2 this] at hy
    simp at hy

theorem union_facts (he : LawfulEq' eqT) (h1 : IsSet eqT A s1) (h2 : IsSet eqT B s2) {c1 : T → Bool}
    (hc : ∀ x, c1 x = true ↔ A x) :
    (∀ x ∈ s1.items ++ s2.items.filter (fun x => !c1 x), (A x ∨ B x) ∧ (x ∈ s1.items ∨ x ∈ s2.items)) ∧
    ∀ x, A x ∨ B x → ∃ y ∈ s1.items ++ s2.items.filter (fun x => !c1 x), eqT x y = true := by
  constructor
  · intro x hx
    rw [List.mem_append, List.mem_filter] at hx
    rcases hx with hx | ⟨hx, _⟩
    · exact ⟨Or.inl (h1.sound x hx), Or.inl hx⟩
    · exact ⟨Or.inr (h2.sound x hx), Or.inr hx⟩
  · intro x hx
    by_cases hA : A x
    · obtain ⟨y, hy, hxy⟩ := h1.complete x hA
      exact ⟨y, List.mem_append_left _ hy, hxy⟩
    · obtain ⟨y, hy, hxy⟩ := h2.complete x (by tauto)
      refine ⟨y, List.mem_append_right _ (List.mem_filter.2 ⟨hy, ?_⟩), hxy⟩
      cases hcy : c1 y with
      | false => rfl
      | true => exact absurd (h1.congr y x (he.symm _ _ hxy) ((hc y).1 hcy)) hA

theorem unionList_facts (he : LawfulEq' eqT) (h1 : IsSet eqT A s1) (h2 : IsSet eqT B s2) {c1 c2 : T → Bool}
    (e1 : ∀ x, c1 x = true ↔ A x) (e2 : ∀ x, c2 x = true ↔ B x) :
    Distinct eqT (unionList c1 c2 (Union.new s1 s2)) ∧
    (∀ x ∈ unionList c1 c2 (Union.new s1 s2), (A x ∨ B x) ∧ x ∈ s1.items ++ s2.items) ∧
    ∀ x, A x ∨ B x → ∃ y ∈ unionList c1 c2 (Union.new s1 s2), eqT x y = true := by
  unfold unionList Union.new
  by_cases hlen : s1.len > s2.len
  · simp only [if_pos hlen]
    obtain ⟨h3, h4⟩ := union_facts he h1 h2 e1
    exact ⟨distinct_append_missing he h1 h2 e1, fun x hx => ⟨(h3 x hx).1, List.mem_append.2 (h3 x hx).2⟩, h4⟩
  · simp only [if_neg hlen]
    obtain ⟨h3, h4⟩ := union_facts he h2 h1 e2
    exact ⟨distinct_append_missing he h2 h1 e2,
      fun x hx => ⟨(h3 x hx).1.symm, List.mem_append.2 (h3 x hx).2.symm⟩, fun x hx => h4 x hx.symm⟩

/-- **C26** `a.union(&b)` gives exactly the elements of `a` or `b`, each once, whatever the sizes. -/
theorem c26_union (he : LawfulEq' eqT) (h1 : IsSet eqT A s1) (h2 : IsSet eqT B s2) :
    Produces eqT Union.next (Union.new s1 s2) (fun x => A x ∨ B x) (s1.items ++ s2.items) := by
  obtain ⟨c1, d1, e1⟩ := h1.decider
  obtain ⟨c2, d2, e2⟩ := h2.decider
  obtain ⟨h3, h4, h5⟩ := unionList_facts he h1 h2 e1 e2
  exact produces_of_walks (union_walks d1 d2) ⟨rfl, rfl⟩ h3 h4 h5

theorem interList_facts (he : LawfulEq' eqT) (h1 : IsSet eqT A s1) (h2 : IsSet eqT B s2) {c1 c2 : T → Bool}
    (e1 : ∀ x, c1 x = true ↔ A x) (e2 : ∀ x, c2 x = true ↔ B x) :
    Distinct eqT (interList c1 c2 (Intersection.new s1 s2)) ∧
    (∀ x ∈ interList c1 c2 (Intersection.new s1 s2), (A x ∧ B x) ∧ x ∈ s1.items ++ s2.items) ∧
    ∀ x, A x ∧ B x → ∃ y ∈ interList c1 c2 (Intersection.new s1 s2), eqT x y = true := by
  unfold interList Intersection.new
  by_cases hlen : s1.len < s2.len
  · simp only [if_pos hlen]
    refine ⟨distinct_filter h1.distinct _, fun x hx => ?_, fun x hx => ?_⟩
    · rw [List.mem_filter] at hx
      exact ⟨⟨h1.sound x hx.1, (e2 x).1 hx.2⟩, List.mem_append_left _ hx.1⟩
    · obtain ⟨y, hy, hxy⟩ := h1.complete x hx.1
      exact ⟨y, List.mem_filter.2 ⟨hy, (e2 y).2 (h2.congr x y hxy hx.2)⟩, hxy⟩
  · simp only [if_neg hlen]
    refine ⟨distinct_filter h2.distinct _, fun x hx => ?_, fun x hx => ?_⟩
    · rw [List.mem_filter] at hx
      exact ⟨⟨(e1 x).1 hx.2, h2.sound x hx.1⟩, List.mem_append_right _ hx.1⟩
    · obtain ⟨y, hy, hxy⟩ := h2.complete x hx.2
      exact ⟨y, List.mem_filter.2 ⟨hy, (e1 y).2 (h1.congr x y hxy hx.1)⟩, hxy⟩

/-- **C27** `a.intersection(&b)` gives exactly the common elements, each once. -/
theorem c27_intersection (he : LawfulEq' eqT) (h1 : IsSet eqT A s1) (h2 : IsSet eqT B s2) :
    Produces eqT Intersection.next (Intersection.new s1 s2) (fun x => A x ∧ B x) (s1.items ++ s2.items) := by
  obtain ⟨c1, d1, e1⟩ := h1.decider
  obtain ⟨c2, d2, e2⟩ := h2.decider
  obtain ⟨h3, h4, h5⟩ := interList_facts he h1 h2 e1 e2
  exact produces_of_walks (intersection_walks d1 d2) ⟨rfl, rfl⟩ h3 h4 h5

theorem diff_facts (he : LawfulEq' eqT) (h1 : IsSet eqT A s1) (h2 : IsSet eqT B s2) {c2 : T → Bool}
    (e2 : ∀ x, c2 x = true ↔ B x) :
    Distinct eqT (s1.items.filter (fun x => !c2 x)) ∧
    (∀ x ∈ s1.items.filter (fun x => !c2 x), (A x ∧ ¬ B x) ∧ x ∈ s1.items) ∧
    ∀ x, A x ∧ ¬ B x → ∃ y ∈ s1.items.filter (fun x => !c2 x), eqT x y = true := by
  refine ⟨distinct_filter h1.distinct _, fun x hx => ?_, fun x hx => ?_⟩
  · rw [List.mem_filter] at hx
    refine ⟨⟨h1.sound x hx.1, fun hB => ?_⟩, hx.1⟩
    have := hx.2
    rw [(e2 x).2 hB] at this
    cases this
  · obtain ⟨y, hy, hxy⟩ := h1.complete x hx.1
    refine ⟨y, List.mem_filter.2 ⟨hy, ?_⟩, hxy⟩
    cases hcy : c2 y with
    | false => rfl
    | true => exact absurd (h2.congr y x (he.symm _ _ hxy) ((e2 y).1 hcy)) hx.2

/-- **C27** `a.difference(&b)` gives exactly the elements of `a` that are not in `b`, each once. -/
theorem c27_difference (he : LawfulEq' eqT) (h1 : IsSet eqT A s1) (h2 : IsSet eqT B s2) :
    Produces eqT Difference.next (Difference.new s1 s2) (fun x => A x ∧ ¬ B x) s1.items := by
  obtain ⟨c2, d2, e2⟩ := h2.decider
  obtain ⟨h3, h4, h5⟩ := diff_facts he h1 h2 e2
  exact produces_of_walks (difference_walks d2) rfl h3 h4 h5

theorem symdiff_facts (he : LawfulEq' eqT) (h1 : IsSet eqT A s1) (h2 : IsSet eqT B s2) {c1 c2 : T → Bool}
    (e1 : ∀ x, c1 x = true ↔ A x) (e2 : ∀ x, c2 x = true ↔ B x) :
    Distinct eqT (s1.items.filter (fun x => !c2 x) ++ s2.items.filter (fun x => !c1 x)) ∧
    (∀ x ∈ s1.items.filter (fun x => !c2 x) ++ s2.items.filter (fun x => !c1 x),
      ((A x ∧ ¬ B x) ∨ (B x ∧ ¬ A x)) ∧ x ∈ s1.items ++ s2.items) ∧
    ∀ x, (A x ∧ ¬ B x) ∨ (B x ∧ ¬ A x) →
      ∃ y ∈ s1.items.filter (fun x => !c2 x) ++ s2.items.filter (fun x => !c1 x), eqT x y = true := by
  obtain ⟨h3, h4, h5⟩ := diff_facts he h1 h2 e2
  obtain ⟨h6, h7, h8⟩ := diff_facts he h2 h1 e1
  refine ⟨?_, fun x hx => ?_, fun x hx => ?_⟩
  · unfold Distinct
    rw [List.pairwise_append]
    refine ⟨h3, h6, fun x hx y hy => ?_⟩
    cases hxy : eqT x y with
    | false => rfl
    | true => exact absurd (h1.congr x y hxy (h4 x hx).1.1) (h7 y hy).1.2
  · rw [List.mem_append] at hx ⊢
    rcases hx with hx | hx
    · exact ⟨Or.inl (h4 x hx).1, Or.inl (h4 x hx).2⟩
    · exact ⟨Or.inr (h7 x hx).1, Or.inr (h7 x hx).2⟩
  · rcases hx with hx | hx
    · obtain ⟨y, hy, hxy⟩ := h5 x hx
      exact ⟨y, List.mem_append_left _ hy, hxy⟩
    · obtain ⟨y, hy, hxy⟩ := h8 x hx
      exact ⟨y, List.mem_append_right _ hy, hxy⟩

theorem symdiff_inv (s1 s2 : SetView T) : (∀ d, (SymmetricDifference.new s1 s2).a = some d → d.s2 = s2) ∧
    ∀ d, (SymmetricDifference.new s1 s2).b = some d → d.s2 = s1 := by
  constructor <;> (rintro d ⟨⟩; rfl)

/-- **C27** `a.symmetric_difference(&b)` gives exactly the elements of one of the sets but not the other, each once. -/
theorem c27_symmetric_difference (he : LawfulEq' eqT) (h1 : IsSet eqT A s1) (h2 : IsSet eqT B s2) :
    Produces eqT SymmetricDifference.next (SymmetricDifference.new s1 s2)
      (fun x => (A x ∧ ¬ B x) ∨ (B x ∧ ¬ A x)) (s1.items ++ s2.items) := by
  obtain ⟨c1, d1, e1⟩ := h1.decider
  obtain ⟨c2, d2, e2⟩ := h2.decider
  obtain ⟨h3, h4, h5⟩ := symdiff_facts he h1 h2 e1 e2
  exact produces_of_walks (symdiff_walks d1 d2) (symdiff_inv s1 s2) h3 h4 h5

end ops

/-- A scan set of numbers, as seen by the set operations. -/
def scanSet (xs : List Nat) : SetView Nat :=
  (inlineSetImpl (ScanMap.impl natEq)).view (ScanMap.new natEq (unitEntries xs))

theorem scanSet_isSet [Target] (xs : List Nat) : IsSet natEq (fun x => ∃ y ∈ xs, natEq x y = true) (scanSet xs) :=
  c32_is_set (.ofMap (.scan natEq_lawful natEq_query)) (fun _ _ => rfl)

attribute [local instance] w64 in
/-- The hypotheses of C26 and C27 for two sets that overlap; and what the operations give for them. -/
example : (∃ A B, IsSet natEq A (scanSet [1, 2, 3]) ∧ IsSet natEq B (scanSet [3, 4])) ∧
    collect Union.next 9 (Union.new (scanSet [1, 2, 3]) (scanSet [3, 4])) = .ok (some [1, 2, 3, 4]) ∧
    collect Intersection.next 9 (Intersection.new (scanSet [1, 2, 3]) (scanSet [3, 4])) = .ok (some [3]) ∧
    collect Difference.next 9 (Difference.new (scanSet [1, 2, 3]) (scanSet [3, 4])) = .ok (some [1, 2]) ∧
    collect SymmetricDifference.next 9 (SymmetricDifference.new (scanSet [1, 2, 3]) (scanSet [3, 4])) =
      .ok (some [1, 2, 4]) :=
  ⟨⟨_, _, scanSet_isSet _, scanSet_isSet _⟩, by rfl, by rfl, by rfl, by rfl⟩

/-! ## C28: size hints -/

section hints

variable {eqT : T → T → Bool} {A B : T → Prop} {s1 s2 : SetView T}

theorem checkedAdd_some [Target] {a b u : Nat} (h : checkedAdd a b = some u) : u = a + b := by
  unfold checkedAdd at h
  split at h
  · cases h; rfl
  · cases h

/-- **C28** The size hint of a difference is right at every point of the iteration. -/
theorem c28_difference (h2 : IsSet eqT B s2) : HintsOk Difference.next Difference.sizeHint (Difference.new s1 s2) := by
  obtain ⟨c2, d2, _⟩ := h2.decider
  intro given s hr
  obtain ⟨_, hi⟩ := (difference_walks d2).reaches hr rfl
  obtain ⟨s', hy, _, _⟩ := (difference_walks d2).yields _ s hi rfl
  refine ⟨_, s', hy, Nat.zero_le _, ?_⟩
  rintro u ⟨⟩
  exact List.length_filter_le _ _

/-- **C28** The size hint of a symmetric difference is right at every point of the iteration. -/
theorem c28_symmetric_difference [Target] (h1 : IsSet eqT A s1) (h2 : IsSet eqT B s2) :
    HintsOk SymmetricDifference.next SymmetricDifference.sizeHint (SymmetricDifference.new s1 s2) := by
  obtain ⟨c1, d1, _⟩ := h1.decider
  obtain ⟨c2, d2, _⟩ := h2.decider
  intro given s hr
  obtain ⟨_, hi⟩ := (symdiff_walks d1 d2).reaches hr (symdiff_inv s1 s2)
  obtain ⟨s', hy, _, _⟩ := (symdiff_walks d1 d2).yields _ s hi rfl
  refine ⟨_, s', hy, ?_⟩
  have hle : ∀ (c : T → Bool) (d : Difference T), (diffList c (some d)).length ≤ d.iter1.length :=
    fun c d => List.length_filter_le _ _
  obtain ⟨a, b⟩ := s
  rw [List.length_append]
  cases a with
  | none =>
    cases b with
    | none => exact ⟨Nat.zero_le _, by rintro u ⟨⟩; exact Nat.le_refl _⟩
    | some b =>
      refine ⟨Nat.zero_le _, ?_⟩
      rintro u ⟨⟩
      simpa [diffList] using hle c1 b
  | some a =>
    cases b with
    | none =>
      refine ⟨Nat.zero_le _, ?_⟩
      rintro u ⟨⟩
      simpa [diffList] using hle c2 a
    | some b =>
      refine ⟨by simp [SymmetricDifference.sizeHint, Difference.sizeHint], ?_⟩
      intro u hu
      have := checkedAdd_some hu
      have h3 := hle c2 a
      have h4 := hle c1 b
      simp only at h3 h4 ⊢
      omega

theorem union_rest (c1 c2 : T → Bool) (u : Model.Union T) : (unionList c1 c2 u).length ≤ u.iter1.length + u.iter2.length := by
  have hle : ∀ (p : T → Bool) (l : List T), (l.filter p).length ≤ l.length := fun p l => List.length_filter_le _ _
  unfold unionList
  split <;> (rw [List.length_append])
  · have := hle (fun x => !c1 x) u.iter2
    omega
  · have := hle (fun x => !c2 x) u.iter1
    omega

/-- **C28**, intersection: right at every point.  The upper bound counts the smaller set, of which every item is still in
the iterator or has been passed. -/
theorem c28_intersection (h1 : IsSet eqT A s1) (h2 : IsSet eqT B s2) :
    HintsOk Intersection.next Intersection.sizeHint (Intersection.new s1 s2) := by
  obtain ⟨c1, d1, _⟩ := h1.decider
  obtain ⟨c2, d2, _⟩ := h2.decider
  intro given s hr
  obtain ⟨hp, hi⟩ := (intersection_walks d1 d2).reaches hr ⟨rfl, rfl⟩
  obtain ⟨s', hy, _, _⟩ := (intersection_walks d1 d2).yields _ s hi rfl
  refine ⟨_, s', hy, Nat.zero_le _, ?_⟩
  rintro u ⟨⟩
  obtain ⟨e1, e2⟩ := hi
  rw [e1, e2]
  have h3 : (interList c1 c2 s).length ≤ (interList c1 c2 (Intersection.new s1 s2)).length := by
    rw [hp, List.length_append]
    omega
  refine Nat.le_trans h3 ?_
  have hle : ∀ (p : T → Bool) (l : List T), (l.filter p).length ≤ l.length := fun p l => List.length_filter_le _ _
  unfold interList Intersection.new
  have hl1 := h1.len
  have hl2 := h2.len
  by_cases hlen : s1.len < s2.len
  · simp only [if_pos hlen]
    have := hle c2 s1.items
    omega
  · simp only [if_neg hlen]
    have := hle c1 s2.items
    omega

/-- **C28**, union, partial: the upper bound is right at every point of the iteration, and the lower bound is right before
the first element has been taken.  What is missing is the lower bound in the middle of the iteration, which is wrong, see
`c28_union_lower_bound_wrong`. -/
theorem c28_union_partial [Target] (he : LawfulEq' eqT) (h1 : IsSet eqT A s1) (h2 : IsSet eqT B s2) :
    (∀ given s, Reaches Union.next (Union.new s1 s2) given s →
      ∃ rest s', Yields Union.next s rest s' ∧ ∀ u, (Union.sizeHint s).2 = some u → rest.length ≤ u) ∧
    ∃ rest s', Yields Union.next (Union.new s1 s2) rest s' ∧ HintOk (Union.sizeHint (Union.new s1 s2)) rest.length := by
  obtain ⟨c1, d1, e1⟩ := h1.decider
  obtain ⟨c2, d2, e2⟩ := h2.decider
  have hup : ∀ (s : Model.Union T) u, (Union.sizeHint s).2 = some u → (unionList c1 c2 s).length ≤ u := by
    intro s u hu
    rw [checkedAdd_some hu]
    exact union_rest c1 c2 s
  constructor
  · intro given s hr
    obtain ⟨_, hi⟩ := (union_walks d1 d2).reaches hr ⟨rfl, rfl⟩
    obtain ⟨s', hy, _, _⟩ := (union_walks d1 d2).yields _ s hi rfl
    exact ⟨_, s', hy, hup s⟩
  · obtain ⟨s', hy, _, _⟩ := (union_walks d1 d2).yields _ (Union.new s1 s2) ⟨rfl, rfl⟩ rfl
    refine ⟨_, s', hy, ?_, hup _⟩
    obtain ⟨h3, h4, h5⟩ := unionList_facts he h1 h2 e1 e2
    show max s1.items.length s2.items.length ≤ _
    refine Nat.max_le.2 ⟨distinct_length_le he h1.distinct fun a ha => h5 a (Or.inl (h1.sound a ha)),
      distinct_length_le he h2.distinct fun a ha => h5 a (Or.inr (h2.sound a ha))⟩

theorem nextNotIn_subset {s : SetView T} : ∀ {l : List T} {p : Option T × List T}, nextNotIn s l = .ok p → ∀ x ∈ p.2, x ∈ l
  | [], p, h => by cases h; simp
  | a :: r, p, h => by
    simp only [nextNotIn, bind, Except.bind] at h
    split at h
    · cases h
    · split at h
      · cases h; intro x hx; exact List.mem_cons_of_mem _ hx
      · intro x hx; exact List.mem_cons_of_mem _ (nextNotIn_subset h x hx)

theorem union_next_subset {u u' : Model.Union T} {o : Option T} (h : Union.next u = .ok (o, u')) :
    u'.s1 = u.s1 ∧ u'.s2 = u.s2 ∧ (∀ x ∈ u'.iter1, x ∈ u.iter1) ∧ ∀ x ∈ u'.iter2, x ∈ u.iter2 := by
  unfold Union.next at h
  split at h
  · split at h
    · rename_i a r hu
      cases h
      exact ⟨rfl, rfl, fun x hx => hu ▸ List.mem_cons_of_mem _ hx, fun x hx => hx⟩
    · simp only [bind, Except.bind] at h
      split at h
      · cases h
      · rename_i p hp
        cases h
        exact ⟨rfl, rfl, fun x hx => hx, nextNotIn_subset hp⟩
  · split at h
    · rename_i a r hu
      cases h
      exact ⟨rfl, rfl, fun x hx => hx, fun x hx => hu ▸ List.mem_cons_of_mem _ hx⟩
    · simp only [bind, Except.bind] at h
      split at h
      · cases h
      · rename_i p hp
        cases h
        exact ⟨rfl, rfl, nextNotIn_subset hp, fun x hx => hx⟩

theorem union_reaches_subset {u u' : Model.Union T} {given : List T} (h : Reaches Union.next u given u') :
    u'.s1 = u.s1 ∧ u'.s2 = u.s2 ∧ (∀ x ∈ u'.iter1, x ∈ u.iter1) ∧ ∀ x ∈ u'.iter2, x ∈ u.iter2 := by
  induction h with
  | refl => exact ⟨rfl, rfl, fun x hx => hx, fun x hx => hx⟩
  | step hn _ ih =>
    obtain ⟨a1, a2, a3, a4⟩ := union_next_subset hn
    obtain ⟨b1, b2, b3, b4⟩ := ih
    exact ⟨b1.trans a1, b2.trans a2, fun x hx => a3 x (b3 x hx), fun x hx => a4 x (b4 x hx)⟩

theorem union_first {s1 s2 : SetView T} :
    (s1.len > s2.len → ∀ l l2 : List T, Reaches Union.next ⟨s1, l, s2, l2⟩ l ⟨s1, [], s2, l2⟩) ∧
    (¬ s1.len > s2.len → ∀ l l1 : List T, Reaches Union.next ⟨s1, l1, s2, l⟩ l ⟨s1, l1, s2, []⟩) := by
  constructor
  · intro h l l2
    induction l with
    | nil => exact .refl
    | cons a l ih => exact .step (by simp only [Union.next, if_pos h]) ih
  · intro h l l1
    induction l with
    | nil => exact .refl
    | cons a l ih => exact .step (by simp only [Union.next, if_neg h]) ih

/-- **C28**, union, exactly: the size hints are right throughout the iteration if and only if the two sets have no element in
common. -/
theorem c28_union_iff [Target] (h1 : IsSet eqT A s1) (h2 : IsSet eqT B s2) :
    HintsOk Union.next Union.sizeHint (Union.new s1 s2) ↔ ∀ x, ¬ (A x ∧ B x) := by
  obtain ⟨c1, d1, e1⟩ := h1.decider
  obtain ⟨c2, d2, e2⟩ := h2.decider
  constructor
  · rintro h x ⟨hA, hB⟩
    by_cases hlen : s1.len > s2.len
    · obtain ⟨rest, s', hy, hl, -⟩ := h _ _ (union_first.1 hlen s1.items s2.items)
      obtain ⟨s'', hy', -⟩ := (union_walks d1 d2).yields _ ⟨s1, [], s2, s2.items⟩ ⟨rfl, rfl⟩ rfl
      rw [(Yields.unique hy hy').1] at hl
      simp only [unionList, if_pos hlen, List.nil_append, Union.sizeHint, List.length_nil, Nat.zero_max] at hl
      obtain ⟨y, hy, hxy⟩ := h2.complete x hB
      have := List.length_filter_eq_length_iff.1 (Nat.le_antisymm (List.length_filter_le _ _) hl) y hy
      simp [(e1 y).2 (h1.congr x y hxy hA)] at this
    · obtain ⟨rest, s', hy, hl, -⟩ := h _ _ (union_first.2 hlen s2.items s1.items)
      obtain ⟨s'', hy', -⟩ := (union_walks d1 d2).yields _ ⟨s1, s1.items, s2, []⟩ ⟨rfl, rfl⟩ rfl
      rw [(Yields.unique hy hy').1] at hl
      simp only [unionList, if_neg hlen, List.nil_append, Union.sizeHint, List.length_nil, Nat.max_zero] at hl
      obtain ⟨y, hy, hxy⟩ := h1.complete x hA
      have := List.length_filter_eq_length_iff.1 (Nat.le_antisymm (List.length_filter_le _ _) hl) y hy
      simp [(e2 y).2 (h2.congr x y hxy hB)] at this
  · intro hd given s hr
    obtain ⟨_, hi⟩ := (union_walks d1 d2).reaches hr ⟨rfl, rfl⟩
    obtain ⟨s', hy, _, _⟩ := (union_walks d1 d2).yields _ s hi rfl
    refine ⟨_, s', hy, ?_, ?_⟩
    · obtain ⟨-, -, i1, i2⟩ := union_reaches_subset hr
      unfold unionList Union.sizeHint
      have f1 : s.iter2.filter (fun x => !c1 x) = s.iter2 := by
        rw [List.filter_eq_self]
        intro y hy
        have hB := h2.sound y (i2 y hy)
        simp only [Bool.not_eq_true', ← Bool.not_eq_true, e1]
        exact fun hA => hd y ⟨hA, hB⟩
      have f2 : s.iter1.filter (fun x => !c2 x) = s.iter1 := by
        rw [List.filter_eq_self]
        intro y hy
        have hA := h1.sound y (i1 y hy)
        simp only [Bool.not_eq_true', ← Bool.not_eq_true, e2]
        exact fun hB => hd y ⟨hA, hB⟩
      rw [f1, f2]
      split <;> rw [List.length_append] <;> simp only <;> omega
    · intro u hu
      rw [checkedAdd_some hu]
      exact union_rest c1 c2 s

/-- **C28** is false for unions: for two equal sets of two elements, after both elements have been taken, the hint still
promises two more.  (Code that trusts the lower bound, e.g. to reserve memory, is told a wrong number.) -/
theorem c28_union_lower_bound_wrong [T : Target] :
    ∃ s, Reaches Union.next (Union.new (scanSet [1, 2]) (scanSet [1, 2])) [1, 2] s ∧ Union.sizeHint s = (2, some 2) ∧
      ∃ s', Yields Union.next s [] s' := by
  obtain ⟨_, rfl | rfl⟩ := T <;>
    exact ⟨⟨scanSet [1, 2], [1, 2], scanSet [1, 2], []⟩, .step (by rfl) (.step (by rfl) .refl), by rfl,
      ⟨scanSet [1, 2], [], scanSet [1, 2], []⟩, .nil (by rfl)⟩

/-- **C28** so the statement that holds for the three other operations fails for the union. -/
theorem c28_union_refuted [Target] : ¬ HintsOk Union.next Union.sizeHint (Union.new (scanSet [1, 2]) (scanSet [1, 2])) := by
  intro h
  obtain ⟨s, hr, hh, s', hy⟩ := c28_union_lower_bound_wrong
  obtain ⟨rest, s'', hy', hl, _⟩ := h _ s hr
  have : rest = [] := (Yields.unique hy' hy).1
  subst this
  rw [hh] at hl
  cases hl

attribute [local instance] w64 in
/-- Disjoint sets meet the condition of `c28_union_iff`; `{1, 2, 3}` and `{3}` do not. -/
example : HintsOk Union.next Union.sizeHint (Union.new (scanSet [1, 2]) (scanSet [3])) ∧
    ¬ HintsOk Union.next Union.sizeHint (Union.new (scanSet [1, 2, 3]) (scanSet [3])) := by
  constructor
  · refine (c28_union_iff (scanSet_isSet _) (scanSet_isSet _)).2 ?_
    rintro x ⟨⟨y, hy, h1⟩, z, hz, h2⟩
    have h1 : x = y := eq_of_beq h1
    have h2 : x = z := eq_of_beq h2
    simp only [List.mem_cons, List.not_mem_nil, or_false] at hy hz
    omega
  · intro h
    exact (c28_union_iff (scanSet_isSet _) (scanSet_isSet _)).1 h 3 ⟨⟨3, by simp, rfl⟩, 3, by simp, rfl⟩

end hints

/-! ## C29, C30: comparisons -/

section cmp

variable {eqT : T → T → Bool} {A B : T → Prop} {s1 s2 : SetView T}

theorem subset_iff_items (h1 : IsSet eqT A s1) (h2 : IsSet eqT B s2) (he : LawfulEq' eqT) :
    (∀ x ∈ s1.items, B x) ↔ ∀ x, A x → B x := by
  constructor
  · intro h x hx
    obtain ⟨y, hy, hxy⟩ := h1.complete x hx
    exact h2.congr y x (he.symm _ _ hxy) (h y hy)
  · intro h x hx
    exact h x (h1.sound x hx)

theorem subset_len (h1 : IsSet eqT A s1) (h2 : IsSet eqT B s2) (he : LawfulEq' eqT) (h : ∀ x, A x → B x) :
    s1.len ≤ s2.len := by
  rw [h1.len, h2.len]
  exact distinct_length_le he h1.distinct fun a ha => h2.complete a (h a (h1.sound a ha))

/-- **C29** `a.is_subset(&b)` returns, and is true exactly when every element of `a` is in `b`. -/
theorem c29_is_subset (he : LawfulEq' eqT) (h1 : IsSet eqT A s1) (h2 : IsSet eqT B s2) :
    ∃ b, isSubset s1 s2 = .ok b ∧ (b = true ↔ ∀ x, A x → B x) := by
  obtain ⟨c2, d2, e2⟩ := h2.decider
  unfold isSubset
  by_cases hl : s1.len ≤ s2.len
  · rw [if_pos hl, allM_spec d2]
    refine ⟨_, rfl, ?_⟩
    rw [List.all_eq_true, ← subset_iff_items h1 h2 he]
    exact ⟨fun h x hx => (e2 x).1 (h x hx), fun h x hx => (e2 x).2 (h x hx)⟩
  · rw [if_neg hl]
    refine ⟨false, rfl, by simp, fun h => absurd (subset_len h1 h2 he h) hl⟩

/-- **C29** `a.is_superset(&b)` returns, and is true exactly when every element of `b` is in `a`. -/
theorem c29_is_superset (he : LawfulEq' eqT) (h1 : IsSet eqT A s1) (h2 : IsSet eqT B s2) :
    ∃ b, isSuperset s1 s2 = .ok b ∧ (b = true ↔ ∀ x, B x → A x) := by
  have : isSuperset s1 s2 = isSubset s2 s1 := rfl
  rw [this]
  exact c29_is_subset he h2 h1

/-- **C29** `a.is_disjoint(&b)` returns, and is true exactly when the sets have no common element. -/
theorem c29_is_disjoint (he : LawfulEq' eqT) (h1 : IsSet eqT A s1) (h2 : IsSet eqT B s2) :
    ∃ b, isDisjoint s1 s2 = .ok b ∧ (b = true ↔ ∀ x, ¬ (A x ∧ B x)) := by
  have key : ∀ {A B : T → Prop} {s1 s2 : SetView T}, IsSet eqT A s1 → IsSet eqT B s2 →
      ∃ b, allM s2.lacks s1.items = .ok b ∧ (b = true ↔ ∀ x, ¬ (A x ∧ B x)) := by
    intro A B s1 s2 h1 h2
    obtain ⟨c2, d2, e2⟩ := h2.decider
    rw [allM_spec (c := fun x => !c2 x) (fun x => by simp only [SetView.lacks, d2, bind, Except.bind])]
    refine ⟨_, rfl, ?_⟩
    rw [List.all_eq_true]
    constructor
    · rintro h x ⟨hA, hB⟩
      obtain ⟨y, hy, hxy⟩ := h1.complete x hA
      have := h y hy
      rw [(e2 y).2 (h2.congr x y hxy hB)] at this
      cases this
    · intro h x hx
      cases hc : c2 x with
      | false => rfl
      | true => exact absurd ⟨h1.sound x hx, (e2 x).1 hc⟩ (h x)
  unfold isDisjoint
  split
  · exact key h1 h2
  · obtain ⟨b, hb, hi⟩ := key h2 h1
    exact ⟨b, hb, hi.trans ⟨fun h x hx => h x hx.symm, fun h x hx => h x hx.symm⟩⟩

/-- **C30** `a == b` returns, and is true exactly when the sets have the same elements. -/
theorem c30_set_eq (he : LawfulEq' eqT) (h1 : IsSet eqT A s1) (h2 : IsSet eqT B s2) :
    ∃ b, setEq s1 s2 = .ok b ∧ (b = true ↔ ∀ x, A x ↔ B x) := by
  obtain ⟨c2, d2, e2⟩ := h2.decider
  unfold setEq
  by_cases hl : s1.len = s2.len
  · rw [if_neg (by simp [hl]), allM_spec d2]
    refine ⟨_, rfl, ?_⟩
    rw [List.all_eq_true]
    constructor
    · intro h
      have hAB := (subset_iff_items h1 h2 he).1 fun x hx => (e2 x).1 (h x hx)
      have hback := covers_of_length_eq he h1.distinct h2.distinct (by rw [← h1.len, ← h2.len, hl])
        (fun a ha => h2.complete a (hAB a (h1.sound a ha)))
      refine fun x => ⟨hAB x, fun hx => ?_⟩
      exact (subset_iff_items h2 h1 he).1 (fun y hy => by
        obtain ⟨z, hz, hyz⟩ := hback y hy
        exact h1.congr z y (he.symm _ _ hyz) (h1.sound z hz)) x hx
    · intro h x hx
      exact (e2 x).2 ((h x).1 (h1.sound x hx))
  · rw [if_pos (by simp [hl])]
    refine ⟨false, rfl, by simp, fun h => absurd ?_ hl⟩
    exact Nat.le_antisymm (subset_len h1 h2 he fun x => (h x).1) (subset_len h2 h1 he fun x => (h x).2)

end cmp

/-- **C30** Two constructed sets, of any types, are `==` exactly when they were given the same elements up to equality. -/
theorem c30_built_set_eq [Target] {eqT mt mt' : T → T → Bool} {xs ys : List T} {I : SetImpl M T T} {J : SetImpl M' T T} {m : M}
    {m' : M'} (h1 : BuiltSet eqT mt xs I m) (h2 : BuiltSet eqT mt' ys J m') (hmt : ∀ x y, mt x y = eqT x y)
    (hmt' : ∀ x y, mt' x y = eqT x y) : ∃ b, setEq (I.view m) (J.view m') = .ok b ∧
      (b = true ↔ (∀ x ∈ xs, ∃ y ∈ ys, eqT x y = true) ∧ ∀ y ∈ ys, ∃ x ∈ xs, eqT y x = true) := by
  have he := h1.spec.1
  obtain ⟨b, hb, hi⟩ := c30_set_eq he (c32_is_set h1 hmt) (c32_is_set h2 hmt')
  refine ⟨b, hb, hi.trans ⟨fun h => ⟨fun x hx => (h x).1 ⟨x, hx, he.refl x⟩, fun y hy => (h y).2 ⟨y, hy, he.refl y⟩⟩, ?_⟩⟩
  rintro ⟨h3, h4⟩ x
  constructor
  · rintro ⟨y, hy, hxy⟩
    obtain ⟨z, hz, hyz⟩ := h3 y hy
    exact ⟨z, hz, he.trans _ _ _ hxy hyz⟩
  · rintro ⟨y, hy, hxy⟩
    obtain ⟨z, hz, hyz⟩ := h4 y hy
    exact ⟨z, hz, he.trans _ _ _ hxy hyz⟩

/-- Sets given the same elements in different order and number are equal; a proper subset is not. -/
example : setEq (scanSet [1, 2, 1, 3]) (scanSet [3, 3, 2, 1]) = .ok true ∧
    setEq (scanSet [1, 2]) (scanSet [1, 2, 3]) = .ok false ∧ isSubset (scanSet [1, 2]) (scanSet [1, 2, 3]) = .ok true ∧
    isSuperset (scanSet [1, 2]) (scanSet [1, 2, 3]) = .ok false ∧ isDisjoint (scanSet [1, 2]) (scanSet [2, 3]) = .ok false ∧
    isDisjoint (scanSet [1, 2]) (scanSet [4]) = .ok true :=
  ⟨by rfl, by rfl, by rfl, by rfl, by rfl, by rfl⟩

/-! ## C31: bit operators -/

section bits

variable {eqT : T → T → Bool} {A B : T → Prop} {s1 s2 : SetView T}

/-- A hashbrown set collected from an iterator has exactly the elements the iterator gave. -/
theorem collected_isSet (he : LawfulEq' eqT) {S : Type} {next : S → Res (Option T × S)} {Inv : S → Prop}
    {toList : S → List T} (w : WalksM next Inv toList) {s : S} (hi : Inv s) {mem : T → Prop} {src : List T} {fuel : Nat}
    (hf : (toList s).length < fuel) (hm : ∀ x ∈ toList s, mem x ∧ x ∈ src)
    (hc : ∀ x, mem x → ∃ y ∈ toList s, eqT x y = true) (hg : ∀ x y, eqT x y = true → mem x → mem y) :
    ∃ h, collectHb eqT next fuel s = .ok (some h) ∧ IsSet eqT mem (h.view eqT) ∧ ∀ x ∈ h.elems, x ∈ src := by
  obtain ⟨h1, h2, h3⟩ := hb_fromIter_spec he (toList s)
  refine ⟨HbSet.fromIter eqT (toList s), ?_, ⟨?_, ?_, ?_, h1, rfl, hg⟩, fun x hx => (hm x (h2 x hx)).2⟩
  · simp only [collectHb, w.collect fuel s hi hf, bind, Except.bind, Option.map_some]
  · intro x
    refine ⟨_, rfl, ?_⟩
    rw [List.any_eq_true]
    constructor
    · rintro ⟨y, hy, hxy⟩
      exact hg y x (he.symm _ _ hxy) (hm y (h2 y hy)).1
    · intro hx
      obtain ⟨y, hy, hxy⟩ := hc x hx
      obtain ⟨z, hz, hyz⟩ := h3 y hy
      exact ⟨z, hz, he.trans _ _ _ hxy hyz⟩
  · intro x hx
    exact (hm x (h2 x hx)).1
  · intro x hx
    obtain ⟨y, hy, hxy⟩ := hc x hx
    obtain ⟨z, hz, hyz⟩ := h3 y hy
    exact ⟨z, hz, he.trans _ _ _ hxy hyz⟩

theorem filter_le (p : T → Bool) (l : List T) : (l.filter p).length ≤ l.length := List.length_filter_le _ _

/-- **C31** `&a | &b` returns the hash set with exactly the elements of `a` or `b`. -/
theorem c31_bitor (he : LawfulEq' eqT) (h1 : IsSet eqT A s1) (h2 : IsSet eqT B s2) :
    ∃ h, bitOr eqT s1 s2 = .ok (some h) ∧ IsSet eqT (fun x => A x ∨ B x) (h.view eqT) ∧
      ∀ x ∈ h.elems, x ∈ s1.items ++ s2.items := by
  obtain ⟨c1, d1, e1⟩ := h1.decider
  obtain ⟨c2, d2, e2⟩ := h2.decider
  obtain ⟨h3, h4, h5⟩ := unionList_facts he h1 h2 e1 e2
  refine collected_isSet he (union_walks d1 d2) ⟨rfl, rfl⟩ ?_ h4 h5 ?_
  · have := union_rest c1 c2 (Union.new s1 s2)
    unfold Union.new at *
    simp only at this
    omega
  · rintro x y hxy (h | h)
    · exact Or.inl (h1.congr x y hxy h)
    · exact Or.inr (h2.congr x y hxy h)

/-- **C31** `&a & &b` returns the hash set with exactly the common elements. -/
theorem c31_bitand (he : LawfulEq' eqT) (h1 : IsSet eqT A s1) (h2 : IsSet eqT B s2) :
    ∃ h, bitAnd eqT s1 s2 = .ok (some h) ∧ IsSet eqT (fun x => A x ∧ B x) (h.view eqT) ∧
      ∀ x ∈ h.elems, x ∈ s1.items ++ s2.items := by
  obtain ⟨c1, d1, e1⟩ := h1.decider
  obtain ⟨c2, d2, e2⟩ := h2.decider
  obtain ⟨h3, h4, h5⟩ := interList_facts he h1 h2 e1 e2
  refine collected_isSet he (intersection_walks d1 d2) ⟨rfl, rfl⟩ ?_ h4 h5 ?_
  · have f1 := filter_le c2 s1.items
    have f2 := filter_le c1 s2.items
    unfold interList
    split <;> (simp only [Intersection.new]; omega)
  · rintro x y hxy ⟨h, h'⟩
    exact ⟨h1.congr x y hxy h, h2.congr x y hxy h'⟩

theorem not_congr' (he : LawfulEq' eqT) (h2 : IsSet eqT B s2) {x y : T} (hxy : eqT x y = true) (h : ¬ B x) : ¬ B y :=
  fun hy => h (h2.congr y x (he.symm _ _ hxy) hy)

/-- **C31** `&a - &b` returns the hash set with exactly the elements of `a` that are not in `b`. -/
theorem c31_sub (he : LawfulEq' eqT) (h1 : IsSet eqT A s1) (h2 : IsSet eqT B s2) :
    ∃ h, bitSub eqT s1 s2 = .ok (some h) ∧ IsSet eqT (fun x => A x ∧ ¬ B x) (h.view eqT) ∧
      ∀ x ∈ h.elems, x ∈ s1.items := by
  obtain ⟨c2, d2, e2⟩ := h2.decider
  obtain ⟨h3, h4, h5⟩ := diff_facts he h1 h2 e2
  refine collected_isSet he (difference_walks d2) rfl ?_ h4 h5 ?_
  · have f1 := filter_le (fun x => !c2 x) s1.items
    show (s1.items.filter (fun x => !c2 x)).length < _
    omega
  · rintro x y hxy ⟨h, h'⟩
    exact ⟨h1.congr x y hxy h, not_congr' he h2 hxy h'⟩

/-- **C31** `&a ^ &b` returns the hash set with exactly the elements that are in one of the sets but not the other. -/
theorem c31_bitxor (he : LawfulEq' eqT) (h1 : IsSet eqT A s1) (h2 : IsSet eqT B s2) :
    ∃ h, bitXor eqT s1 s2 = .ok (some h) ∧ IsSet eqT (fun x => (A x ∧ ¬ B x) ∨ (B x ∧ ¬ A x)) (h.view eqT) ∧
      ∀ x ∈ h.elems, x ∈ s1.items ++ s2.items := by
  obtain ⟨c1, d1, e1⟩ := h1.decider
  obtain ⟨c2, d2, e2⟩ := h2.decider
  obtain ⟨h3, h4, h5⟩ := symdiff_facts he h1 h2 e1 e2
  refine collected_isSet he (symdiff_walks d1 d2) (symdiff_inv s1 s2) ?_ h4 h5 ?_
  · have f1 := filter_le (fun x => !c2 x) s1.items
    have f2 := filter_le (fun x => !c1 x) s2.items
    show (s1.items.filter (fun x => !c2 x) ++ s2.items.filter (fun x => !c1 x)).length < _
    rw [List.length_append]
    omega
  · rintro x y hxy (⟨h, h'⟩ | ⟨h, h'⟩)
    · exact Or.inl ⟨h1.congr x y hxy h, not_congr' he h2 hxy h'⟩
    · exact Or.inr ⟨h2.congr x y hxy h, not_congr' he h1 hxy h'⟩

/-- Two results of bit operators are the same set (as tested by `==`). -/
def SameSet (eqT : T → T → Bool) (r r' : Res (Option (HbSet T))) : Prop :=
  ∃ h h', r = .ok (some h) ∧ r' = .ok (some h') ∧ setEq (h.view eqT) (h'.view eqT) = .ok true

theorem sameSet_of {r r' : Res (Option (HbSet T))} (he : LawfulEq' eqT) {R R' : T → Prop}
    (h : ∃ h, r = .ok (some h) ∧ IsSet eqT R (h.view eqT)) (h' : ∃ h, r' = .ok (some h) ∧ IsSet eqT R' (h.view eqT))
    (hR : ∀ x, R x ↔ R' x) : SameSet eqT r r' := by
  obtain ⟨h, e, hs⟩ := h
  obtain ⟨h', e', hs'⟩ := h'
  obtain ⟨b, hb, hi⟩ := c30_set_eq he hs hs'
  rw [hi.2 hR] at hb
  exact ⟨h, h', e, e', hb⟩

/-- **C31** Algebraic laws of the operators: `|`, `&` and `^` commute, `a | a` and `a & a` are `a`, `a ^ a` and `a - a`
are empty. -/
theorem c31_laws (he : LawfulEq' eqT) (h1 : IsSet eqT A s1) (h2 : IsSet eqT B s2) :
    SameSet eqT (bitOr eqT s1 s2) (bitOr eqT s2 s1) ∧ SameSet eqT (bitAnd eqT s1 s2) (bitAnd eqT s2 s1) ∧
    SameSet eqT (bitXor eqT s1 s2) (bitXor eqT s2 s1) ∧
    (∃ h, bitOr eqT s1 s1 = .ok (some h) ∧ setEq (h.view eqT) s1 = .ok true) ∧
    (∃ h, bitAnd eqT s1 s1 = .ok (some h) ∧ setEq (h.view eqT) s1 = .ok true) ∧
    bitXor eqT s1 s1 = .ok (some ⟨[]⟩) ∧ bitSub eqT s1 s1 = .ok (some ⟨[]⟩) := by
  have weak : ∀ {r : Res (Option (HbSet T))} {R : T → Prop} {src : List T},
      (∃ h, r = .ok (some h) ∧ IsSet eqT R (h.view eqT) ∧ ∀ x ∈ h.elems, x ∈ src) →
      ∃ h, r = .ok (some h) ∧ IsSet eqT R (h.view eqT) := fun ⟨h, a, b, _⟩ => ⟨h, a, b⟩
  have empty : ∀ {r : Res (Option (HbSet T))} {R : T → Prop} {src : List T},
      (∃ h, r = .ok (some h) ∧ IsSet eqT R (h.view eqT) ∧ ∀ x ∈ h.elems, x ∈ src) → (∀ x, ¬ R x) →
      r = .ok (some ⟨[]⟩) := by
    rintro r R src ⟨⟨l⟩, h, hs, _⟩ hR
    cases l with
    | nil => exact h
    | cons a l => exact absurd (hs.sound a (by simp [HbSet.view])) (hR a)
  have same : ∀ {r : Res (Option (HbSet T))} {R : T → Prop} {src : List T},
      (∃ h, r = .ok (some h) ∧ IsSet eqT R (h.view eqT) ∧ ∀ x ∈ h.elems, x ∈ src) → (∀ x, R x ↔ A x) →
      ∃ h, r = .ok (some h) ∧ setEq (h.view eqT) s1 = .ok true := by
    rintro r R src ⟨h, hr, hs, _⟩ hR
    obtain ⟨b, hb, hi⟩ := c30_set_eq he hs h1
    rw [hi.2 hR] at hb
    exact ⟨h, hr, hb⟩
  refine ⟨sameSet_of he (weak (c31_bitor he h1 h2)) (weak (c31_bitor he h2 h1)) fun x => Or.comm,
    sameSet_of he (weak (c31_bitand he h1 h2)) (weak (c31_bitand he h2 h1)) fun x => And.comm,
    sameSet_of he (weak (c31_bitxor he h1 h2)) (weak (c31_bitxor he h2 h1)) fun x => Or.comm,
    same (c31_bitor he h1 h1) fun x => by tauto, same (c31_bitand he h1 h1) fun x => by tauto,
    empty (c31_bitxor he h1 h1) fun x => by tauto, empty (c31_sub he h1 h1) fun x => by tauto⟩

/-- **C31** Laws that combine operators: associativity and distributivity, `a ^ b = (a | b) - (a & b)`, and De Morgan's law
`a - (b | c) = (a - b) & (a - c)`.  The results of inner operators are hash sets, used again as operands of the
same operations (`union(..)`, `intersection(..)`, ... are implemented for hash sets too). -/
theorem c31_combined_laws {C : T → Prop} {s3 : SetView T} (he : LawfulEq' eqT) (h1 : IsSet eqT A s1)
    (h2 : IsSet eqT B s2) (h3 : IsSet eqT C s3) :
    ∃ ab aab bc amb amc bac acc, bitOr eqT s1 s2 = .ok (some ab) ∧ bitAnd eqT s1 s2 = .ok (some aab) ∧
      bitOr eqT s2 s3 = .ok (some bc) ∧ bitSub eqT s1 s2 = .ok (some amb) ∧ bitSub eqT s1 s3 = .ok (some amc) ∧
      bitAnd eqT s2 s3 = .ok (some bac) ∧ bitAnd eqT s1 s3 = .ok (some acc) ∧
      SameSet eqT (bitOr eqT (ab.view eqT) s3) (bitOr eqT s1 (bc.view eqT)) ∧
      SameSet eqT (bitAnd eqT (aab.view eqT) s3) (bitAnd eqT s1 (bac.view eqT)) ∧
      SameSet eqT (bitAnd eqT s1 (bc.view eqT)) (bitOr eqT (aab.view eqT) (acc.view eqT)) ∧
      SameSet eqT (bitXor eqT s1 s2) (bitSub eqT (ab.view eqT) (aab.view eqT)) ∧
      SameSet eqT (bitSub eqT s1 (bc.view eqT)) (bitAnd eqT (amb.view eqT) (amc.view eqT)) := by
  have weak : ∀ {r : Res (Option (HbSet T))} {R : T → Prop} {src : List T},
      (∃ h, r = .ok (some h) ∧ IsSet eqT R (h.view eqT) ∧ ∀ x ∈ h.elems, x ∈ src) →
      ∃ h, r = .ok (some h) ∧ IsSet eqT R (h.view eqT) := fun ⟨h, a, b, _⟩ => ⟨h, a, b⟩
  obtain ⟨ab, e1, i1, _⟩ := c31_bitor he h1 h2
  obtain ⟨aab, e2, i2, _⟩ := c31_bitand he h1 h2
  obtain ⟨bc, e3, i3, _⟩ := c31_bitor he h2 h3
  obtain ⟨amb, e4, i4, _⟩ := c31_sub he h1 h2
  obtain ⟨amc, e5, i5, _⟩ := c31_sub he h1 h3
  obtain ⟨bac, e6, i6, _⟩ := c31_bitand he h2 h3
  obtain ⟨acc, e7, i7, _⟩ := c31_bitand he h1 h3
  refine ⟨ab, aab, bc, amb, amc, bac, acc, e1, e2, e3, e4, e5, e6, e7,
    sameSet_of he (weak (c31_bitor he i1 h3)) (weak (c31_bitor he h1 i3)) fun x => by tauto,
    sameSet_of he (weak (c31_bitand he i2 h3)) (weak (c31_bitand he h1 i6)) fun x => by tauto,
    sameSet_of he (weak (c31_bitand he h1 i3)) (weak (c31_bitor he i2 i7)) fun x => by tauto,
    sameSet_of he (weak (c31_bitxor he h1 h2)) (weak (c31_sub he i1 i2)) fun x => by tauto,
    sameSet_of he (weak (c31_sub he h1 i3)) (weak (c31_bitand he i4 i5)) fun x => by tauto⟩

end bits

/-- The operators on two overlapping sets. -/
example : bitOr natEq (scanSet [1, 2, 3]) (scanSet [3, 4]) = .ok (some ⟨[1, 2, 3, 4]⟩) ∧
    bitXor natEq (scanSet [1, 2, 3]) (scanSet [3, 4]) = .ok (some ⟨[1, 2, 4]⟩) ∧
    bitAnd natEq (scanSet [1, 2, 3]) (scanSet [3, 4]) = .ok (some ⟨[3]⟩) ∧
    bitSub natEq (scanSet [1, 2, 3]) (scanSet [3, 4]) = .ok (some ⟨[1, 2]⟩) := ⟨by rfl, by rfl, by rfl, by rfl⟩

end Frozen.Props
