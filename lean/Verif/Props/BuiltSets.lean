import Verif.Props.Sets

/-!
# Set operations on the sets a program can actually have

`Props/Sets` proves C26–C31 for any two values that behave as sets (`IsSet`). Here the same is stated for sets built by the
constructors (possibly of two different types), in terms of the lists of elements the caller passed in. These statements also fail when
it is the set, and not the operation, that is wrong.
-/

namespace Frozen.Props

open Frozen.Spec Frozen.Model

variable {T M M' : Type} {eqT mt mt' : T → T → Bool} {xs ys : List T} {I : SetImpl M T T} {J : SetImpl M' T T} {m : M} {m' : M'}

/-- The value is equal to one of the elements passed in. -/
def Among (eqT : T → T → Bool) (xs : List T) (x : T) : Prop := ∃ y ∈ xs, eqT x y = true

/-- Two sets made from the elements `xs` and `ys`, each by some constructor, with the same notion of equality. -/
structure TwoSets [Target] (eqT : T → T → Bool) (xs ys : List T) (a b : SetView T) : Prop where
  built : ∃ (M M' : Type) (I : SetImpl M T T) (J : SetImpl M' T T) (m : M) (m' : M') (mt mt' : T → T → Bool),
    BuiltSet eqT mt xs I m ∧ BuiltSet eqT mt' ys J m' ∧ (∀ x y, mt x y = eqT x y) ∧ (∀ x y, mt' x y = eqT x y) ∧ a = I.view m ∧ b = J.view m'

variable {a b : SetView T}

theorem TwoSets.facts [Target] (h : TwoSets eqT xs ys a b) : LawfulEq' eqT ∧ IsSet eqT (Among eqT xs) a ∧ IsSet eqT (Among eqT ys) b ∧
    (∀ x ∈ a.items, x ∈ xs) ∧ ∀ x ∈ b.items, x ∈ ys := by
  obtain ⟨M, M', I, J, m, m', mt, mt', h1, h2, e1, e2, rfl, rfl⟩ := h.built
  refine ⟨h1.spec.1, c32_is_set h1 e1, c32_is_set h2 e2, fun x hx => ?_, fun x hx => ?_⟩
  · exact (lastOf_some (((c32_set_contents h1).mem x).1 hx)).1
  · exact (lastOf_some (((c32_set_contents h2).mem x).1 hx)).1

theorem Produces.of_src {S : Type} {next : S → Res (Option T × S)} {s : S} {mem : T → Prop} {src src' : List T}
    (h : Produces eqT next s mem src) (hs : ∀ x ∈ src, x ∈ src') : Produces eqT next s mem src' := by
  obtain ⟨items, s', h1, h2, h3, h4, h5⟩ := h
  exact ⟨items, s', h1, h2, h3, fun x hx => ⟨(h4 x hx).1, hs x (h4 x hx).2⟩, h5⟩

theorem TwoSets.both [Target] (h : TwoSets eqT xs ys a b) : ∀ x ∈ a.items ++ b.items, x ∈ xs ++ ys := by
  intro x hx
  rcases List.mem_append.1 hx with hx | hx
  · exact List.mem_append_left _ (h.facts.2.2.2.1 x hx)
  · exact List.mem_append_right _ (h.facts.2.2.2.2 x hx)

/-- **C26** The union of two frozen sets gives, once each, the elements equal to something passed to either constructor. -/
theorem c26_built [Target] (h : TwoSets eqT xs ys a b) :
    Produces eqT Union.next (Union.new a b) (fun x => Among eqT xs x ∨ Among eqT ys x) (xs ++ ys) :=
  (c26_union h.facts.1 h.facts.2.1 h.facts.2.2.1).of_src h.both

/-- **C27** The other three iterators. -/
theorem c27_built [Target] (h : TwoSets eqT xs ys a b) :
    Produces eqT Intersection.next (Intersection.new a b) (fun x => Among eqT xs x ∧ Among eqT ys x) (xs ++ ys) ∧
    Produces eqT Difference.next (Difference.new a b) (fun x => Among eqT xs x ∧ ¬ Among eqT ys x) xs ∧
    Produces eqT SymmetricDifference.next (SymmetricDifference.new a b)
      (fun x => (Among eqT xs x ∧ ¬ Among eqT ys x) ∨ (Among eqT ys x ∧ ¬ Among eqT xs x)) (xs ++ ys) :=
  ⟨(c27_intersection h.facts.1 h.facts.2.1 h.facts.2.2.1).of_src h.both,
    (c27_difference h.facts.1 h.facts.2.1 h.facts.2.2.1).of_src h.facts.2.2.2.1,
    (c27_symmetric_difference h.facts.1 h.facts.2.1 h.facts.2.2.1).of_src h.both⟩

/-- **C28** Size hints of three of the iterators are right at every point; those of `union` exactly when the sets have nothing in common. -/
theorem c28_built_partial [Target] (h : TwoSets eqT xs ys a b) :
    HintsOk Intersection.next Intersection.sizeHint (Intersection.new a b) ∧
    HintsOk Difference.next Difference.sizeHint (Difference.new a b) ∧
    HintsOk SymmetricDifference.next SymmetricDifference.sizeHint (SymmetricDifference.new a b) ∧
    (HintsOk Union.next Union.sizeHint (Union.new a b) ↔ ∀ x ∈ xs, ∀ y ∈ ys, eqT x y = false) := by
  obtain ⟨he, h1, h2, -, -⟩ := h.facts
  refine ⟨c28_intersection h1 h2, c28_difference h2, c28_symmetric_difference h1 h2, ?_⟩
  rw [c28_union_iff h1 h2]
  constructor
  · intro hd x hx y hy
    by_contra hc
    exact hd x ⟨⟨x, hx, he.refl x⟩, y, hy, by simpa using hc⟩
  · rintro hd x ⟨⟨y, hy, hxy⟩, z, hz, hxz⟩
    have := he.trans y x z (he.symm x y hxy) hxz
    rw [hd y hy z hz] at this
    cases this

/-- **C29** Comparisons of two frozen sets say what they say about the elements passed in. -/
theorem c29_built [Target] (h : TwoSets eqT xs ys a b) :
    (∃ r, isSubset a b = .ok r ∧ (r = true ↔ ∀ x ∈ xs, Among eqT ys x)) ∧
    (∃ r, isSuperset a b = .ok r ∧ (r = true ↔ ∀ y ∈ ys, Among eqT xs y)) ∧
    (∃ r, isDisjoint a b = .ok r ∧ (r = true ↔ ∀ x ∈ xs, ¬ Among eqT ys x)) := by
  obtain ⟨he, h1, h2, -, -⟩ := h.facts
  have self : ∀ {l : List T} {x : T}, x ∈ l → Among eqT l x := fun hx => ⟨_, hx, he.refl _⟩
  refine ⟨?_, ?_, ?_⟩
  · obtain ⟨r, hr, hi⟩ := c29_is_subset he h1 h2
    refine ⟨r, hr, hi.trans ⟨fun hs x hx => hs x (self hx), ?_⟩⟩
    rintro hs x ⟨y, hy, hxy⟩
    exact h2.congr y x (he.symm x y hxy) (hs y hy)
  · obtain ⟨r, hr, hi⟩ := c29_is_superset he h1 h2
    refine ⟨r, hr, hi.trans ⟨fun hs x hx => hs x (self hx), ?_⟩⟩
    rintro hs x ⟨y, hy, hxy⟩
    exact h1.congr y x (he.symm x y hxy) (hs y hy)
  · obtain ⟨r, hr, hi⟩ := c29_is_disjoint he h1 h2
    refine ⟨r, hr, hi.trans ⟨fun hs x hx hy => hs x ⟨self hx, hy⟩, ?_⟩⟩
    rintro hs x ⟨⟨y, hy, hxy⟩, hx⟩
    exact hs y hy (h2.congr x y hxy hx)

/-- **C31** The four operators on two frozen sets build hash sets of exactly the right elements, taken from those passed in. -/
theorem c31_built [Target] (h : TwoSets eqT xs ys a b) :
    (∃ r, bitOr eqT a b = .ok (some r) ∧ IsSet eqT (fun x => Among eqT xs x ∨ Among eqT ys x) (r.view eqT) ∧ ∀ x ∈ r.elems, x ∈ xs ++ ys) ∧
    (∃ r, bitAnd eqT a b = .ok (some r) ∧ IsSet eqT (fun x => Among eqT xs x ∧ Among eqT ys x) (r.view eqT) ∧
      ∀ x ∈ r.elems, x ∈ xs ++ ys) ∧
    (∃ r, bitSub eqT a b = .ok (some r) ∧ IsSet eqT (fun x => Among eqT xs x ∧ ¬ Among eqT ys x) (r.view eqT) ∧ ∀ x ∈ r.elems, x ∈ xs) ∧
    (∃ r, bitXor eqT a b = .ok (some r) ∧
      IsSet eqT (fun x => (Among eqT xs x ∧ ¬ Among eqT ys x) ∨ (Among eqT ys x ∧ ¬ Among eqT xs x)) (r.view eqT) ∧
      ∀ x ∈ r.elems, x ∈ xs ++ ys) := by
  obtain ⟨he, h1, h2, ha, -⟩ := h.facts
  refine ⟨?_, ?_, ?_, ?_⟩
  · obtain ⟨r, hr, hi, hm⟩ := c31_bitor he h1 h2
    exact ⟨r, hr, hi, fun x hx => h.both x (hm x hx)⟩
  · obtain ⟨r, hr, hi, hm⟩ := c31_bitand he h1 h2
    exact ⟨r, hr, hi, fun x hx => h.both x (hm x hx)⟩
  · obtain ⟨r, hr, hi, hm⟩ := c31_sub he h1 h2
    exact ⟨r, hr, hi, fun x hx => ha x (hm x hx)⟩
  · obtain ⟨r, hr, hi, hm⟩ := c31_bitxor he h1 h2
    exact ⟨r, hr, hi, fun x hx => h.both x (hm x hx)⟩

attribute [local instance] w64 in
/-- An ordered set made from 3, 1, 3 and a scan set made from 3, 2. -/
example : ∃ m : EytzingerMap Nat Unit, FzOrderedSet.new natCmp [3, 1, 3] = .ok m ∧
    TwoSets (fun a b => natCmp a b == .eq) [3, 1, 3] [3, 2] ((fzSetImpl (FzOrderedMap.impl natCmp)).view m)
      ((inlineSetImpl (ScanMap.impl (fun a b => natCmp a b == .eq))).view (ScanMap.new (fun a b => natCmp a b == .eq) (unitEntries [3, 2]))) := by
  obtain ⟨m, hm⟩ : ∃ m, FzOrderedSet.new natCmp [3, 1, 3] = .ok m := ⟨_, by cbv⟩
  refine ⟨m, hm, ⟨⟨_, _, _, _, _, _, _, _, .fzOrdered natCmp_lawful natCmp_query hm,
    .ofMap (.scan (LawfulCmp'.eqLawful natCmp_lawful) (LawfulEq'.query (LawfulCmp'.eqLawful natCmp_lawful))), fun _ _ => rfl, fun _ _ => rfl, rfl, rfl⟩⟩⟩

end Frozen.Props
