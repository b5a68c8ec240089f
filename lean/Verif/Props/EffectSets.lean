import Verif.Lemmas.EffectSets

/-!
# Property theorems: set operations with trait functions that panic or keep state (C94)

The operations of C26, C27, C29 and C30 on two sets of any two types, whose lookups run code of the user that may change the state of the program and
panic.  A program may catch such a panic, do something else, and go on with the same iterator.
-/

namespace Frozen.Props

open Frozen.Spec Frozen.Model

variable {W T : Type} {eqT : T → T → Bool} {A B : T → Prop} {a b : SetViewE W T}

theorem isSet_bool {c : T → Bool} {n : Nat} {l : List T} (h : IsSet eqT A ⟨n, l, fun x => .ok (c x)⟩) (x : T) : c x = true ↔ A x := by
  obtain ⟨r, h1, h2⟩ := h.contains x
  rw [Except.ok.inj h1]
  exact h2

/-- What the plans of the four iterators want. -/
theorem plans_facts (c1 c2 : T → Bool) :
    wanted (unionPlan c1 c2 (UnionE.new a b)) =
      unionList c1 c2 (Union.new ⟨a.len, a.items, fun x => .ok (c1 x)⟩ ⟨b.len, b.items, fun x => .ok (c2 x)⟩) ∧
    wanted (interPlan c1 c2 (IntersectionE.new a b)) =
      interList c1 c2 (Intersection.new ⟨a.len, a.items, fun x => .ok (c1 x)⟩ ⟨b.len, b.items, fun x => .ok (c2 x)⟩) ∧
    wanted (diffPlan c2 (DifferenceE.new a b)) = a.items.filter (fun x => !c2 x) ∧
    wanted (symPlan c1 c2 (SymmetricDifferenceE.new a b)) = a.items.filter (fun x => !c2 x) ++ b.items.filter (fun x => !c1 x) := by
  refine ⟨?_, ?_, wanted_notIn _ _ _, ?_⟩
  · show wanted (if a.len > b.len then allPlan a.items ++ notInPlan c1 a b.items else allPlan b.items ++ notInPlan c2 b a.items) =
      if a.len > b.len then a.items ++ b.items.filter (fun x => !c1 x) else b.items ++ a.items.filter (fun x => !c2 x)
    by_cases h : a.len > b.len
    · rw [if_pos h, if_pos h, wanted_append, wanted_all, wanted_notIn]
    · rw [if_neg h, if_neg h, wanted_append, wanted_all, wanted_notIn]
  · show wanted (if a.len < b.len then inPlan c2 b a.items else inPlan c1 a b.items) =
      if a.len < b.len then a.items.filter c2 else b.items.filter c1
    by_cases h : a.len < b.len
    · rw [if_pos h, if_pos h, wanted_in]
    · rw [if_neg h, if_neg h, wanted_in]
  · show wanted (notInPlan _ _ _ ++ notInPlan _ _ _) = _
    rw [wanted_append, wanted_notIn, wanted_notIn]
    rfl

/-- **C94** (functions that may panic).  If the trait functions answer correctly whenever they do not panic, a program that catches panics and goes on gets from
each of the four iterators only elements it should give, none twice; and when the iterator ends, at most as many are missing as calls panicked. -/
theorem c94_items_or_panics (he : LawfulEq' eqT) (ha : IsSetE PanicsOr eqT A a) (hb : IsSetE PanicsOr eqT B b) :
    ProducesOrPanics eqT UnionE.next (UnionE.new a b) (fun x => A x ∨ B x) (a.items ++ b.items) ∧
    ProducesOrPanics eqT IntersectionE.next (IntersectionE.new a b) (fun x => A x ∧ B x) (a.items ++ b.items) ∧
    ProducesOrPanics eqT DifferenceE.next (DifferenceE.new a b) (fun x => A x ∧ ¬ B x) a.items ∧
    ProducesOrPanics eqT SymmetricDifferenceE.next (SymmetricDifferenceE.new a b) (fun x => (A x ∧ ¬ B x) ∨ (B x ∧ ¬ A x)) (a.items ++ b.items) := by
  obtain ⟨c1, h1, i1⟩ := ha
  obtain ⟨c2, h2, i2⟩ := hb
  obtain ⟨f1, f2, f3, f4⟩ := plans_facts (a := a) (b := b) c1 c2
  obtain ⟨t1, t2, t3, t4⟩ := (relPanicsOr W).plans h1 h2
  exact ⟨(union_follows c1 c2).producesOrPanics t1 (by rw [f1]; exact unionList_facts he i1 i2 (isSet_bool i1) (isSet_bool i2)),
    (inter_follows c1 c2).producesOrPanics t2 (by rw [f2]; exact interList_facts he i1 i2 (isSet_bool i1) (isSet_bool i2)),
    (diff_follows c2).producesOrPanics t3 (by rw [f3]; exact diff_facts he i1 i2 (isSet_bool i2)),
    (sym_follows c1 c2).producesOrPanics t4 (by rw [f4]; exact symdiff_facts he i1 i2 (isSet_bool i1) (isSet_bool i2))⟩

/-- **C94** (functions that do not panic).  If the trait functions answer correctly, whatever they and the program do to the state in between, each of the four
iterators gives the right elements, always in the same order, and then ends for good. -/
theorem c94_items (he : LawfulEq' eqT) (ha : IsSetE Always eqT A a) (hb : IsSetE Always eqT B b) :
    ProducesQuietly eqT UnionE.next (UnionE.new a b) (fun x => A x ∨ B x) (a.items ++ b.items) ∧
    ProducesQuietly eqT IntersectionE.next (IntersectionE.new a b) (fun x => A x ∧ B x) (a.items ++ b.items) ∧
    ProducesQuietly eqT DifferenceE.next (DifferenceE.new a b) (fun x => A x ∧ ¬ B x) a.items ∧
    ProducesQuietly eqT SymmetricDifferenceE.next (SymmetricDifferenceE.new a b) (fun x => (A x ∧ ¬ B x) ∨ (B x ∧ ¬ A x)) (a.items ++ b.items) := by
  obtain ⟨c1, h1, i1⟩ := ha
  obtain ⟨c2, h2, i2⟩ := hb
  obtain ⟨f1, f2, f3, f4⟩ := plans_facts (a := a) (b := b) c1 c2
  obtain ⟨t1, t2, t3, t4⟩ := (relAlways W).plans h1 h2
  exact ⟨(union_follows c1 c2).producesQuietly t1 (by rw [f1]; exact unionList_facts he i1 i2 (isSet_bool i1) (isSet_bool i2)),
    (inter_follows c1 c2).producesQuietly t2 (by rw [f2]; exact interList_facts he i1 i2 (isSet_bool i1) (isSet_bool i2)),
    (diff_follows c2).producesQuietly t3 (by rw [f3]; exact diff_facts he i1 i2 (isSet_bool i2)),
    (sym_follows c1 c2).producesQuietly t4 (by rw [f4]; exact symdiff_facts he i1 i2 (isSet_bool i1) (isSet_bool i2))⟩

/-- **C94** (blame).  Wherever a program got with one of the iterators, the next call panics exactly if user code panics during it. -/
theorem c94_blame {bad : W → Prop} (ha : IsSetE (Marks bad) eqT A a) (hb : IsSetE (Marks bad) eqT B b) :
    Blames bad UnionE.next (UnionE.new a b) ∧ Blames bad IntersectionE.next (IntersectionE.new a b) ∧
    Blames bad DifferenceE.next (DifferenceE.new a b) ∧ Blames bad SymmetricDifferenceE.next (SymmetricDifferenceE.new a b) := by
  obtain ⟨c1, h1, -⟩ := ha
  obtain ⟨c2, h2, -⟩ := hb
  obtain ⟨t1, t2, t3, t4⟩ := (relMarks bad).plans h1 h2
  exact ⟨(union_follows c1 c2).blames t1, (inter_follows c1 c2).blames t2, (diff_follows c2).blames t3, (sym_follows c1 c2).blames t4⟩

theorem EffRel.compares (E : EffRel W) (he : LawfulEq' eqT) (ha : IsSetE (E.R Bool) eqT A a) (hb : IsSetE (E.R Bool) eqT B b) :
    ComparesE (E.R Bool) A B a b := by
  obtain ⟨c1, h1, i1⟩ := ha
  obtain ⟨c2, h2, i2⟩ := hb
  obtain ⟨t1, t2, t3, t4⟩ := E.compare h1 h2
  refine ⟨?_, ?_, ?_, ?_⟩
  · obtain ⟨r, h3, h4⟩ := c29_is_subset he i1 i2
    exact ⟨r, h3 ▸ t1, h4⟩
  · obtain ⟨r, h3, h4⟩ := c29_is_superset he i1 i2
    exact ⟨r, h3 ▸ t2, h4⟩
  · obtain ⟨r, h3, h4⟩ := c29_is_disjoint he i1 i2
    exact ⟨r, h3 ▸ t3, h4⟩
  · obtain ⟨r, h3, h4⟩ := c30_set_eq he i1 i2
    exact ⟨r, h3 ▸ t4, h4⟩

/-- **C94** (comparisons).  `is_subset`, `is_superset`, `is_disjoint` and `==` panic or answer correctly, if the trait functions do; they answer correctly in every
state of the program if the trait functions do; and they panic exactly if user code does. -/
theorem c94_compare (he : LawfulEq' eqT) :
    (IsSetE PanicsOr eqT A a → IsSetE PanicsOr eqT B b → ComparesE PanicsOr A B a b) ∧
    (IsSetE Always eqT A a → IsSetE Always eqT B b → ComparesE Always A B a b) ∧
    ∀ bad, IsSetE (Marks bad) eqT A a → IsSetE (Marks bad) eqT B b → ComparesE (Marks bad) A B a b :=
  ⟨(relPanicsOr W).compares he, (relAlways W).compares he, fun bad => (relMarks bad).compares he⟩

/-- **C94** (arbitrary answers).  Whatever `contains` answers, and however it panics, and whatever the two sets say about their lengths: the iterators and
comparisons run into no undefined behaviour, give elements of the sets only, none more often than it is in them, and end. -/
theorem c94_hostile (ha : ∀ x, SafeCode (a.contains x)) (hb : ∀ x, SafeCode (b.contains x)) :
    SafeOps a b := by
  have c : T → Bool := fun _ => false
  obtain ⟨t1, t2, t3, t4⟩ := plans_tests (c1 := c) (c2 := c) (R := fun x _ => SafeCode x) (fun _ => NoUb.ok _) ha hb (lacks_safe ha) (lacks_safe hb)
  have e1 : (unionPlan c c (UnionE.new a b)).map (fun e => e.1) = if a.len > b.len then a.items ++ b.items else b.items ++ a.items := by
    simp only [unionPlan, UnionE.new]
    by_cases h : a.len > b.len <;> simp [h, allPlan, notInPlan, Function.comp_def]
  have e2 : (interPlan c c (IntersectionE.new a b)).map (fun e => e.1) = if a.len < b.len then a.items else b.items := by
    simp only [interPlan, IntersectionE.new]
    by_cases h : a.len < b.len <;> simp [h, inPlan, Function.comp_def]
  have e3 : (diffPlan c (DifferenceE.new a b)).map (fun e => e.1) = a.items := by
    simp [diffPlan, DifferenceE.new, notInPlan, Function.comp_def]
  have e4 : (symPlan c c (SymmetricDifferenceE.new a b)).map (fun e => e.1) = a.items ++ b.items := by
    simp [symPlan, SymmetricDifferenceE.new, diffPlan?, diffPlan, DifferenceE.new, notInPlan, Function.comp_def]
  refine ⟨e1 ▸ (union_follows c c).wellBehaved t1, e2 ▸ (inter_follows c c).wellBehaved t2, e3 ▸ (diff_follows c).wellBehaved t3,
    e4 ▸ (sym_follows c c).wellBehaved t4, ?_, ?_, ?_, ?_⟩
  · unfold isSubsetE
    split
    · exact allE_safe hb _
    · exact fun _ => NoUb.ok _
  · unfold isSupersetE
    split
    · exact allE_safe ha _
    · exact fun _ => NoUb.ok _
  · unfold isDisjointE
    split
    · exact allE_safe (lacks_safe hb) _
    · exact allE_safe (lacks_safe ha) _
  · unfold setEqE
    split
    · exact fun _ => NoUb.ok _
    · exact allE_safe hb _

/-! ## The sets of the crate -/

theorem setViewE_isSetE [Target] (E : EffRel W) {M : Type} {xs : List T} {I : MapImpl M T T Unit} {m : M} {S : M → T → Eff W (Option Nat)}
    (hb : Built eqT eqT (unitEntries xs) I m) (hS : RunsWith (fun A x r => E.R A x (.ok r)) I S) :
    IsSetE (E.R Bool) eqT (Among eqT xs) (setViewE I S m) := by
  have hset := c32_is_set (.ofMap hb) (fun _ _ => rfl)
  obtain ⟨Inv, F⟩ := hb.facts
  refine ⟨fun x => (lastMatch eqT (unitEntries xs) x).isSome, fun x => ?_, ?_⟩
  · obtain ⟨p, h1, h2, h3⟩ := F.lookups.getMut x
    have h4 := hS.rel E m x
    rw [h1] at h4
    refine E.bindOk h4 ?_
    have : (I.found m p).isSome = (lastMatch eqT (unitEntries xs) x).isSome := by
      cases p with
      | none => rw [h2.1 rfl]; rfl
      | some i => rw [← h3 i rfl]; rfl
    rw [this]
    exact E.pure _
  · have hc : ∀ x, (inlineSetImpl I).contains m x = .ok (lastMatch eqT (unitEntries xs) x).isSome := by
      intro x
      simp only [inlineSetImpl, getOfMap, F.lookups.getKeyValue, bind, Except.bind, Option.isSome_map]
    obtain ⟨g1, g2, g3, g4, g5, g6⟩ := hset
    exact ⟨fun x => ⟨_, rfl, by
      obtain ⟨r, h1, h2⟩ := g1 x
      have h1' : (inlineSetImpl I).contains m x = .ok r := h1
      rw [hc x] at h1'
      show (lastMatch eqT (unitEntries xs) x).isSome = true ↔ _
      rw [Except.ok.inj h1']
      exact h2⟩, g2, g3, g4, g5, g6⟩

/-- **C94** The sets of the crate, made by any constructor, are sets in the sense of the theorems above, for trait functions that panic or answer correctly, that
answer correctly, and that leave a mark when they panic. -/
theorem c94_crate_sets [Target] {xs ys : List T} :
    (TwoSetsE (fun _ x r => PanicsOr x (.ok r)) eqT xs ys a b → LawfulEq' eqT ∧ IsSetE PanicsOr eqT (Among eqT xs) a ∧ IsSetE PanicsOr eqT (Among eqT ys) b) ∧
    (TwoSetsE (fun _ x r => Always x (.ok r)) eqT xs ys a b → LawfulEq' eqT ∧ IsSetE Always eqT (Among eqT xs) a ∧ IsSetE Always eqT (Among eqT ys) b) ∧
    ∀ bad, TwoSetsE (fun _ x r => Marks bad x (.ok r)) eqT xs ys a b →
      LawfulEq' eqT ∧ IsSetE (Marks bad) eqT (Among eqT xs) a ∧ IsSetE (Marks bad) eqT (Among eqT ys) b := by
  have main : ∀ E : EffRel W, TwoSetsE (fun A x r => E.R A x (.ok r)) eqT xs ys a b →
      LawfulEq' eqT ∧ IsSetE (E.R Bool) eqT (Among eqT xs) a ∧ IsSetE (E.R Bool) eqT (Among eqT ys) b := by
    rintro E ⟨M, M', I, J, m, m', S, S', h1, h2, h3, h4, rfl, rfl⟩
    exact ⟨(BuiltSet.ofMap h1).spec.1, setViewE_isSetE E h1 h3, setViewE_isSetE E h2 h4⟩
  exact ⟨main (relPanicsOr W), main (relAlways W), fun bad => main (relMarks bad)⟩

theorem AnySetE.safe [Target] {s : SetViewE W T} : AnySetE s → ∀ x, SafeCode (s.contains x) := by
  rintro ⟨M, I, m, S, h, rfl⟩ x w
  show NoUb (Eff.bind (S m x) _ w).1
  unfold Eff.bind
  have h1 := (c91_memory_safe h x w).1
  generalize S m x w = y at h1 ⊢
  obtain ⟨o, w'⟩ := y
  cases o with
  | ok r => exact NoUb.ok _
  | error f => exact fun msg hm => by cases hm; exact h1 msg rfl

/-- **C94** (memory safety).  Two sets of the crate made from anything, with trait functions that answer as they like: no undefined behaviour. -/
theorem c94_memory_safe [Target] (ha : AnySetE a) (hb : AnySetE b) : SafeOps a b := c94_hostile ha.safe hb.safe

/-! ## Cases -/

/-- A scan set with the given function to compare elements. -/
def scanSetE (eqv : Nat → Nat → Eff W Bool) (xs : List Nat) : SetViewE W Nat :=
  setViewE (ScanMap.impl natEq) (ScanMap.searchE eqv) (ScanMap.new natEq (unitEntries xs))

theorem scanSetE_two [Target] {R : (A : Type) → Eff W A → A → Prop} {eqv : Nat → Nat → Eff W Bool} (h : ∀ q k, R Bool (eqv q k) (natEq q k))
    (xs ys : List Nat) : TwoSetsE R natEq xs ys (scanSetE eqv xs) (scanSetE eqv ys) :=
  ⟨⟨_, _, _, _, _, _, _, _, Built.scan natEq_lawful (LawfulEq'.query natEq_lawful), Built.scan natEq_lawful (LawfulEq'.query natEq_lawful),
    .scan h, .scan h, rfl, rfl⟩⟩

attribute [local instance] w64 in
/-- The third comparison panics.  The difference of {1, 2, 3} and {2} loses the 3; the other iterators, started later, lose nothing. -/
example :
    let a := scanSetE thirdPanics [1, 2, 3]
    let b := scanSetE thirdPanics [2]
    ProducesOrPanics natEq DifferenceE.next (DifferenceE.new a b) (fun x => Among natEq [1, 2, 3] x ∧ ¬ Among natEq [2] x) a.items ∧
    (callsE DifferenceE.next (DifferenceE.new a b) [id, id, id, id] 0).1 =
      [.ok (some 1), .error (.panic "third call"), .ok none, .ok none] ∧
    (callsE DifferenceE.next (DifferenceE.new a b) [id, fun _ => 7, id, id] 0).1 = [.ok (some 1), .ok (some 3), .ok none, .ok none] ∧
    (callsE UnionE.next (UnionE.new a b) [id, id, id, id, id] 2).1 =
      [.ok (some 1), .ok (some 2), .ok (some 3), .error (.panic "third call"), .ok none] ∧
    (isSubsetE b a 0).1 = .error (.panic "third call") ∧ (isSubsetE b a 3).1 = .ok true ∧ (isSupersetE b a 0).1 = .ok false := by
  obtain ⟨he, h1, h2⟩ := c94_crate_sets.1 (scanSetE_two thirdPanics_honest [1, 2, 3] [2])
  exact ⟨(c94_items_or_panics he h1 h2).2.2.1, rfl, rfl, rfl, rfl, rfl, rfl⟩

/-- Comparing elements counts its calls. -/
def countedEq (q k : Nat) : Eff Nat Bool := fun n => (.ok (natEq q k), n + 1)

attribute [local instance] w64 in
/-- With a function that counts only, the symmetric difference of {1, 2, 3} and {4, 2} is 1, 3, 4 in every program. -/
example :
    let a := scanSetE countedEq [1, 2, 3]
    let b := scanSetE countedEq [4, 2]
    ProducesQuietly natEq SymmetricDifferenceE.next (SymmetricDifferenceE.new a b)
      (fun x => (Among natEq [1, 2, 3] x ∧ ¬ Among natEq [4, 2] x) ∨ (Among natEq [4, 2] x ∧ ¬ Among natEq [1, 2, 3] x)) (a.items ++ b.items) ∧
    (callsE SymmetricDifferenceE.next (SymmetricDifferenceE.new a b) [id, (· + 5), id, id, id] 0).1 =
      [.ok (some 1), .ok (some 3), .ok (some 4), .ok none, .ok none] ∧
    ComparesE Always (Among natEq [1, 2, 3]) (Among natEq [4, 2]) a b := by
  obtain ⟨he, h1, h2⟩ := c94_crate_sets.2.1 (scanSetE_two (R := fun _ x r => Always x (.ok r)) (eqv := countedEq) (fun _ _ _ => rfl) [1, 2, 3] [4, 2])
  exact ⟨(c94_items he h1 h2).2.2.2, rfl, (c94_compare he).2.1 h1 h2⟩

attribute [local instance] w64 in
/-- The same with a mark for the panic: the second call for the intersection panics, and only that. -/
example :
    let a := scanSetE thirdMarks [1, 2]
    let b := scanSetE thirdMarks [4, 2, 1]
    Blames (fun w : Nat × Bool => w.2 = true) IntersectionE.next (IntersectionE.new a b) ∧
    (IntersectionE.next (IntersectionE.new a b) (3, false)).2.2.2 = false ∧
    (IntersectionE.next (IntersectionE.new a b) (0, false)).2.2.2 = true ∧
    (callsE IntersectionE.next (IntersectionE.new a b) [id, id, id] (0, false)).1 = [.error (.panic "third call"), .ok (some 2), .ok none] := by
  obtain ⟨he, h1, h2⟩ := c94_crate_sets.2.2 (fun w : Nat × Bool => w.2 = true) (scanSetE_two thirdMarks_marks [1, 2] [4, 2, 1])
  exact ⟨(c94_blame h1 h2).2.1, rfl, rfl, rfl⟩

attribute [local instance] w64 in
/-- A function that says `true` every other time: the set operations give nonsense, but elements of the sets, and end. -/
example :
    let flip : Nat → Nat → Eff Nat Bool := fun _ _ n => (.ok (n % 2 == 0), n + 1)
    let a := scanSetE flip [1, 2, 3]
    let b := scanSetE flip [5]
    SafeOps a b ∧ (callsE IntersectionE.next (IntersectionE.new b a) [id, id] 0).1 = [.ok (some 5), .ok none] := by
  refine ⟨c94_memory_safe ?_ ?_, rfl⟩
  all_goals exact ⟨_, _, _, _, .scan (fun mt => ⟨_, .scan mt _, .refl⟩) (fun _ _ _ => NoUb.ok _), rfl⟩

end Frozen.Props
