import Verif.Props.EffectSets
import Verif.Props.EffectBuild
import Verif.Lemmas.EffectSetOps

/-!
# Property theorems: operators on sets with trait functions that panic or keep state (C94)

The operators `|`, `&`, `-` and `^` of C31, which clone the elements they select and put them into a hash set.
-/

namespace Frozen.Props

open Frozen.Spec Frozen.Model

variable {W T : Type} {eqT : T → T → Bool} {A B : T → Prop} {a b : SetViewE W T} {t : HbTraits W T}

/-- The length of the plans. -/
theorem plans_length (c1 c2 : T → Bool) :
    (unionPlan c1 c2 (UnionE.new a b)).length ≤ a.items.length + b.items.length ∧
    (interPlan c1 c2 (IntersectionE.new a b)).length ≤ a.items.length + b.items.length ∧
    (diffPlan c2 (DifferenceE.new a b)).length ≤ a.items.length ∧
    (symPlan c1 c2 (SymmetricDifferenceE.new a b)).length ≤ a.items.length + b.items.length := by
  refine ⟨?_, ?_, ?_, ?_⟩
  · simp only [unionPlan, UnionE.new]
    by_cases h : a.len > b.len <;> simp [h, allPlan, notInPlan] <;> omega
  · simp only [interPlan, IntersectionE.new]
    by_cases h : a.len < b.len <;> simp [h, inPlan]
  · simp [diffPlan, DifferenceE.new, notInPlan]
  · simp [symPlan, SymmetricDifferenceE.new, diffPlan?, diffPlan, DifferenceE.new, notInPlan]

theorem EffRel.operators (E : EffRel W) (he : LawfulEq' eqT) (ht : HbTraits.Lawful (fun A x r => E.R A x r) eqT t)
    (ha : IsSetE (E.R Bool) eqT A a) (hb : IsSetE (E.R Bool) eqT B b) : OperatorsE (fun A x r => E.R A x r) eqT t A B a b := by
  obtain ⟨c1, h1, i1⟩ := ha
  obtain ⟨c2, h2, i2⟩ := hb
  obtain ⟨f1, f2, f3, f4⟩ := plans_facts (a := a) (b := b) c1 c2
  obtain ⟨l1, l2, l3, l4⟩ := plans_length (a := a) (b := b) c1 c2
  obtain ⟨t1, t2, t3, t4⟩ := E.plans h1 h2
  have g1 := i1.congr
  have g2 := i2.congr
  have n1 : ∀ x y, eqT x y = true → ¬ A x → ¬ A y := fun x y h hx hy => hx (g1 y x (he.symm _ _ h) hy)
  have n2 : ∀ x y, eqT x y = true → ¬ B x → ¬ B y := fun x y h hx hy => hx (g2 y x (he.symm _ _ h) hy)
  have u1 := unionList_facts he i1 i2 (isSet_bool i1) (isSet_bool i2)
  have u2 := interList_facts he i1 i2 (isSet_bool i1) (isSet_bool i2)
  have u3 := diff_facts he i1 i2 (isSet_bool i2)
  have u4 := symdiff_facts he i1 i2 (isSet_bool i1) (isSet_bool i2)
  rw [← f1] at u1
  rw [← f2] at u2
  rw [← f3] at u3
  rw [← f4] at u4
  exact ⟨(union_follows c1 c2).gathers E he ht t1 (by omega) u1.2.1 u1.2.2 (fun x y h => Or.imp (g1 x y h) (g2 x y h)),
    (inter_follows c1 c2).gathers E he ht t2 (by omega) u2.2.1 u2.2.2 (fun x y h => And.imp (g1 x y h) (g2 x y h)),
    (diff_follows c2).gathers E he ht t3 (by omega) u3.2.1 u3.2.2 (fun x y h => And.imp (g1 x y h) (n2 x y h)),
    (sym_follows c1 c2).gathers E he ht t4 (by omega) u4.2.1 u4.2.2
      (fun x y h => Or.imp (And.imp (g1 x y h) (n2 x y h)) (And.imp (g2 x y h) (n1 x y h)))⟩

/-- **C94** (operators).  The four operators panic or give the right set, if the trait functions panic or answer correctly; they give it in every state of the
program if the trait functions answer correctly in every state; and they panic exactly if user code does. -/
theorem c94_operators (he : LawfulEq' eqT) :
    (HbTraits.Lawful (fun _ x r => PanicsOr x r) eqT t → IsSetE PanicsOr eqT A a → IsSetE PanicsOr eqT B b →
      OperatorsE (fun _ x r => PanicsOr x r) eqT t A B a b) ∧
    (HbTraits.Lawful (fun _ x r => Always x r) eqT t → IsSetE Always eqT A a → IsSetE Always eqT B b →
      OperatorsE (fun _ x r => Always x r) eqT t A B a b) ∧
    ∀ bad, HbTraits.Lawful (fun _ x r => Marks bad x r) eqT t → IsSetE (Marks bad) eqT A a → IsSetE (Marks bad) eqT B b →
      OperatorsE (fun _ x r => Marks bad x r) eqT t A B a b :=
  ⟨(relPanicsOr W).operators he, (relAlways W).operators he, fun bad => (relMarks bad).operators he⟩

/-- **C94** (operators, arbitrary answers).  Whatever `contains` and `Hash`, `Eq` and `Clone` of the elements answer, and however they panic: the operators run into
no undefined behaviour, and end with a set of at most as many elements as there were to select from. -/
theorem c94_operators_hostile (hh : ∀ x, SafeCode (t.hash x)) (he : ∀ x y, SafeCode (t.eq x y)) (hc : ∀ x, SafeCode (t.clone x))
    (ha : ∀ x, SafeCode (a.contains x)) (hb : ∀ x, SafeCode (b.contains x)) :
    GathersSafely (bitOrE t a b) (a.items.length + b.items.length) ∧ GathersSafely (bitAndE t a b) (a.items.length + b.items.length) ∧
    GathersSafely (bitSubE t a b) a.items.length ∧ GathersSafely (bitXorE t a b) (a.items.length + b.items.length) := by
  have c : T → Bool := fun _ => false
  obtain ⟨t1, t2, t3, t4⟩ := plans_tests (c1 := c) (c2 := c) (R := fun x _ => SafeCode x) (fun _ => NoUb.ok _) ha hb (lacks_safe ha) (lacks_safe hb)
  obtain ⟨l1, l2, l3, l4⟩ := plans_length (a := a) (b := b) c c
  have main : ∀ {p : Plan W T} {fuel n : Nat}, (∀ e ∈ p, SafeCode e.2.2) → p.length ≤ n → n < fuel →
      GathersSafely (collectHbE t planNext fuel p ⟨[], []⟩) n := by
    intro p fuel n hp hl hn
    exact Sure.mono (Sure.collectHb hh he hc fuel p ⟨[], []⟩ hp (by omega))
      (fun r ⟨s, e1, e2⟩ => ⟨s, e1, by simp only [List.length_nil] at e2; omega⟩)
  refine ⟨?_, ?_, ?_, ?_⟩
  · unfold bitOrE
    rw [(union_follows c c).collectHb]
    exact main t1 l1 (by omega)
  · unfold bitAndE
    rw [(inter_follows c c).collectHb]
    exact main t2 l2 (by omega)
  · unfold bitSubE
    rw [(diff_follows c).collectHb]
    exact main t3 l3 (by omega)
  · unfold bitXorE
    rw [(sym_follows c c).collectHb]
    exact main t4 l4 (by omega)

/-- **C94** (operators, memory safety).  The same for two sets of the crate made from anything, with trait functions that answer as they like. -/
theorem c94_operators_memory_safe [Target] (hh : ∀ x, SafeCode (t.hash x)) (he : ∀ x y, SafeCode (t.eq x y)) (hc : ∀ x, SafeCode (t.clone x))
    (ha : AnySetE a) (hb : AnySetE b) :
    GathersSafely (bitOrE t a b) (a.items.length + b.items.length) ∧ GathersSafely (bitAndE t a b) (a.items.length + b.items.length) ∧
    GathersSafely (bitSubE t a b) a.items.length ∧ GathersSafely (bitXorE t a b) (a.items.length + b.items.length) :=
  c94_operators_hostile hh he hc ha.safe hb.safe

/-! ## Cases -/

/-- Traits of numbers that count their calls; hash codes collide, and every insertion hashes all stored elements again. -/
def countedTraits : HbTraits Nat Nat :=
  { find := askTable, rehash := fun _ tbl => tbl.map (fun e => e.2), hash := countingHash, eq := countingEq, clone := fun x n => (.ok x, n + 1) }

theorem countedTraits_lawful : HbTraits.Lawful (fun _ x r => Always x r) natEq countedTraits where
  find := askTable_ok
  hash := ⟨fun k => k % 4, fun x y h => by simp only [natEq, beq_iff_eq] at h; rw [h], fun _ _ => rfl⟩
  eq := fun _ _ _ => rfl
  clone := fun _ _ => rfl

attribute [local instance] w64 in
/-- {1, 2, 3} ^ {5, 2} is {1, 3, 5} whatever the counter says, although 1 and 5 have the same hash code. -/
example :
    let a := scanSetE countedEq [1, 2, 3]
    let b := scanSetE countedEq [5, 2]
    OperatorsE (fun _ x r => Always x r) natEq countedTraits (Among natEq [1, 2, 3]) (Among natEq [5, 2]) a b ∧
    ((bitXorE countedTraits a b 0).1.map fun r => r.map fun s => s.elems) = .ok (some [1, 3, 5]) := by
  obtain ⟨he, h1, h2⟩ := c94_crate_sets.2.1 (scanSetE_two (R := fun _ x r => Always x (.ok r)) (eqv := countedEq) (fun _ _ _ => rfl) [1, 2, 3] [5, 2])
  exact ⟨(c94_operators he).2.1 countedTraits_lawful h1 h2, rfl⟩

/-- The same traits, but `Clone` panics when the counter is 9. -/
def panickyTraits : HbTraits Nat Nat :=
  { countedTraits with clone := fun x n => (if n = 9 then .error (.panic "clone") else .ok x, n + 1) }

theorem panickyTraits_lawful : HbTraits.Lawful (fun _ x r => PanicsOr x r) natEq panickyTraits where
  find := askTable_ok
  hash := ⟨fun k => k % 4, fun x y h => by simp only [natEq, beq_iff_eq] at h; rw [h], fun _ _ => .inr rfl⟩
  eq := fun _ _ _ => .inr rfl
  clone := fun x n => by
    by_cases h : n = 9
    · exact .inl ⟨"clone", by simp [panickyTraits, h]⟩
    · exact .inr (by simp [panickyTraits, h])

attribute [local instance] w64 in
/-- The union panics or is right; a run of each kind. -/
example :
    let a := scanSetE thirdPanics [1, 2, 3]
    let b := scanSetE thirdPanics [5, 2]
    OperatorsE (fun _ x r => PanicsOr x r) natEq panickyTraits (Among natEq [1, 2, 3]) (Among natEq [5, 2]) a b ∧
    ((bitOrE panickyTraits a b 20).1.map fun r => r.map fun s => s.elems) = .ok (some [1, 2, 3, 5]) ∧
    ((bitOrE panickyTraits a b 9).1.map fun r => r.map fun s => s.elems) = .error (.panic "clone") := by
  obtain ⟨he, h1, h2⟩ := c94_crate_sets.1 (scanSetE_two thirdPanics_honest [1, 2, 3] [5, 2])
  exact ⟨(c94_operators he).1 panickyTraits_lawful h1 h2, rfl, rfl⟩

attribute [local instance] w64 in
/-- Elements that are never equal, to themselves neither, with a hash code that changes: the operators end with some set. -/
example :
    let t : HbTraits Nat Nat := { countedTraits with hash := fun _ n => (.ok n, n + 1), eq := fun _ _ n => (.ok false, n + 1) }
    let a := scanSetE (fun _ _ n => (.ok (n % 2 == 0), n + 1)) [1, 2, 3]
    GathersSafely (bitOrE t a a) 6 ∧ ((bitOrE t a a 0).1.map fun r => r.map fun s => s.elems.length) = .ok (some 3) := by
  have h : AnySetE (scanSetE (fun _ _ (n : Nat) => (.ok (n % 2 == 0), n + 1)) [1, 2, 3]) :=
    ⟨_, _, _, _, .scan (fun mt => ⟨_, .scan mt _, .refl⟩) (fun _ _ _ => NoUb.ok _), rfl⟩
  exact ⟨(c94_operators_memory_safe (fun _ _ => NoUb.ok _) (fun _ _ _ => NoUb.ok _) (fun _ _ => NoUb.ok _) h h).1, rfl⟩

end Frozen.Props
