import Verif.Model.Sets

/-!
# Set operations on the user's own set types

`Model/Sets` runs the set operations on sets whose iterators are lists.  The traits that the operations ask for (`Set<T>`) can be implemented by
anyone, and ask of the iterator only that it is an `Iterator`.  Here the operations run on any iterator at all.  Their loops may then go on for ever, so
a call of `next` is a relation between the state, the answer and the state afterwards.
-/

namespace Frozen.Model

variable {T σ₁ σ₂ : Type}

/-- A type that implements `Set<T>` (core/traits/set.rs l.8, core/traits/set_iteration.rs l.5-15, core/traits/set_query.rs l.5-10, core/traits/len.rs
l.9-17), as far as the set operations use it: `len`, `contains`, and an iterator with states `σ`. -/
structure OwnSet (T σ : Type) where
  len : Nat
  contains : T → Res Bool
  start : σ
  next : σ → Option T × σ

/-- `loop { let item = iter.next()?; if set.contains(item) == want { return Some(item) } }` (core/sets/iterators.rs l.149-154, l.161-166, l.330-335
with `want = false`, l.418-423, l.425-430 with `want = true`). -/
inductive Skim {σ : Type} (next : σ → Option T × σ) (contains : T → Res Bool) (want : Bool) : σ → Option T → σ → Prop
  | stop {i i' : σ} : next i = (none, i') → Skim next contains want i none i'
  | found {i i' : σ} {x : T} : next i = (some x, i') → contains x = .ok want → Skim next contains want i (some x) i'
  | skip {i i' i'' : σ} {x : T} {r : Option T} : next i = (some x, i') → contains x = .ok (!want) → Skim next contains want i' r i'' →
      Skim next contains want i r i''

/-- `Union::next` (core/sets/iterators.rs l.142-168); the state is the two iterators. -/
inductive UnionStep (s1 : OwnSet T σ₁) (s2 : OwnSet T σ₂) : σ₁ × σ₂ → Option T → σ₁ × σ₂ → Prop
  | left {i1 i1' : σ₁} {i2 : σ₂} {x : T} : s1.len > s2.len → s1.next i1 = (some x, i1') → UnionStep s1 s2 (i1, i2) (some x) (i1', i2)
  | leftDone {i1 i1' : σ₁} {i2 i2' : σ₂} {r : Option T} : s1.len > s2.len → s1.next i1 = (none, i1') → Skim s2.next s1.contains false i2 r i2' →
      UnionStep s1 s2 (i1, i2) r (i1', i2')
  | right {i1 : σ₁} {i2 i2' : σ₂} {x : T} : ¬ s1.len > s2.len → s2.next i2 = (some x, i2') → UnionStep s1 s2 (i1, i2) (some x) (i1, i2')
  | rightDone {i1 i1' : σ₁} {i2 i2' : σ₂} {r : Option T} : ¬ s1.len > s2.len → s2.next i2 = (none, i2') →
      Skim s1.next s2.contains false i1 r i1' → UnionStep s1 s2 (i1, i2) r (i1', i2')

/-- `Difference::next` (core/sets/iterators.rs l.329-336); the state is the iterator of the first set. -/
def DifferenceStep (s1 : OwnSet T σ₁) (s2 : OwnSet T σ₂) (i : σ₁) (r : Option T) (i' : σ₁) : Prop := Skim s1.next s2.contains false i r i'

/-- `Intersection::next` (core/sets/iterators.rs l.416-432); the state is the two iterators. -/
inductive IntersectionStep (s1 : OwnSet T σ₁) (s2 : OwnSet T σ₂) : σ₁ × σ₂ → Option T → σ₁ × σ₂ → Prop
  | left {i1 i1' : σ₁} {i2 : σ₂} {r : Option T} : s1.len < s2.len → Skim s1.next s2.contains true i1 r i1' →
      IntersectionStep s1 s2 (i1, i2) r (i1', i2)
  | right {i1 : σ₁} {i2 i2' : σ₂} {r : Option T} : ¬ s1.len < s2.len → Skim s2.next s1.contains true i2 r i2' →
      IntersectionStep s1 s2 (i1, i2) r (i1, i2')

/-- `SymmetricDifference::next` (core/sets/iterators.rs l.251-253): `Chain::next` on two differences.  The state is the iterators of the two sets, the
first one dropped once it has ended. -/
inductive SymmetricStep (s1 : OwnSet T σ₁) (s2 : OwnSet T σ₂) : Option σ₁ × σ₂ → Option T → Option σ₁ × σ₂ → Prop
  | first {i1 i1' : σ₁} {i2 : σ₂} {x : T} : DifferenceStep s1 s2 i1 (some x) i1' → SymmetricStep s1 s2 (some i1, i2) (some x) (some i1', i2)
  | switch {i1 i1' : σ₁} {i2 i2' : σ₂} {r : Option T} : DifferenceStep s1 s2 i1 none i1' → DifferenceStep s2 s1 i2 r i2' →
      SymmetricStep s1 s2 (some i1, i2) r (none, i2')
  | second {i2 i2' : σ₂} {r : Option T} : DifferenceStep s2 s1 i2 r i2' → SymmetricStep s1 s2 (none, i2) r (none, i2')

/-- `iter.all(|v| test(v))`. -/
inductive AllOf {σ : Type} (next : σ → Option T × σ) (test : T → Res Bool) : σ → Bool → Prop
  | stop {i i' : σ} : next i = (none, i') → AllOf next test i true
  | fail {i i' : σ} {x : T} : next i = (some x, i') → test x = .ok false → AllOf next test i false
  | pass {i i' : σ} {x : T} {b : Bool} : next i = (some x, i') → test x = .ok true → AllOf next test i' b → AllOf next test i b

/-- `!set.contains(v)` (core/traits/set_ops.rs l.66, l.68). -/
def OwnSet.lacks {σ : Type} (s : OwnSet T σ) (x : T) : Res Bool := do
  .ok (!(← s.contains x))

/-- `is_disjoint` (core/traits/set_ops.rs l.60-70). -/
def OwnDisjoint (s1 : OwnSet T σ₁) (s2 : OwnSet T σ₂) (b : Bool) : Prop :=
  if s1.len ≤ s2.len then AllOf s1.next s2.lacks s1.start b else AllOf s2.next s1.lacks s2.start b

/-- `is_subset` (core/traits/set_ops.rs l.75-85). -/
def OwnSubset (s1 : OwnSet T σ₁) (s2 : OwnSet T σ₂) (b : Bool) : Prop :=
  if s1.len ≤ s2.len then AllOf s1.next s2.contains s1.start b else b = false

/-- `is_superset` (core/traits/set_ops.rs l.90-100). -/
def OwnSuperset (s1 : OwnSet T σ₁) (s2 : OwnSet T σ₂) (b : Bool) : Prop :=
  if s2.len ≤ s1.len then AllOf s2.next s1.contains s2.start b else b = false

/-- `frozen == own` (core/sets/decl_macros.rs l.120-130). -/
def OwnEq (s1 : OwnSet T σ₁) (s2 : OwnSet T σ₂) (b : Bool) : Prop :=
  if s1.len != s2.len then b = false else AllOf s1.next s2.contains s1.start b

end Frozen.Model
