import Verif.Model.Iterators
import Verif.Model.Sets

/-!
# Model of cloning and counting iterators

The `Clone` impls of `core/maps/iterators.rs` and `core/sets/iterators.rs`, and programs that hold any number of iterators of one type, advance them
in any order, clone them and count them.
-/

namespace Frozen.Model

variable {K V T S A : Type}

/-- `slice::Iter::clone`: a second cursor at the same place.  Standard library. -/
def StdIter.clone (s : StdIter A) : StdIter A := ⟨s.rest⟩

/-- `Iter::clone` of maps (core/maps/iterators.rs l.48-52). -/
def mapIterClone (s : StdIter (K × V)) : StdIter (K × V) := s.clone

/-- `Keys::clone` (core/maps/iterators.rs l.158-162): the inner iterator is a map's `Iter`. -/
def mapKeysClone (s : StdIter (K × V)) : StdIter (K × V) := mapIterClone s

/-- `Values::clone` (core/maps/iterators.rs l.216-220). -/
def mapValuesClone (s : StdIter (K × V)) : StdIter (K × V) := mapIterClone s

/-- `Iter::clone` of sets (core/sets/iterators.rs l.48-52): the inner iterator is a map's `Iter`. -/
def setIterClone (s : StdIter (T × Unit)) : StdIter (T × Unit) := mapIterClone s

/-- The iterators inside the set operations, cloned (core/sets/iterators.rs l.195, 197, 354, 449, 451). -/
def itemsClone (l : List T) : List T := (StdIter.clone ⟨l⟩).rest

/-- `Union::clone` (core/sets/iterators.rs l.185-200). -/
def Union.clone (u : Union T) : Union T := ⟨u.s1, itemsClone u.iter1, u.s2, itemsClone u.iter2⟩

/-- `Difference::clone` (core/sets/iterators.rs l.344-358).  The model's `Difference` has no `s1`: nothing reads it. -/
def Difference.clone (d : Difference T) : Difference T := ⟨itemsClone d.iter1, d.s2⟩

/-- `SymmetricDifference::clone` (core/sets/iterators.rs l.264-274); `Chain` derives `Clone`. -/
def SymmetricDifference.clone (s : SymmetricDifference T) : SymmetricDifference T := ⟨s.a.map Difference.clone, s.b.map Difference.clone⟩

/-- `Intersection::clone` (core/sets/iterators.rs l.439-454). -/
def Intersection.clone (u : Intersection T) : Intersection T := ⟨u.s1, itemsClone u.iter1, u.s2, itemsClone u.iter2⟩

/-- `Iterator::count` as provided by the trait, which `Union`, `Intersection` and `Difference` use: calls `next` until it answers `None`
(core/sets/iterators.rs l.134-183, 322-342, 408-437).  `fuel` bounds the number of calls; running out is not an answer of the Rust code. -/
def countOf (next : S → Res (Option A × S)) : Nat → S → Res Nat
  | 0, _ => .error (.panic "out of fuel")
  | fuel + 1, s => do
    let p ← next s
    match p.1 with
    | none => .ok 0
    | some _ => do
      let n ← countOf next fuel p.2
      .ok (n + 1)

/-- `Union::count`, the provided one (core/sets/iterators.rs l.134-183). -/
def Union.count (u : Union T) : Res Nat := countOf Union.next (u.iter1.length + u.iter2.length + 1) u

/-- `Intersection::count`, the provided one (core/sets/iterators.rs l.408-437). -/
def Intersection.count (u : Intersection T) : Res Nat := countOf Intersection.next (u.iter1.length + u.iter2.length + 1) u

/-- `Difference::count`, the provided one (core/sets/iterators.rs l.322-342). -/
def Difference.count (d : Difference T) : Res Nat := countOf Difference.next (d.iter1.length + 1) d

/-- One half of `Chain::count`. -/
def optCount : Option (Difference T) → Res Nat
  | none => .ok 0
  | some d => d.count

/-- `SymmetricDifference::count` (core/sets/iterators.rs l.259-261): `Chain::count`, which adds the counts of the halves that are left. -/
def SymmetricDifference.count [Target] (s : SymmetricDifference T) : Res Nat := do
  let a ← optCount s.a
  let b ← optCount s.b
  cadd a b

/-- An iterator type that can be cloned and counted (the `Iterator` and `Clone` impls of core/maps/iterators.rs and core/sets/iterators.rs). -/
structure Walker (S A : Type) where
  next : S → Res (Option A × S)
  clone : S → S
  count : S → Res Nat

/-- `Iter` of maps (core/maps/iterators.rs l.16-52). -/
def walkMapIter : Walker (StdIter (K × V)) (K × V) := ⟨fun s => .ok (mapIter.next s), mapIterClone, fun s => .ok (mapIter.count s)⟩

/-- `Keys` (core/maps/iterators.rs l.125-162). -/
def walkKeys : Walker (StdIter (K × V)) K := ⟨fun s => .ok (mapKeys.next s), mapKeysClone, fun s => .ok (mapKeys.count s)⟩

/-- `Values` (core/maps/iterators.rs l.183-220). -/
def walkValues : Walker (StdIter (K × V)) V := ⟨fun s => .ok (mapValues.next s), mapValuesClone, fun s => .ok (mapValues.count s)⟩

/-- `Iter` of sets (core/sets/iterators.rs l.17-52). -/
def walkSetIter : Walker (StdIter (T × Unit)) T := ⟨fun s => .ok (setIter.next s), setIterClone, fun s => .ok (setIter.count s)⟩

/-- `Union` (core/sets/iterators.rs l.134-200). -/
def walkUnion : Walker (Union T) T := ⟨Union.next, Union.clone, Union.count⟩

/-- `Intersection` (core/sets/iterators.rs l.408-454). -/
def walkIntersection : Walker (Intersection T) T := ⟨Intersection.next, Intersection.clone, Intersection.count⟩

/-- `Difference` (core/sets/iterators.rs l.322-358). -/
def walkDifference : Walker (Difference T) T := ⟨Difference.next, Difference.clone, Difference.count⟩

/-- `SymmetricDifference` (core/sets/iterators.rs l.244-274). -/
def walkSymmetricDifference [Target] : Walker (SymmetricDifference T) T :=
  ⟨SymmetricDifference.next, SymmetricDifference.clone, SymmetricDifference.count⟩

/-- What a program does with one of its iterators, named by its number.  (The callers' side of core/maps/iterators.rs and core/sets/iterators.rs.) -/
inductive WalkOp where
  /-- `it.next()` -/
  | next (i : Nat)
  /-- `let new = it.clone()`; the clone gets the next free number -/
  | clone (i : Nat)
  /-- `it.count()`, which consumes the iterator -/
  | count (i : Nat)
deriving DecidableEq, Repr

/-- What the program sees. -/
inductive WalkAns (A : Type) where
  | item (a : Option A)
  | done
  | total (n : Nat)
  /-- there is no such iterator, or it has been consumed (rejected by the Rust compiler) -/
  | gone
deriving DecidableEq, Repr

/-- The iterators a program holds; `none` where one has been consumed. -/
abbrev Pool (S : Type) := List (Option S)

/-- The iterator with this number. -/
def Pool.at (p : Pool S) (i : Nat) : Option S := p[i]?.join

/-- One step of a program. -/
def Walker.step (W : Walker S A) (p : Pool S) : WalkOp → Res (WalkAns A × Pool S)
  | .next i => match p.at i with
    | none => .ok (.gone, p)
    | some s => do
      let r ← W.next s
      .ok (.item r.1, p.set i (some r.2))
  | .clone i => match p.at i with
    | none => .ok (.gone, p)
    | some s => .ok (.done, p ++ [some (W.clone s)])
  | .count i => match p.at i with
    | none => .ok (.gone, p)
    | some s => do
      let n ← W.count s
      .ok (.total n, p.set i none)

/-- A whole program: what it sees. -/
def Walker.run (W : Walker S A) : Pool S → List WalkOp → Res (List (WalkAns A))
  | _, [] => .ok []
  | p, op :: ops => do
    let r ← W.step p op
    let rest ← W.run r.2 ops
    .ok (r.1 :: rest)

end Frozen.Model
