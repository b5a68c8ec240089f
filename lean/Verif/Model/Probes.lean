import Verif.Model.Sets

/-!
# The lookups that the set operations make

Variants of the functions in `Model/Sets` that record every call of `contains`, in the order of the calls.
-/

namespace Frozen.Model

variable {T S A : Type}

/-- A call of `contains`: which of the two sets is asked, and for which element. -/
inductive Probe (T : Type) where
  | first (x : T)
  | second (x : T)
deriving DecidableEq, Repr

/-- `nextNotIn` (core/sets/iterators.rs l.149-154, l.161-166, l.330-335); `tag` says which set is asked. -/
def nextNotInT (tag : T → Probe T) (s : SetView T) : List T → Res ((Option T × List T) × List (Probe T))
  | [] => .ok ((none, []), [])
  | a :: r => do
    if !(← s.contains a) then .ok ((some a, r), [tag a])
    else
      let p ← nextNotInT tag s r
      .ok (p.1, tag a :: p.2)

/-- `nextIn` (core/sets/iterators.rs l.418-423, l.425-430). -/
def nextInT (tag : T → Probe T) (s : SetView T) : List T → Res ((Option T × List T) × List (Probe T))
  | [] => .ok ((none, []), [])
  | a :: r => do
    if ← s.contains a then .ok ((some a, r), [tag a])
    else
      let p ← nextInT tag s r
      .ok (p.1, tag a :: p.2)

/-- `Union::next` (core/sets/iterators.rs l.142-168). -/
def Union.nextT (u : Union T) : Res ((Option T × Union T) × List (Probe T)) :=
  if u.s1.len > u.s2.len then
    match u.iter1 with
    | a :: r => .ok ((some a, { u with iter1 := r }), [])
    | [] => do
      let p ← nextNotInT .first u.s1 u.iter2
      .ok ((p.1.1, { u with iter2 := p.1.2 }), p.2)
  else
    match u.iter2 with
    | a :: r => .ok ((some a, { u with iter2 := r }), [])
    | [] => do
      let p ← nextNotInT .second u.s2 u.iter1
      .ok ((p.1.1, { u with iter1 := p.1.2 }), p.2)

/-- `Difference::next` (core/sets/iterators.rs l.329-336); `tag` says which set is asked. -/
def Difference.nextT (tag : T → Probe T) (d : Difference T) : Res ((Option T × Difference T) × List (Probe T)) := do
  let p ← nextNotInT tag d.s2 d.iter1
  .ok ((p.1.1, { d with iter1 := p.1.2 }), p.2)

/-- `self.b.as_mut()?.next()` of `Chain` (see `SymmetricDifference.nextB`): the second difference asks the first set. -/
def SymmetricDifference.nextBT (s : SymmetricDifference T) : Res ((Option T × SymmetricDifference T) × List (Probe T)) :=
  match s.b with
  | none => .ok ((none, s), [])
  | some d => do
    let p ← d.nextT .first
    .ok ((p.1.1, { s with b := some p.1.2 }), p.2)

/-- What `Chain::next` does with the result of its first iterator (see `SymmetricDifference.afterA`). -/
def SymmetricDifference.afterAT (s : SymmetricDifference T) (p : (Option T × Difference T) × List (Probe T)) :
    Res ((Option T × SymmetricDifference T) × List (Probe T)) :=
  match p.1.1 with
  | some x => .ok ((some x, { s with a := some p.1.2 }), p.2)
  | none => do
    let r ← SymmetricDifference.nextBT { s with a := none }
    .ok (r.1, p.2 ++ r.2)

/-- `SymmetricDifference::next` (core/sets/iterators.rs l.251-253). -/
def SymmetricDifference.nextT (s : SymmetricDifference T) : Res ((Option T × SymmetricDifference T) × List (Probe T)) :=
  match s.a with
  | none => s.nextBT
  | some d => do
    let p ← d.nextT .second
    s.afterAT p

/-- `Intersection::next` (core/sets/iterators.rs l.416-432). -/
def Intersection.nextT (u : Intersection T) : Res ((Option T × Intersection T) × List (Probe T)) :=
  if u.s1.len < u.s2.len then do
    let p ← nextInT .second u.s2 u.iter1
    .ok ((p.1.1, { u with iter1 := p.1.2 }), p.2)
  else do
    let p ← nextInT .first u.s1 u.iter2
    .ok ((p.1.1, { u with iter2 := p.1.2 }), p.2)

/-- `iter.all(|v| f(v))` (see `allM`); `tag` says which set is asked by `f`. -/
def allMT (tag : T → Probe T) (f : T → Res Bool) : List T → Res (Bool × List (Probe T))
  | [] => .ok (true, [])
  | a :: r => do
    if ← f a then
      let p ← allMT tag f r
      .ok (p.1, tag a :: p.2)
    else .ok (false, [tag a])

/-- `is_disjoint` (core/traits/set_ops.rs l.60-70). -/
def isDisjointT (s1 s2 : SetView T) : Res (Bool × List (Probe T)) :=
  if s1.len ≤ s2.len then allMT .second s2.lacks s1.items else allMT .first s1.lacks s2.items

/-- `is_subset` (core/traits/set_ops.rs l.75-85). -/
def isSubsetT (s1 s2 : SetView T) : Res (Bool × List (Probe T)) :=
  if s1.len ≤ s2.len then allMT .second s2.contains s1.items else .ok (false, [])

/-- `is_superset` (core/traits/set_ops.rs l.90-100). -/
def isSupersetT (s1 s2 : SetView T) : Res (Bool × List (Probe T)) :=
  if s2.len ≤ s1.len then allMT .first s1.contains s2.items else .ok (false, [])

/-- `PartialEq::eq` of sets (core/sets/decl_macros.rs l.120-130). -/
def setEqT (s1 s2 : SetView T) : Res (Bool × List (Probe T)) :=
  if s1.len != s2.len then .ok (false, []) else allMT .second s2.contains s1.items

/-- Call `next` `n` times: the items, the iterator afterwards, and the lookups made. -/
def stepsT (next : S → Res ((Option A × S) × List (Probe T))) : Nat → S → Res (List (Option A) × S × List (Probe T))
  | 0, s => .ok ([], s, [])
  | n + 1, s => do
    let p ← next s
    let r ← stepsT next n p.1.2
    .ok (p.1.1 :: r.1, r.2.1, p.2 ++ r.2.2)

/-- Exhaust an iterator (see `collect`), with the lookups made; this is what the bit operators do (core/sets/decl_macros.rs l.1-29, l.174-182). -/
def collectT (next : S → Res ((Option A × S) × List (Probe T))) : Nat → S → Res (Option (List A) × List (Probe T))
  | 0, _ => .ok (none, [])
  | fuel + 1, s => do
    let p ← next s
    match p.1.1 with
    | none => .ok (some [], p.2)
    | some a => do
      let r ← collectT next fuel p.1.2
      .ok (r.1.map (fun l => a :: l), p.2 ++ r.2)

end Frozen.Model
