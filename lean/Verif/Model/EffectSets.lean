import Verif.Model.EffectBuild
import Verif.Model.Sets

/-!
# Set operations that run user code with effects

The set operations look elements up in sets, which runs the trait functions of the elements: code of the user that may change the
state of the program and panic.  The Rust sources are those of `Model/Sets`.  An iterator is changed through `&mut self`, so what
`next` did to it before a panic remains: the functions below return the iterator beside the result.
-/

namespace Frozen.Model

variable {W S M T : Type}

/-- A set as seen by the set operations (see `SetView`), with lookups that run user code. -/
structure SetViewE (W T : Type) where
  len : Nat
  items : List T
  contains : T → Eff W Bool

/-- A set of the crate, a map to `()` with the lookups `search`, as seen by the set operations
(core/fz_sets/fz_hash_set.rs l.72-115 and the other set types, see `fzSetImpl` and `inlineSetImpl`). -/
def setViewE (I : MapImpl M T T Unit) (search : M → T → Eff W (Option Nat)) (m : M) : SetViewE W T where
  len := I.len m
  items := (I.iter m).rest.map (fun e => e.1)
  contains x := do
    let r ← search m x
    pure (I.found m r).isSome

/-- `loop { let item = iter.next()?; if !set.contains(item) { return Some(item) } }`
(core/sets/iterators.rs l.149-154, l.161-166, l.330-335): the item is taken from `iter` before `contains` is called. -/
def nextNotInE (s : SetViewE W T) : List T → W → Res (Option T) × List T × W
  | [], w => (.ok none, [], w)
  | a :: r, w =>
    match s.contains a w with
    | (.ok false, w') => (.ok (some a), r, w')
    | (.ok true, w') => nextNotInE s r w'
    | (.error e, w') => (.error e, r, w')

/-- `loop { let item = iter.next()?; if set.contains(item) { return Some(item) } }`
(core/sets/iterators.rs l.418-423, l.425-430). -/
def nextInE (s : SetViewE W T) : List T → W → Res (Option T) × List T × W
  | [], w => (.ok none, [], w)
  | a :: r, w =>
    match s.contains a w with
    | (.ok true, w') => (.ok (some a), r, w')
    | (.ok false, w') => nextInE s r w'
    | (.error e, w') => (.error e, r, w')

/-- `Union` (core/sets/iterators.rs l.107-118). -/
structure UnionE (W T : Type) where
  s1 : SetViewE W T
  iter1 : List T
  s2 : SetViewE W T
  iter2 : List T

/-- `Union::new` (core/sets/iterators.rs l.124-131). -/
def UnionE.new (s1 s2 : SetViewE W T) : UnionE W T := ⟨s1, s1.items, s2, s2.items⟩

/-- `Union::next` (core/sets/iterators.rs l.142-168). -/
def UnionE.next (u : UnionE W T) (w : W) : Res (Option T) × UnionE W T × W :=
  if u.s1.len > u.s2.len then
    match u.iter1 with
    | a :: r => (.ok (some a), { u with iter1 := r }, w)
    | [] =>
      let p := nextNotInE u.s1 u.iter2 w
      (p.1, { u with iter2 := p.2.1 }, p.2.2)
  else
    match u.iter2 with
    | a :: r => (.ok (some a), { u with iter2 := r }, w)
    | [] =>
      let p := nextNotInE u.s2 u.iter1 w
      (p.1, { u with iter1 := p.2.1 }, p.2.2)

/-- `Difference` (core/sets/iterators.rs l.297-306). -/
structure DifferenceE (W T : Type) where
  iter1 : List T
  s2 : SetViewE W T

/-- `Difference::new` (core/sets/iterators.rs l.313-319). -/
def DifferenceE.new (s1 s2 : SetViewE W T) : DifferenceE W T := ⟨s1.items, s2⟩

/-- `Difference::next` (core/sets/iterators.rs l.329-336). -/
def DifferenceE.next (d : DifferenceE W T) (w : W) : Res (Option T) × DifferenceE W T × W :=
  let p := nextNotInE d.s2 d.iter1 w
  (p.1, { d with iter1 := p.2.1 }, p.2.2)

/-- `SymmetricDifference` (core/sets/iterators.rs l.223-231), see the pure one. -/
structure SymmetricDifferenceE (W T : Type) where
  a : Option (DifferenceE W T)
  b : Option (DifferenceE W T)

/-- `SymmetricDifference::new` (core/sets/iterators.rs l.237-241). -/
def SymmetricDifferenceE.new (s1 s2 : SetViewE W T) : SymmetricDifferenceE W T :=
  ⟨some (DifferenceE.new s1 s2), some (DifferenceE.new s2 s1)⟩

/-- `self.b.as_mut()?.next()` of `Chain`. -/
def SymmetricDifferenceE.nextB (s : SymmetricDifferenceE W T) (w : W) : Res (Option T) × SymmetricDifferenceE W T × W :=
  match s.b with
  | none => (.ok none, s, w)
  | some d =>
    let p := d.next w
    (p.1, { s with b := some p.2.1 }, p.2.2)

/-- `SymmetricDifference::next` (core/sets/iterators.rs l.251-253): `Chain::next`, which forgets its first iterator once that has
returned `None`, and not when it panicked. -/
def SymmetricDifferenceE.next (s : SymmetricDifferenceE W T) (w : W) : Res (Option T) × SymmetricDifferenceE W T × W :=
  match s.a with
  | none => s.nextB w
  | some d =>
    match d.next w with
    | (.ok none, _, w') => SymmetricDifferenceE.nextB { s with a := none } w'
    | (o, d', w') => (o, { s with a := some d' }, w')

/-- `Intersection` (core/sets/iterators.rs l.381-392). -/
structure IntersectionE (W T : Type) where
  s1 : SetViewE W T
  iter1 : List T
  s2 : SetViewE W T
  iter2 : List T

/-- `Intersection::new` (core/sets/iterators.rs l.398-405). -/
def IntersectionE.new (s1 s2 : SetViewE W T) : IntersectionE W T := ⟨s1, s1.items, s2, s2.items⟩

/-- `Intersection::next` (core/sets/iterators.rs l.416-432). -/
def IntersectionE.next (u : IntersectionE W T) (w : W) : Res (Option T) × IntersectionE W T × W :=
  if u.s1.len < u.s2.len then
    let p := nextInE u.s2 u.iter1 w
    (p.1, { u with iter1 := p.2.1 }, p.2.2)
  else
    let p := nextInE u.s1 u.iter2 w
    (p.1, { u with iter2 := p.2.1 }, p.2.2)

/-- A program that calls `next` again and again, catches panics and goes on with the same iterator; before each call it does
something else, which changes the state of the program (not in the Rust code: the user of the iterator). -/
def callsE (next : S → W → Res (Option T) × S × W) : S → List (W → W) → W → List (Res (Option T)) × S × W
  | s, [], w => ([], s, w)
  | s, f :: fs, w =>
    let p := next s (f w)
    let r := callsE next p.2.1 fs p.2.2
    (p.1 :: r.1, r.2)

/-- `iter.all(|v| f(v))`, see `allM`. -/
def allE (f : T → Eff W Bool) : List T → Eff W Bool
  | [] => pure true
  | a :: r => do
    let c ← f a
    if c then allE f r else pure false

/-- `!set.contains(v)`. -/
def SetViewE.lacks (s : SetViewE W T) (x : T) : Eff W Bool := do
  let c ← s.contains x
  pure (!c)

/-- `is_disjoint` (core/traits/set_ops.rs l.60-70). -/
def isDisjointE (s1 s2 : SetViewE W T) : Eff W Bool :=
  if s1.len ≤ s2.len then allE s2.lacks s1.items else allE s1.lacks s2.items

/-- `is_subset` (core/traits/set_ops.rs l.75-85). -/
def isSubsetE (s1 s2 : SetViewE W T) : Eff W Bool :=
  if s1.len ≤ s2.len then allE s2.contains s1.items else pure false

/-- `is_superset` (core/traits/set_ops.rs l.90-100). -/
def isSupersetE (s1 s2 : SetViewE W T) : Eff W Bool :=
  if s2.len ≤ s1.len then allE s1.contains s2.items else pure false

/-- `PartialEq::eq` of sets (core/sets/decl_macros.rs l.120-130). -/
def setEqE (s1 s2 : SetViewE W T) : Eff W Bool :=
  if s1.len != s2.len then pure false else allE s2.contains s1.items

/-! ## Operators -/

/-- A `hashbrown::HashSet` under construction: its elements, and the hash codes under which they are stored (see `HbSet`). -/
structure HbTable (T : Type) where
  elems : List T
  hashes : List Nat

/-- What the operators call of the user: `Hash`, `Eq` and `Clone` of the elements; and how hashbrown searches and grows (as in `usingHashLoopE`). -/
structure HbTraits (W T : Type) where
  find : HbFindDialog
  rehash : HbRehash
  hash : T → Eff W Nat
  eq : T → T → Eff W Bool
  clone : T → Eff W T

/-- `hashbrown::HashSet::insert`: hash the element, make room (which may hash stored elements again), search, and store the element if none was found
(used by core/sets/decl_macros.rs l.1-29, l.174-182).  The answers of the closure that hashes again are not used: they are right if the hasher is. -/
def HbTable.insertE (t : HbTraits W T) (s : HbTable T) (x : T) : Eff W (HbTable T) := do
  let h ← t.hash x
  let _ ← mapE (atPosE s.elems t.hash 0) (t.rehash s.elems.length s.hashes.zipIdx)
  let r ← (t.find s.elems.length s.hashes.zipIdx h).answerE (atPosE s.elems (t.eq x) false)
  if r.isSome then pure s else pure ⟨s.elems ++ [x], s.hashes ++ [h]⟩

/-- `iter.cloned().collect()` into a hash set; a panic ends it.  The fuel is a device of the model, as in `collect`. -/
def collectHbE (t : HbTraits W T) (next : S → W → Res (Option T) × S × W) : Nat → S → HbTable T → Eff W (Option (HbSet T))
  | 0, _, _ => pure none
  | fuel + 1, s, tbl => fun w =>
    match next s w with
    | (.ok none, _, w') => (.ok (some ⟨tbl.elems⟩), w')
    | (.ok (some a), s', w') => (t.clone a >>= fun x => tbl.insertE t x >>= fun tbl' => collectHbE t next fuel s' tbl') w'
    | (.error e, _, w') => (.error e, w')

/-- `BitOr::bitor` (core/sets/decl_macros.rs l.11-19). -/
def bitOrE (t : HbTraits W T) (s1 s2 : SetViewE W T) : Eff W (Option (HbSet T)) :=
  collectHbE t UnionE.next (s1.items.length + s2.items.length + 1) (UnionE.new s1 s2) ⟨[], []⟩

/-- `BitAnd::bitand` (core/sets/decl_macros.rs l.1-9). -/
def bitAndE (t : HbTraits W T) (s1 s2 : SetViewE W T) : Eff W (Option (HbSet T)) :=
  collectHbE t IntersectionE.next (s1.items.length + s2.items.length + 1) (IntersectionE.new s1 s2) ⟨[], []⟩

/-- `BitXor::bitxor` (core/sets/decl_macros.rs l.21-29). -/
def bitXorE (t : HbTraits W T) (s1 s2 : SetViewE W T) : Eff W (Option (HbSet T)) :=
  collectHbE t SymmetricDifferenceE.next (s1.items.length + s2.items.length + 1) (SymmetricDifferenceE.new s1 s2) ⟨[], []⟩

/-- `Sub::sub` (core/sets/decl_macros.rs l.174-182). -/
def bitSubE (t : HbTraits W T) (s1 s2 : SetViewE W T) : Eff W (Option (HbSet T)) :=
  collectHbE t DifferenceE.next (s1.items.length + s2.items.length + 1) (DifferenceE.new s1 s2) ⟨[], []⟩

end Frozen.Model
