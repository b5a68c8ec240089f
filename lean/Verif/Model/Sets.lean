import Verif.Model.FzMaps
import Verif.Model.Iterators

/-!
# Sets

Every set of the crate is a map from its elements to `()` (core/fz_sets/*.rs, core/inline_sets/*.rs).
-/

namespace Frozen.Model

variable {M Q T V : Type}

/-- The primary functions of a set type: `Set`, `SetQuery`, `SetExtras`, `SetIteration`, `Len`
(core/traits/set.rs, set_query.rs, set_extras.rs, set_iteration.rs, len.rs).  `items` are the items of `iter()`. -/
structure SetImpl (M Q T : Type) where
  contains : M → Q → Res Bool
  get : M → Q → Res (Option T)
  len : M → Nat
  items : M → List T

/-- `Some(self.map.get_key_value(value)?.0)`. -/
def getOfMap (I : MapImpl M Q T Unit) (m : M) (q : Q) : Res (Option T) := do
  let e ← I.getKeyValue m q
  .ok (e.map (fun e => e.1))

/-- The functions of the public set types `FzHashSet`, `FzOrderedSet`, `FzScalarSet`, `FzStringSet`: `get` and
`contains` query the map (core/fz_sets/fz_hash_set.rs l.72-115, fz_ordered_set.rs l.55-98, fz_scalar_set.rs l.51-90,
fz_string_set.rs l.58-100), `iter` yields the keys (core/sets/iterators.rs l.7-61; C44 relates it to the list). -/
def fzSetImpl (I : MapImpl M Q T Unit) : SetImpl M Q T where
  contains m q := I.containsKey m q
  get m q := getOfMap I m q
  len m := I.len m
  items m := (I.iter m).rest.map (fun e => e.1)

/-- The functions of the `Inline*Set` types: `contains` is `self.get(value).is_some()`
(core/sets/decl_macros.rs l.30-96, e.g. core/inline_sets/inline_scan_set.rs l.42-62). -/
def inlineSetImpl (I : MapImpl M Q T Unit) : SetImpl M Q T where
  contains m q := do
    let e ← getOfMap I m q
    .ok e.isSome
  get m q := getOfMap I m q
  len m := I.len m
  items m := (I.iter m).rest.map (fun e => e.1)

/-- `entries.into_iter().map(|x| (x, ())).collect()`, the entries a set hands to its map. -/
def unitEntries (xs : List T) : List (T × Unit) := xs.map (fun x => (x, ()))

/-- `FzHashSet::with_hasher` (core/fz_sets/fz_hash_set.rs l.64-71).  `FzHashSet::from([_; N])` and `from_iter`
(l.137-155) go through `FzHashMap::from_iter` with the same entries. -/
def FzHashSet.withHasher [Target] (find : HbFind) (sort : Sorter (T × Unit)) (eqT : T → T → Bool) (bh : T → Nat) (xs : List T) :
    Res (HashMap T Unit) := FzHashMap.withHasher find sort eqT bh (unitEntries xs)

/-- `FzOrderedSet::new` (core/fz_sets/fz_ordered_set.rs l.48-55). -/
def FzOrderedSet.new [Target] (cmp : T → T → Ordering) (xs : List T) : Res (EytzingerMap T Unit) :=
  FzOrderedMap.new cmp (unitEntries xs)

/-- `FzScalarSet::new` (core/fz_sets/fz_scalar_set.rs l.43-50). -/
def FzScalarSet.new [Target] (b : Build) (sort : Sorter (T × Unit)) (cmp : T → T → Ordering) (index : T → Nat) (xs : List T) :
    Res (FzScalarMap T Unit) := FzScalarMap.new b sort cmp index (unitEntries xs)

/-- `FzStringSet::with_hasher` (core/fz_sets/fz_string_set.rs l.47-56). -/
def FzStringSet.withHasher [Target] (sort : Sorter (Str × Unit)) (bhStr bhSlice : Str → Nat) (xs : List Str) :
    Res (FzStringMap Unit) := FzStringMap.withHasher sort bhStr bhSlice (unitEntries xs)

/-- `FzHashSet::default` (core/fz_sets/fz_hash_set.rs l.118-125). -/
def FzHashSet.default : HashMap T Unit := FzHashMap.default

/-- `FzOrderedSet::default` (core/fz_sets/fz_ordered_set.rs l.102-108). -/
def FzOrderedSet.default : EytzingerMap T Unit := FzOrderedMap.default

/-- `FzScalarSet::default` (core/fz_sets/fz_scalar_set.rs l.96-102). -/
def FzScalarSet.default : FzScalarMap T Unit := FzScalarMap.default

/-- `FzStringSet::default` (core/fz_sets/fz_string_set.rs l.103-112). -/
def FzStringSet.default : FzStringMap Unit := FzStringMap.default

/-! ## Set operations

These are generic over any two set types with the same element type (`ST: Set<T>`; besides the crate's own sets, the
standard library's and hashbrown's).  All they use of a set is its length, its iterator, and `contains` queried with
elements: -/

/-- A set as seen by the set operations. -/
structure SetView (T : Type) where
  len : Nat
  items : List T
  contains : T → Res Bool

/-- A set of the crate as seen by the set operations. -/
def SetImpl.view (I : SetImpl M T T) (m : M) : SetView T := ⟨I.len m, I.items m, I.contains m⟩

/-- `loop { let item = iter.next()?; if !set.contains(item) { return Some(item) } }`
(core/sets/iterators.rs l.149-154, l.161-166, l.330-335).  Returns the item found and the rest of the iterator. -/
def nextNotIn (s : SetView T) : List T → Res (Option T × List T)
  | [] => .ok (none, [])
  | a :: r => do
    if !(← s.contains a) then .ok (some a, r) else nextNotIn s r

/-- `loop { let item = iter.next()?; if set.contains(item) { return Some(item) } }`
(core/sets/iterators.rs l.418-423, l.425-430). -/
def nextIn (s : SetView T) : List T → Res (Option T × List T)
  | [] => .ok (none, [])
  | a :: r => do
    if ← s.contains a then .ok (some a, r) else nextIn s r

/-- `Union` (core/sets/iterators.rs l.107-118). -/
structure Union (T : Type) where
  s1 : SetView T
  iter1 : List T
  s2 : SetView T
  iter2 : List T

/-- `Union::new` (core/sets/iterators.rs l.124-131). -/
def Union.new (s1 s2 : SetView T) : Union T := ⟨s1, s1.items, s2, s2.items⟩

/-- `Union::next` (core/sets/iterators.rs l.142-168). -/
def Union.next (u : Union T) : Res (Option T × Union T) :=
  if u.s1.len > u.s2.len then
    match u.iter1 with
    | a :: r => .ok (some a, { u with iter1 := r })
    | [] => do
      let p ← nextNotIn u.s1 u.iter2
      .ok (p.1, { u with iter2 := p.2 })
  else
    match u.iter2 with
    | a :: r => .ok (some a, { u with iter2 := r })
    | [] => do
      let p ← nextNotIn u.s2 u.iter1
      .ok (p.1, { u with iter1 := p.2 })

/-- `usize::checked_add`. -/
def checkedAdd [Target] (a b : Nat) : Option Nat := if a + b ≤ usizeMax then some (a + b) else none

/-- `Union::size_hint` (core/sets/iterators.rs l.170-182).  The two underlying iterators are exact-size (C44), so
both upper bounds are `Some`. -/
def Union.sizeHint [Target] (u : Union T) : Nat × Option Nat :=
  (max u.iter1.length u.iter2.length, checkedAdd u.iter1.length u.iter2.length)

/-- `Difference` (core/sets/iterators.rs l.297-306). -/
structure Difference (T : Type) where
  iter1 : List T
  s2 : SetView T

/-- `Difference::new` (core/sets/iterators.rs l.313-319). -/
def Difference.new (s1 s2 : SetView T) : Difference T := ⟨s1.items, s2⟩

/-- `Difference::next` (core/sets/iterators.rs l.329-336). -/
def Difference.next (d : Difference T) : Res (Option T × Difference T) := do
  let p ← nextNotIn d.s2 d.iter1
  .ok (p.1, { d with iter1 := p.2 })

/-- `Difference::size_hint` (core/sets/iterators.rs l.338-341). -/
def Difference.sizeHint (d : Difference T) : Nat × Option Nat := (0, some d.iter1.length)

/-- `SymmetricDifference` (core/sets/iterators.rs l.223-231): `core::iter::Chain` of two differences.  The first
component of a `Chain` becomes `None` once it is exhausted. -/
structure SymmetricDifference (T : Type) where
  a : Option (Difference T)
  b : Option (Difference T)

/-- `SymmetricDifference::new` (core/sets/iterators.rs l.237-241). -/
def SymmetricDifference.new (s1 s2 : SetView T) : SymmetricDifference T :=
  ⟨some (Difference.new s1 s2), some (Difference.new s2 s1)⟩

/-- `self.b.as_mut()?.next()` of `Chain`. -/
def SymmetricDifference.nextB (s : SymmetricDifference T) : Res (Option T × SymmetricDifference T) :=
  match s.b with
  | none => .ok (none, s)
  | some d => do
    let p ← d.next
    .ok (p.1, { s with b := some p.2 })

/-- What `Chain::next` does with the result of its first iterator. -/
def SymmetricDifference.afterA (s : SymmetricDifference T) (p : Option T × Difference T) :
    Res (Option T × SymmetricDifference T) :=
  match p.1 with
  | some x => .ok (some x, { s with a := some p.2 })
  | none => SymmetricDifference.nextB { s with a := none }

/-- `SymmetricDifference::next` (core/sets/iterators.rs l.251-253): `Chain::next`. -/
def SymmetricDifference.next (s : SymmetricDifference T) : Res (Option T × SymmetricDifference T) :=
  match s.a with
  | none => s.nextB
  | some d => do
    let p ← d.next
    s.afterA p

/-- `SymmetricDifference::size_hint` (core/sets/iterators.rs l.255-257): `Chain::size_hint`. -/
def SymmetricDifference.sizeHint [Target] (s : SymmetricDifference T) : Nat × Option Nat :=
  match s.a, s.b with
  | some a, some b => (min (a.sizeHint.1 + b.sizeHint.1) usizeMax,
      match a.sizeHint.2, b.sizeHint.2 with
      | some x, some y => checkedAdd x y
      | _, _ => none)
  | some a, none => a.sizeHint
  | none, some b => b.sizeHint
  | none, none => (0, some 0)

/-- `Intersection` (core/sets/iterators.rs l.381-392). -/
structure Intersection (T : Type) where
  s1 : SetView T
  iter1 : List T
  s2 : SetView T
  iter2 : List T

/-- `Intersection::new` (core/sets/iterators.rs l.398-405). -/
def Intersection.new (s1 s2 : SetView T) : Intersection T := ⟨s1, s1.items, s2, s2.items⟩

/-- `Intersection::next` (core/sets/iterators.rs l.416-432). -/
def Intersection.next (u : Intersection T) : Res (Option T × Intersection T) :=
  if u.s1.len < u.s2.len then do
    let p ← nextIn u.s2 u.iter1
    .ok (p.1, { u with iter1 := p.2 })
  else do
    let p ← nextIn u.s1 u.iter2
    .ok (p.1, { u with iter2 := p.2 })

/-- `Intersection::size_hint` (core/sets/iterators.rs l.434-436). -/
def Intersection.sizeHint (u : Intersection T) : Nat × Option Nat := (0, some (min u.s1.len u.s2.len))

/-- `iter.all(|v| f(v))` with a predicate that may fail; stops at the first `false`. -/
def allM (f : T → Res Bool) : List T → Res Bool
  | [] => .ok true
  | a :: r => do
    if ← f a then allM f r else .ok false

/-- `!set.contains(v)`. -/
def SetView.lacks (s : SetView T) (x : T) : Res Bool := do
  .ok (!(← s.contains x))

/-- `is_disjoint` (core/traits/set_ops.rs l.60-70). -/
def isDisjoint (s1 s2 : SetView T) : Res Bool :=
  if s1.len ≤ s2.len then allM s2.lacks s1.items else allM s1.lacks s2.items

/-- `is_subset` (core/traits/set_ops.rs l.75-85). -/
def isSubset (s1 s2 : SetView T) : Res Bool :=
  if s1.len ≤ s2.len then allM s2.contains s1.items else .ok false

/-- `is_superset` (core/traits/set_ops.rs l.90-100). -/
def isSuperset (s1 s2 : SetView T) : Res Bool :=
  if s2.len ≤ s1.len then allM s1.contains s2.items else .ok false

/-- `PartialEq::eq` of sets (core/sets/decl_macros.rs l.120-130). -/
def setEq (s1 s2 : SetView T) : Res Bool :=
  if s1.len != s2.len then .ok false else allM s2.contains s1.items

/-- Exhaust an iterator into a list, with at most `fuel` calls of `next`.  `none` if the fuel did not suffice. -/
def collect {S A : Type} (next : S → Res (Option A × S)) : Nat → S → Res (Option (List A))
  | 0, _ => .ok none
  | fuel + 1, s => do
    let p ← next s
    match p.1 with
    | none => .ok (some [])
    | some a => do
      let r ← collect next fuel p.2
      .ok (r.map (fun l => a :: l))

/-- A `hashbrown::HashSet`, the output of the bit operators, by its documented contract: its elements.
The order in which hashbrown iterates is unspecified; nothing below depends on the order of this list. -/
structure HbSet (T : Type) where
  elems : List T

/-- `hashbrown::HashSet::insert`: an element that is already present is not replaced. -/
def HbSet.insert (eqT : T → T → Bool) (s : HbSet T) (x : T) : HbSet T :=
  if s.elems.any (eqT x) then s else ⟨s.elems ++ [x]⟩

/-- `hashbrown::HashSet::from_iter` / `collect`. -/
def HbSet.fromIter (eqT : T → T → Bool) (l : List T) : HbSet T := l.foldl (HbSet.insert eqT) ⟨[]⟩

/-- A hashbrown set as seen by the set operations. -/
def HbSet.view (eqT : T → T → Bool) (s : HbSet T) : SetView T :=
  ⟨s.elems.length, s.elems, fun x => .ok (s.elems.any (eqT x))⟩

/-- Exhaust `next` from `s` into a hashbrown set. -/
def collectHb {S : Type} (eqT : T → T → Bool) (next : S → Res (Option T × S)) (fuel : Nat) (s : S) :
    Res (Option (HbSet T)) := do
  let l ← collect next fuel s
  .ok (l.map (HbSet.fromIter eqT))

/-- `BitOr::bitor` (core/sets/decl_macros.rs l.11-19).  The fuel (one more than the number of elements of both sets) is a
device of the model; that it suffices is part of the theorems. -/
def bitOr (eqT : T → T → Bool) (s1 s2 : SetView T) : Res (Option (HbSet T)) :=
  collectHb eqT Union.next (s1.items.length + s2.items.length + 1) (Union.new s1 s2)

/-- `BitAnd::bitand` (core/sets/decl_macros.rs l.1-9). -/
def bitAnd (eqT : T → T → Bool) (s1 s2 : SetView T) : Res (Option (HbSet T)) :=
  collectHb eqT Intersection.next (s1.items.length + s2.items.length + 1) (Intersection.new s1 s2)

/-- `BitXor::bitxor` (core/sets/decl_macros.rs l.21-29). -/
def bitXor (eqT : T → T → Bool) (s1 s2 : SetView T) : Res (Option (HbSet T)) :=
  collectHb eqT SymmetricDifference.next (s1.items.length + s2.items.length + 1) (SymmetricDifference.new s1 s2)

/-- `Sub::sub` (core/sets/decl_macros.rs l.174-182). -/
def bitSub (eqT : T → T → Bool) (s1 s2 : SetView T) : Res (Option (HbSet T)) :=
  collectHb eqT Difference.next (s1.items.length + s2.items.length + 1) (Difference.new s1 s2)

end Frozen.Model
