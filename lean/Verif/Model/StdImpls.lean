import Verif.Model.History
import Verif.Model.Sets

/-!
# The implementations of the map and set traits for the standard library's and hashbrown's collections

`Map`, `MapQuery`, `MapExtras`, `MapIteration`, `Len` are implemented for `std::collections::HashMap`,
`alloc::collections::BTreeMap` and `hashbrown::HashMap`; the set traits for the corresponding sets
(core/traits/map.rs l.10-39, map_query.rs l.24-51, map_extras.rs l.26-75, map_iteration.rs l.71-277, len.rs l.77-125,
set_query.rs l.16-43, set_extras.rs l.16-41, set_iteration.rs l.17-51).  Except for `get_disjoint_mut` they all forward to
the inherent functions of the same name.  The collections themselves are not part of this crate; they are represented by
their contents, and their functions by what their documentation says.
-/

namespace Frozen.Model

variable {M Q K V T : Type}

/-- The contents of a `HashMap` or `BTreeMap`, in iteration order. -/
structure StdMap (K V : Type) where
  entries : List (K × V)

/-- Which collection: `hash` is `std::collections::HashMap` or `hashbrown::HashMap`, `btree` is `BTreeMap`. -/
inductive StdKind where
  | hash
  | btree
deriving DecidableEq

/-- The functions that the trait implementations forward to (core/maps/decl_macros.rs l.407-479 as used in
core/traits/map_query.rs l.31, l.40, l.49 and map_extras.rs l.34, l.43, l.62).  `mt` is `q == key.borrow()`, `q.cmp(key.borrow()) ==
Equal` or `q.equivalent(key)`. -/
def StdMap.impl (mt : Q → K → Bool) : MapImpl (StdMap K V) Q K V where
  get s q := .ok ((s.entries.find? (fun e => mt q e.1)).map (fun e => e.2))
  getMut s q := .ok (s.entries.findIdx? (fun e => mt q e.1))
  getKeyValue s q := .ok (s.entries.find? (fun e => mt q e.1))
  containsKey s q := .ok (s.entries.find? (fun e => mt q e.1)).isSome
  len s := s.entries.length
  entries s := s.entries
  write s i v := ⟨writeAt s.entries i v⟩

/-- Two of the positions are the same. -/
def samePosition : List (Option Nat) → Bool
  | [] => false
  | none :: ps => samePosition ps
  | some i :: ps => ps.contains (some i) || samePosition ps

/-- `hashbrown::HashMap::get_many_mut`, which `std::collections::HashMap::get_disjoint_mut` also ends in: "Panics if any
keys are overlapping", that is if two of the keys find the same entry. -/
def StdMap.getManyMut (mt : Q → K → Bool) (s : StdMap K V) (qs : List Q) : Res (List (Option Nat)) :=
  let ps := qs.map (fun q => s.entries.findIdx? (fun e => mt q e.1))
  if samePosition ps then .error (.panic "duplicate keys found") else .ok ps

/-- `MapExtras::get_disjoint_mut` (core/traits/map_extras.rs): for `HashMap` the inherent function (l.34, l.66-68), for `BTreeMap`
the code that this crate uses for its own maps (l.47-49). -/
def StdMap.getDisjointMut (kind : StdKind) (mt : Q → K → Bool) (eqQ : Q → Q → Bool) (s : StdMap K V) (qs : List Q) :
    Res (List (Option Nat)) :=
  match kind with
  | .hash => s.getManyMut mt qs
  | .btree => (StdMap.impl mt).getDisjointMut eqQ s qs

/-- One step of a client program, as `MapImpl.step` is for the crate's own maps. -/
def StdMap.step (kind : StdKind) (mt : Q → K → Bool) (eqQ : Q → Q → Bool) (s : StdMap K V) (op : Op Q K V) :
    Out K V × StdMap K V :=
  match op with
  | .disjointMut qs f =>
    match s.getDisjointMut kind mt eqQ qs with
    | .error e => (Out.ofFault e, s)
    | .ok ps =>
      if (ps.filterMap id).Nodup then
        (.values (ps.map (fun p => p.bind ((StdMap.impl mt).readRef s))), (StdMap.impl mt).storeAll f 0 ps s)
      else (.ub, s)
  | op => (StdMap.impl mt).step eqQ s op

/-- Run a client program on a standard map. -/
def StdMap.run (kind : StdKind) (mt : Q → K → Bool) (eqQ : Q → Q → Bool) (s : StdMap K V) :
    List (Op Q K V) → List (Out K V) × StdMap K V
  | [] => ([], s)
  | op :: ops =>
    let (o, s') := s.step kind mt eqQ op
    let (os, s'') := s'.run kind mt eqQ ops
    (o :: os, s'')

/-- `HashMap::insert`: "If the map did have this key present, the value is updated […]. The key is not updated".  (The
place of a new entry in the iteration order is unspecified; here it is the last.) -/
def hashInsert (eqK : K → K → Bool) (es : List (K × V)) (e : K × V) : List (K × V) :=
  if es.any (fun x => eqK e.1 x.1) then es.map (fun x => if eqK e.1 x.1 then (x.1, e.2) else x) else es ++ [e]

/-- `HashMap::from_iter`, `HashMap::from([_; N])`: insert the entries one after the other. -/
def hashCollect (eqK : K → K → Bool) (es : List (K × V)) : List (K × V) := es.foldl (hashInsert eqK) []

/-- Keep the last of every run of equal neighbours (std's `DedupSortedIter`). -/
def dedupSorted (cmp : K → K → Ordering) : List (K × V) → List (K × V)
  | x :: y :: xs => if cmp x.1 y.1 == .eq then dedupSorted cmp (y :: xs) else x :: dedupSorted cmp (y :: xs)
  | l => l

/-- `BTreeMap::from_iter`, `BTreeMap::from([_; N])`: stable sort by key, then keep the last of equal keys. -/
def btreeCollect (cmp : K → K → Ordering) (es : List (K × V)) : List (K × V) :=
  dedupSorted cmp (es.mergeSort (fun x y => cmp x.1 y.1 != .gt))

/-- `HashSet`, `BTreeSet`: the elements in iteration order; `contains` and `get` (core/traits/set_query.rs l.22, l.31, l.41, set_extras.rs
l.23, l.32, l.41). -/
def stdSetImpl (mt : Q → T → Bool) : SetImpl (List T) Q T where
  contains xs q := .ok (xs.any (mt q))
  get xs q := .ok (xs.find? (mt q))
  len xs := xs.length
  items xs := xs

/-- `HashSet::insert` as documented: an equal element already present stays as it is.  (The place of a new element in the iteration order is
unspecified; here it is the last.)  Compared with the `FromIterator` impls of the frozen sets (core/fz_sets/fz_hash_set.rs, fz_ordered_set.rs: `from_iter`). -/
def hashSetInsert (eqT : T → T → Bool) (xs : List T) (x : T) : List T := if xs.any (eqT x) then xs else xs ++ [x]

/-- `HashSet::from_iter`, `HashSet::from([_; N])`: insert the elements one after the other. -/
def hashSetCollect (eqT : T → T → Bool) (xs : List T) : List T := xs.foldl (hashSetInsert eqT) []

/-- `BTreeSet::from_iter`, `BTreeSet::from([_; N])`: as for `BTreeMap`, with values `()`. -/
def btreeSetCollect (cmp : T → T → Ordering) (xs : List T) : List T := (btreeCollect cmp (unitEntries xs)).map (fun e => e.1)

end Frozen.Model
