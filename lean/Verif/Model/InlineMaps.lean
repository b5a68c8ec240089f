import Verif.Model.FzMaps

/-!
# Model of `core/inline_maps/*.rs` and `core/hash_tables/inline_hash_table*.rs`

The inline maps hold arrays `[T; SZ]` instead of slices.  Their query functions are generated by the same macros as those of
`core/maps/*.rs` (core/maps/decl_macros.rs), so the inline scan, Eytzinger, dense, sparse and (colliding) hash
maps reuse the structures and functions of `Model/Maps.lean`.  The collision-free hash table has code of its own.
-/

namespace Frozen.Model

variable {T Q K V : Type}

/-! ## The collision-free hash table -/

/-- `struct InlineHashTableNoCollisions` (core/hash_tables/inline_hash_table_no_collisions.rs l.17-21).  A slot holds
the position of its entry plus one, or zero. -/
structure HashTableNC (T : Type) where
  slots : List Nat
  entries : List T
  mask : Nat

/-- `InlineHashTableNoCollisions::new_raw` (core/hash_tables/inline_hash_table_no_collisions.rs l.27-33); `NHS - 1` in a
constant (NHS is the length of `slots`). -/
def HashTableNC.newRaw (slots : List Nat) (entries : List T) : Res (HashTableNC T) := do
  let mask ← csub slots.length 1
  .ok { slots := slots, entries := entries, mask := mask }

/-- `InlineHashTable::new_raw` (core/hash_tables/inline_hash_table.rs l.29-35). -/
def HashTable.newRaw (slots : List Slot) (entries : List T) : Res (HashTable T) := do
  let mask ← csub slots.length 1
  .ok { slots := slots, entries := entries, mask := mask }

/-- `InlineHashTableNoCollisions::find` (core/hash_tables/inline_hash_table_no_collisions.rs l.41-58). -/
def HashTableNC.find (t : HashTableNC T) (hashCode : Nat) (eq : T → Bool) : Res (Option T) := do
  let indexInEntries ← getUnchecked t.slots (hashCode &&& t.mask)
  if indexInEntries > 0 then do
    let entry ← getUnchecked t.entries (indexInEntries - 1)
    if eq entry then .ok (some entry) else .ok none
  else .ok none

/-- `InlineHashTableNoCollisions::find_mut` (core/hash_tables/inline_hash_table_no_collisions.rs l.61-78); the
reference is represented by the position of the entry. -/
def HashTableNC.findMut (t : HashTableNC T) (hashCode : Nat) (eq : T → Bool) : Res (Option Nat) := do
  let indexInEntries ← getUnchecked t.slots (hashCode &&& t.mask)
  if indexInEntries > 0 then do
    let entry ← getUnchecked t.entries (indexInEntries - 1)
    if eq entry then .ok (some (indexInEntries - 1)) else .ok none
  else .ok none

/-- `struct InlineHashMapNoCollisions` (core/inline_maps/inline_hash_map_no_collisions.rs l.36-39) without the hasher. -/
structure HashMapNC (K V : Type) where
  table : HashTableNC (K × V)

/-- `get` (core/maps/decl_macros.rs l.284-292, instantiated at core/inline_maps/inline_hash_map_no_collisions.rs l.51). -/
def HashMapNC.get (hQ : Q → Res Nat) (eqv : Q → K → Bool) (m : HashMapNC K V) (key : Q) : Res (Option V) := do
  let h ← hQ key
  let r ← m.table.find h (fun entry => eqv key entry.1)
  .ok (r.map (fun e => e.2))

/-- `get_mut` (core/maps/decl_macros.rs l.296-304). -/
def HashMapNC.getMut (hQ : Q → Res Nat) (eqv : Q → K → Bool) (m : HashMapNC K V) (key : Q) : Res (Option Nat) := do
  let h ← hQ key
  m.table.findMut h (fun entry => eqv key entry.1)

/-- `get_key_value` (core/maps/decl_macros.rs l.308-316). -/
def HashMapNC.getKeyValue (hQ : Q → Res Nat) (eqv : Q → K → Bool) (m : HashMapNC K V) (key : Q) :
    Res (Option (K × V)) := do
  let h ← hQ key
  let r ← m.table.find h (fun entry => eqv key entry.1)
  .ok (r.map (fun e => (e.1, e.2)))

/-- `contains_key` (core/maps/decl_macros.rs l.321-327). -/
def HashMapNC.containsKey (hQ : Q → Res Nat) (eqv : Q → K → Bool) (m : HashMapNC K V) (key : Q) : Res Bool := do
  let r ← m.get hQ eqv key
  .ok r.isSome

/-- The trait functions of `InlineHashMapNoCollisions` (core/inline_maps/inline_hash_map_no_collisions.rs l.55-202). -/
def HashMapNC.impl (hQ : Q → Res Nat) (eqv : Q → K → Bool) : MapImpl (HashMapNC K V) Q K V where
  get := HashMapNC.get hQ eqv
  getMut := HashMapNC.getMut hQ eqv
  getKeyValue := HashMapNC.getKeyValue hQ eqv
  containsKey := HashMapNC.containsKey hQ eqv
  len m := m.table.entries.length
  entries m := m.table.entries
  write m i v := { m with table := { m.table with entries := writeAt m.table.entries i v } }

/-! ## Hashers used by emitted code -/

/-- The hasher value inside an emitted hash map (core/emit/collection_emitter.rs l.255-256, l.318-319, l.361-362,
l.374-375, l.384-385, l.395-396), with its const generics and seed. -/
inductive InlineHasher where
  /-- `BridgeHasher::new(FixedState::with_seed(seed))` -/
  | bridge (seed : Nat)
  /-- `ScalarHasher {}` -/
  | scalar
  /-- `LengthHasher` -/
  | length
  /-- `InlineLeftRangeHasher::<start, end, FixedState>::new(FixedState::with_seed(seed))` -/
  | left (start stop seed : Nat)
  /-- `InlineRightRangeHasher::<start, end, FixedState>::new(FixedState::with_seed(seed))` -/
  | right (start stop seed : Nat)
deriving DecidableEq

/-- What a query type `Q` offers to maps with keys `K`: the traits `Equivalent<K>`, `Comparable<K>`, `Scalar`, `Hash`,
`AsRef<str>`.  A Rust query type implements those that the map's lookup functions ask for; the others may be
anything. `fixedState seed` and `fixedStateSlice seed` are `FixedState::with_seed(seed).hash_one` on the query type and on
byte slices. -/
structure QueryTraits (Q K : Type) where
  equivalent : Q → K → Bool
  compare : Q → K → Ordering
  index : Q → Nat
  fixedState : Nat → Q → Nat
  bytes : Q → Str
  fixedStateSlice : Nat → Str → Nat

/-- `Hasher::hash_one` of an emitted hasher (core/hashers/*.rs, see `Model/Hashers.lean`). -/
def InlineHasher.hashOne (t : QueryTraits Q K) : InlineHasher → Q → Res Nat
  | .bridge seed, q => bridgeHash (t.fixedState seed) q
  | .scalar, q => scalarHash t.index q
  | .length, q => lengthHash (t.bytes q)
  | .left start stop seed, q => inlineLeftRangeHash start stop (t.fixedStateSlice seed) (t.bytes q)
  | .right start stop seed, q => inlineRightRangeHash start stop (t.fixedStateSlice seed) (t.bytes q)

/-! ## Inline maps -/

/-- The six inline map types. -/
inductive InlineRepr (K V : Type) where
  /-- `InlineScanMap` (core/inline_maps/inline_scan_map.rs l.34-36) -/
  | scan (m : ScanMap K V)
  /-- `InlineEytzingerSearchMap` (core/inline_maps/inline_eytzinger_search_map.rs l.35-37) -/
  | eytzinger (m : EytzingerMap K V)
  /-- `InlineDenseScalarLookupMap` (core/inline_maps/inline_dense_scalar_lookup_map.rs l.29-33) -/
  | dense (m : DenseMap K V)
  /-- `InlineSparseScalarLookupMap` (core/inline_maps/inline_sparse_scalar_lookup_map.rs l.32-37) -/
  | sparse (m : SparseMap K V)
  /-- `InlineHashMap` (core/inline_maps/inline_hash_map.rs l.36-39) -/
  | hash (hasher : InlineHasher) (m : HashMap K V)
  /-- `InlineHashMapNoCollisions` (core/inline_maps/inline_hash_map_no_collisions.rs l.36-39) -/
  | hashNC (hasher : InlineHasher) (m : HashMapNC K V)

/-- An inline map together with its const generic `SZ`. -/
structure InlineMap (K V : Type) where
  sz : Nat
  repr : InlineRepr K V

/-- `InlineScanMap::new` (core/inline_maps/inline_scan_map.rs l.45-50). -/
def InlineMap.scanNew (sz : Nat) (eqK : K → K → Bool) (entries : List (K × V)) : Res (InlineMap K V) := do
  let entries ← intoArray (usingEq entries (fun x y => eqK x.1 y.1)) sz
  .ok { sz := sz, repr := .scan { entries := entries } }

/-- `InlineEytzingerSearchMap::new` (core/inline_maps/inline_eytzinger_search_map.rs l.46-57); `try_into().unwrap_or_else(panic)`
is `intoArray`. -/
def InlineMap.eytzingerNew [Target] (sz : Nat) (cmp : K → K → Ordering) (entries : List (K × V)) : Res (InlineMap K V) := do
  let entries ← eytzingerLayout (sortedAndDedupped entries (fun x y => cmp x.1 y.1))
  let entries ← intoArray entries sz
  .ok { sz := sz, repr := .eytzinger { entries := entries } }

/-- `get` of the map types. -/
def InlineMap.get (t : QueryTraits Q K) (m : InlineMap K V) (q : Q) : Res (Option V) :=
  match m.repr with
  | .scan m => m.get t.equivalent q
  | .eytzinger m => m.get t.compare q
  | .dense m => m.get t.index q
  | .sparse m => m.get t.index q
  | .hash h m => m.get (h.hashOne t) t.equivalent q
  | .hashNC h m => m.get (h.hashOne t) t.equivalent q

/-- `get_mut` of the map types. -/
def InlineMap.getMut (t : QueryTraits Q K) (m : InlineMap K V) (q : Q) : Res (Option Nat) :=
  match m.repr with
  | .scan m => m.getMut t.equivalent q
  | .eytzinger m => m.getMut t.compare q
  | .dense m => m.getMut t.index q
  | .sparse m => m.getMut t.index q
  | .hash h m => m.getMut (h.hashOne t) t.equivalent q
  | .hashNC h m => m.getMut (h.hashOne t) t.equivalent q

/-- `get_key_value` of the map types. -/
def InlineMap.getKeyValue (t : QueryTraits Q K) (m : InlineMap K V) (q : Q) : Res (Option (K × V)) :=
  match m.repr with
  | .scan m => m.getKeyValue t.equivalent q
  | .eytzinger m => m.getKeyValue t.compare q
  | .dense m => m.getKeyValue t.index q
  | .sparse m => m.getKeyValue t.index q
  | .hash h m => m.getKeyValue (h.hashOne t) t.equivalent q
  | .hashNC h m => m.getKeyValue (h.hashOne t) t.equivalent q

/-- `contains_key` of the map types. -/
def InlineMap.containsKey (t : QueryTraits Q K) (m : InlineMap K V) (q : Q) : Res Bool :=
  match m.repr with
  | .scan m => m.containsKey t.equivalent q
  | .eytzinger m => m.containsKey t.compare q
  | .dense m => m.containsKey t.index q
  | .sparse m => m.containsKey t.index q
  | .hash h m => m.containsKey (h.hashOne t) t.equivalent q
  | .hashNC h m => m.containsKey (h.hashOne t) t.equivalent q

/-- The array that the iterators walk (`common_primary_funcs!`, core/maps/decl_macros.rs l.1-52). -/
def InlineMap.entries (m : InlineMap K V) : List (K × V) :=
  match m.repr with
  | .scan m => m.entries
  | .eytzinger m => m.entries
  | .dense m => m.entries
  | .sparse m => m.entries
  | .hash _ m => m.table.entries
  | .hashNC _ m => m.table.entries

/-- A store through a mutable reference into the array. -/
def InlineMap.write (m : InlineMap K V) (i : Nat) (v : V) : InlineMap K V :=
  { m with repr :=
    match m.repr with
    | .scan m => .scan { m with entries := writeAt m.entries i v }
    | .eytzinger m => .eytzinger { m with entries := writeAt m.entries i v }
    | .dense m => .dense { m with entries := writeAt m.entries i v }
    | .sparse m => .sparse { m with entries := writeAt m.entries i v }
    | .hash h m => .hash h { m with table := { m.table with entries := writeAt m.table.entries i v } }
    | .hashNC h m => .hashNC h { m with table := { m.table with entries := writeAt m.table.entries i v } } }

/-- The trait functions of the inline maps (core/inline_maps/*.rs).  `len` is the length of an array of type `[_; SZ]`
(core/maps/decl_macros.rs l.57-63; core/inline_sets/*.rs return `SZ`), that is `SZ`. -/
def InlineMap.impl (t : QueryTraits Q K) : MapImpl (InlineMap K V) Q K V where
  get := InlineMap.get t
  getMut := InlineMap.getMut t
  getKeyValue := InlineMap.getKeyValue t
  containsKey := InlineMap.containsKey t
  len m := m.sz
  entries := InlineMap.entries
  write := InlineMap.write

end Frozen.Model
