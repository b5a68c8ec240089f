import Verif.Model.Api

/-!
# Which traits emitted maps and sets implement

The `impl` blocks of the emitted types with their bounds on key and value types, as far as they decide whether code
that uses a trait of the map or set as a whole compiles.
-/

namespace Frozen.Model

variable {K V : Type}

/-- What a key type (the element type of a set) implements. -/
structure KeyCaps where
  partialEq : Bool
  eq : Bool
  ord : Bool
  hash : Bool
  clone : Bool
  scalar : Bool
  debug : Bool
  serialize : Bool
  deserialize : Bool
  /-- the crate's `Len` -/
  len : Bool
  /-- `AsRef<str>` -/
  asRefStr : Bool
deriving DecidableEq

/-- What a value type implements. -/
structure ValCaps where
  partialEq : Bool
  eq : Bool
  clone : Bool
  debug : Bool
  serialize : Bool
  deserialize : Bool
deriving DecidableEq

/-- The key type as query type for itself.  `equivalent` implements `Equivalent<K> for K` for all `K: Eq` and `Comparable<K> for K` for all
`K: Ord`; key types are sized and therefore not `str`. -/
def KeyCaps.asQuery (k : KeyCaps) : QueryCaps :=
  ⟨true, k.eq, k.ord, k.scalar, k.hash, k.len, k.asRefStr, false⟩

/-- `Box<str>`, the key type of `FzStringMap` (core/fz_maps/fz_string_map.rs l.47, l.55; core/traits/len.rs l.46-50). -/
def boxStr : KeyCaps := ⟨true, true, true, true, true, false, true, true, true, true, true⟩

/-- The key type of the emitted map if the keys in the macro call have type `k`: `FzStringMap::new` makes a `Box<str>` of each
(core/fz_maps/fz_string_map.rs l.66-69); the others keep it. -/
def Emitted.keyCaps (k : KeyCaps) : Emitted K V → KeyCaps
  | .fz .string _ => boxStr
  | _ => k

/-- Traits of a map type `M` with key type `K`. -/
inductive MapTrait where
  /-- `M: Clone` -/
  | clone
  /-- `M: Debug` -/
  | debug
  /-- `M: Serialize` -/
  | serialize
  /-- `M: Index<&K>` -/
  | index
  /-- `M: Map<K, V>` -/
  | map
  /-- `M: PartialEq`, i.e. `PartialEq<M>` -/
  | partialEq
  /-- `M: Eq` -/
  | eq
  /-- `M: Default` -/
  | default
  /-- `M: FromIterator<(K, V)>` -/
  | fromIter
  /-- `M: Deserialize` -/
  | deserialize
deriving DecidableEq

/-- The bound on the key type in `impl PartialEq<MT>`: core/inline_maps/inline_scan_map.rs l.135-140, inline_eytzinger_search_map.rs
l.146-151, inline_dense_scalar_lookup_map.rs l.127-132, inline_sparse_scalar_lookup_map.rs l.159-165, inline_hash_map.rs l.165-172 and
inline_hash_map_no_collisions.rs l.165-172 (the bound `H: Hasher<K>` is part of `accepts`), core/fz_maps/fz_hash_map.rs l.330-336, fz_scalar_map.rs
l.358-363, fz_string_map.rs l.462-467. -/
def MapType.partialEqKey (k : KeyCaps) : MapType → Bool
  | .inlineScan | .inlineHash | .inlineHashNoCollisions => k.partialEq
  | .inlineEytzinger => k.ord
  | .inlineDense | .inlineSparse | .fzScalar => k.scalar
  | .fzHash => k.partialEq && k.hash
  | .fzString => true

/-- The bounds in `impl Eq`: core/inline_maps/inline_scan_map.rs l.144-149, inline_eytzinger_search_map.rs l.155-160,
inline_dense_scalar_lookup_map.rs l.136-141, inline_sparse_scalar_lookup_map.rs l.169-175, inline_hash_map.rs l.176-183,
inline_hash_map_no_collisions.rs l.176-183, core/fz_maps/fz_hash_map.rs l.340-346, fz_scalar_map.rs l.367-372, fz_string_map.rs l.471-476. -/
def MapType.eqBounds (k : KeyCaps) (v : ValCaps) : MapType → Bool
  | .inlineScan | .inlineHash | .inlineHashNoCollisions => k.eq && v.eq
  | .inlineEytzinger => k.ord && v.partialEq
  | .inlineDense | .inlineSparse | .fzScalar => k.scalar && v.eq
  | .fzHash => k.eq && k.hash && v.eq
  | .fzString => v.eq

/-- Is it one of the `Fz` types, which can also be built at run time? -/
def MapType.isFz : MapType → Bool
  | .fzHash | .fzScalar | .fzString => true
  | _ => false

/-- The bound on the key type in `impl FromIterator<(K, V)>` (core/fz_maps/fz_hash_map.rs l.219-222, fz_scalar_map.rs l.276-278,
fz_string_map.rs l.311-314); the inline types have none. -/
def MapType.fromIterKey (k : KeyCaps) : MapType → Bool
  | .fzHash => k.eq && k.hash
  | .fzScalar => k.scalar
  | .fzString => k.asRefStr
  | _ => false

/-- Does the emitted map, with keys of type `k` in the macro call and values of type `v`, implement the trait?
`Clone` is derived for all (e.g. core/inline_maps/inline_scan_map.rs l.33; magnitudes, hashers and tables are `Clone`), `Debug` and `Serialize` are bounded by
those of key and value (e.g. l.151-155, l.160-164), `Index<&K>` like the inherent `get` (e.g. l.116-118; for `FzScalarMap` with the key type as
the only query type, core/fz_maps/fz_scalar_map.rs l.339-341), `Map` likewise (e.g. l.62).  `PartialEq<MT>` is for all
`MT: MapQuery<K, V>` with `K` the key type of the map.  `Default` (core/fz_maps/fz_hash_map.rs l.198-200, fz_scalar_map.rs l.259,
fz_string_map.rs l.289-291) and `Deserialize` (fz_hash_map.rs l.368-372, fz_scalar_map.rs l.392-395, fz_string_map.rs l.494-496) are for the `Fz` types only. -/
def Emitted.implMap (k : KeyCaps) (v : ValCaps) (e : Emitted K V) : MapTrait → Bool
  | .clone => (e.keyCaps k).clone && v.clone
  | .debug => (e.keyCaps k).debug && v.debug
  | .serialize => (e.keyCaps k).serialize && v.serialize
  | .index | .map => e.accepts (e.keyCaps k).asQuery
  | .partialEq => e.mapType.partialEqKey k && v.partialEq && e.accepts (e.keyCaps k).asQuery
  | .eq => e.mapType.eqBounds k v && e.accepts (e.keyCaps k).asQuery
  | .default => e.mapType.isFz
  | .fromIter => e.mapType.fromIterKey k
  | .deserialize => e.mapType.isFz && e.mapType.fromIterKey (e.keyCaps k) && (e.keyCaps k).deserialize && v.deserialize

/-- Traits of a set type `S` with element type `T`. -/
inductive SetTrait where
  /-- `S: Clone` -/
  | clone
  /-- `S: Debug` -/
  | debug
  /-- `S: Serialize` -/
  | serialize
  /-- `S: Set<T>` -/
  | set
  /-- `S: PartialEq`, i.e. `PartialEq<S>` -/
  | partialEq
  /-- `S: Eq` -/
  | eq
  /-- `&S | &S`, `&S & &S`, `&S ^ &S`, `&S - &S` -/
  | operators
  /-- `S: Default` -/
  | default
  /-- `S: FromIterator<T>` -/
  | fromIter
  /-- `S: Deserialize` -/
  | deserialize
deriving DecidableEq

/-- The bound on the element type in `impl PartialEq<ST>` for the set type that wraps the map type: core/inline_sets/inline_scan_set.rs
l.136-139, inline_eytzinger_search_set.rs l.136-139, inline_dense_scalar_lookup_set.rs l.136-139, inline_sparse_scalar_lookup_set.rs l.164-167 (none),
inline_hash_set.rs l.156-161, inline_hash_set_no_collisions.rs l.156-161, core/fz_sets/fz_hash_set.rs l.250-254, fz_scalar_set.rs l.200-203,
fz_string_set.rs l.250-253. -/
def MapType.setPartialEq (t : KeyCaps) : MapType → Bool
  | .inlineScan | .inlineHash | .inlineHashNoCollisions => t.partialEq
  | .inlineEytzinger => t.ord
  | .inlineDense | .fzScalar => t.scalar
  | .inlineSparse => true
  | .fzHash => t.partialEq && t.hash
  | .fzString => true

/-- The bound on the element type in `impl Eq` for the set type: core/inline_sets/inline_scan_set.rs l.144, inline_eytzinger_search_set.rs l.144,
inline_dense_scalar_lookup_set.rs l.144, inline_sparse_scalar_lookup_set.rs l.172-175, inline_hash_set.rs l.166-170,
inline_hash_set_no_collisions.rs l.166-170, core/fz_sets/fz_hash_set.rs l.259-262, fz_scalar_set.rs l.208, fz_string_set.rs l.258. -/
def MapType.setEq (t : KeyCaps) : MapType → Bool
  | .inlineScan | .inlineHash | .inlineHashNoCollisions => t.eq
  | .inlineEytzinger => t.ord
  | .inlineDense | .inlineSparse | .fzScalar => t.scalar
  | .fzHash => t.eq && t.hash
  | .fzString => true

/-- The bound on the element type in `impl BitOr<&ST>`; `BitAnd`, `BitXor`, `Sub` have the same: core/inline_sets/inline_scan_set.rs l.96-99,
inline_eytzinger_search_set.rs l.96-99, inline_dense_scalar_lookup_set.rs l.96-99, inline_sparse_scalar_lookup_set.rs l.114-118,
inline_hash_set.rs l.102-107, inline_hash_set_no_collisions.rs l.102-107, core/fz_sets/fz_hash_set.rs l.200-204, fz_scalar_set.rs
l.160-163, fz_string_set.rs l.184-187.  `Scalar` includes `Clone` (core/traits/scalar.rs l.5). -/
def MapType.setOps (t : KeyCaps) : MapType → Bool
  | .inlineScan | .inlineHash | .inlineHashNoCollisions | .fzHash => t.hash && t.eq && t.clone
  | .inlineEytzinger => t.hash && t.ord && t.clone
  | .inlineDense | .inlineSparse => t.hash && t.scalar
  | .fzScalar => t.hash && t.scalar && t.clone
  | .fzString => true

/-- Does the inline hash set's hasher hash the elements? Its `Debug` asks for it (core/inline_sets/inline_hash_set.rs l.174-178,
inline_hash_set_no_collisions.rs l.174-178). -/
def Emitted.debugHasher (t : KeyCaps) : Emitted K V → Bool
  | .hash _ _ _ _ _ h | .hashNC _ _ _ _ _ h => h.hashes t.asQuery
  | _ => true

/-- Does the emitted set, with elements of type `t` in the macro call, implement the trait?  The other bounds are as for maps
(core/inline_sets/*.rs, core/fz_sets/*.rs); `Set<T>` needs `SetQuery<T>`, which is bounded like the inherent `contains`;
`PartialEq<S>` needs `S: SetQuery<T>` and the operators need `S: Set<T>`. -/
def Emitted.implSet (t : KeyCaps) (e : Emitted K V) : SetTrait → Bool
  | .clone => (e.keyCaps t).clone
  | .debug => (e.keyCaps t).debug && e.debugHasher t
  | .serialize => (e.keyCaps t).serialize
  | .set => e.accepts (e.keyCaps t).asQuery
  | .partialEq => e.mapType.setPartialEq t && e.accepts (e.keyCaps t).asQuery
  | .eq => e.mapType.setEq t && e.accepts (e.keyCaps t).asQuery
  | .operators => e.mapType.setOps t && e.accepts (e.keyCaps t).asQuery
  | .default => e.mapType.isFz
  | .fromIter => e.mapType.fromIterKey t
  | .deserialize => e.mapType.isFz && e.mapType.fromIterKey (e.keyCaps t) && (e.keyCaps t).deserialize

/-- The functions of sets that a user calls with method syntax. -/
inductive SetMethod where
  | get | contains | len | isEmpty | iter | intoIter
deriving DecidableEq

/-- The traits that provide such functions too. -/
inductive SetApiTrait where
  | setQuery | setExtras | setIteration | len | intoIterator
deriving DecidableEq

/-- The trait that declares the function (core/traits/set_query.rs l.9-13, set_extras.rs l.8-12, set_iteration.rs l.5-15, len.rs
l.9-17, std's `IntoIterator`). -/
def SetMethod.trait : SetMethod → SetApiTrait
  | .get => .setExtras
  | .contains => .setQuery
  | .len | .isEmpty => .len
  | .iter => .setIteration
  | .intoIter => .intoIterator

/-- Is the inherent function of that name `pub` in the set type that wraps the map type?  The inline ones come from `common_primary_funcs!` and
`hash_primary_funcs!` (core/sets/decl_macros.rs l.31-92) or are written out (e.g. core/inline_sets/inline_scan_set.rs l.35-62), as are those of the `Fz`
types.  `into_iter` is private everywhere; `get` is private in `FzHashSet` (core/fz_sets/fz_hash_set.rs l.75). -/
def MapType.setInherentPub : MapType → SetMethod → Bool
  | _, .intoIter => false
  | .fzHash, .get => false
  | _, _ => true

/-- Does `s.method(..)` find a function when the traits `scope` have been imported?  As `MapType.resolves`. -/
def MapType.setResolves (t : MapType) (scope : List SetApiTrait) (m : SetMethod) : Bool :=
  t.setInherentPub m || (.intoIterator :: scope).contains m.trait

/-! ## `Eq` of all map types -/

/-- All map types of the crate: those that are emitted, and those that are only built at run time. -/
inductive AnyMapType where
  | emitted (t : MapType)
  | scan | eytzinger | dense | sparse | hash | fzOrdered
deriving DecidableEq

/-- The bounds in `impl Eq` (those on the hasher left out: `hash` is whether it hashes the keys): core/maps/scan_map.rs l.28 (derived: `K: Eq`,
`V: Eq`), eytzinger_search_map.rs l.147-152, dense_scalar_lookup_map.rs l.173-178, sparse_scalar_lookup_map.rs l.175-180, hash_map.rs
l.212-219, core/fz_maps/fz_ordered_map.rs l.282-287. -/
def AnyMapType.eqBounds (k : KeyCaps) (v : ValCaps) : AnyMapType → Bool
  | .emitted t => t.eqBounds k v
  | .scan => k.eq && v.eq
  | .eytzinger | .fzOrdered => k.ord && v.eq
  | .dense | .sparse => k.scalar && v.eq
  | .hash => k.eq && v.eq && k.hash

end Frozen.Model
