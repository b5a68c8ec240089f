/-!
# Which queries the standard collections answer through the traits of the crate

The bounds of the `impl` blocks in core/traits that implement the crate's traits for the collections of the standard library and of `hashbrown`.
-/

namespace Frozen.Model

/-- The collections that the crate implements its traits for. -/
inductive StdType where
  | hashMap | btreeMap | hashbrownMap | hashSet | btreeSet | hashbrownSet
deriving DecidableEq

/-- The traits with a query type. -/
inductive QueryTrait where
  /-- `MapQuery<Q, V>` or `SetQuery<Q>` -/
  | query
  /-- `MapExtras<K, V, Q>` or `SetExtras<T, Q>` -/
  | extras
  /-- `Map<K, V, Q>` or `Set<T, Q>` -/
  | whole
deriving DecidableEq

/-- What is known of a key (or element) type `K` and a query type `Q`. -/
structure PairCaps where
  /-- `K: Hash` -/
  keyHash : Bool
  /-- `K: Eq` -/
  keyEq : Bool
  /-- `K: Ord` -/
  keyOrd : Bool
  /-- `K: Borrow<Q>` -/
  borrow : Bool
  /-- `Q: Sized` -/
  sized : Bool
  /-- `Q: Hash` -/
  hash : Bool
  /-- `Q: Eq` -/
  eq : Bool
  /-- `Q: Ord` -/
  ord : Bool
  /-- `Q: Equivalent<K>` -/
  equivalent : Bool
deriving DecidableEq

/-- The bounds of the `impl` blocks; the bound on the hasher is left out.
`HashMap`: core/traits/map_query.rs l.23-28, map_extras.rs l.26-31, map.rs l.10-15; `BTreeMap`: map_query.rs l.33-37, map_extras.rs l.36-40, map.rs
l.19-23; `hashbrown::HashMap`: map_query.rs l.42-46, map_extras.rs l.55-59, map.rs l.27-31; `HashSet`: set_query.rs l.15-20, set_extras.rs l.14-19, set.rs
l.10-15; `BTreeSet`: set_query.rs l.25-29, set_extras.rs l.24-28, set.rs l.19-23; `hashbrown::HashSet`: set_query.rs l.34-38, set_extras.rs l.33-37, set.rs
l.27-31.  A query type that is not marked `?Sized` has to be sized. -/
def StdType.implements (c : PairCaps) : StdType → QueryTrait → Bool
  | .hashMap, _ => c.keyHash && c.keyEq && c.borrow && c.hash && c.eq
  | .btreeMap, .query => c.keyOrd && c.borrow && c.ord
  | .btreeMap, .extras => c.keyOrd && c.borrow && c.ord
  | .btreeMap, .whole => c.keyOrd && c.borrow && c.sized && c.ord
  | .hashbrownMap, .query => c.keyHash && c.keyEq && c.hash && c.eq && c.equivalent
  | .hashbrownMap, .extras => c.keyHash && c.keyEq && c.hash && c.equivalent
  | .hashbrownMap, .whole => c.keyHash && c.keyEq && c.hash && c.eq && c.equivalent
  | .hashSet, .query => c.keyHash && c.keyEq && c.borrow && c.hash && c.eq
  | .hashSet, .extras => c.keyHash && c.keyEq && c.borrow && c.hash && c.eq
  | .hashSet, .whole => c.keyHash && c.keyEq && c.borrow && c.sized && c.hash && c.eq
  | .btreeSet, _ => c.keyOrd && c.borrow && c.sized && c.ord
  | .hashbrownSet, _ => c.keyHash && c.keyEq && c.hash && c.equivalent

end Frozen.Model
