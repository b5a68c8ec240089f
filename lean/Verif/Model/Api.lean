import Verif.Model.Emit

/-!
# What code can call on an emitted map

The functions of the map types, who may call them, and which query types they take, as far as this decides whether code that
uses an emitted map compiles.
-/

namespace Frozen.Model

variable {K V : Type}

/-- The map type that an emitted constructor call belongs to (core/emit/generator.rs l.38-329). -/
inductive MapType where
  | inlineScan | inlineEytzinger | inlineDense | inlineSparse | inlineHash | inlineHashNoCollisions
  | fzHash | fzScalar | fzString
deriving DecidableEq

/-- The type named in the emitted constructor call. -/
def Emitted.mapType : Emitted K V → MapType
  | .scanRaw .. | .scanNew .. => .inlineScan
  | .eytzingerRaw .. | .eytzingerNew .. => .inlineEytzinger
  | .dense .. => .inlineDense
  | .sparse .. => .inlineSparse
  | .hash .. => .inlineHash
  | .hashNC .. => .inlineHashNoCollisions
  | .fz .hash _ => .fzHash
  | .fz .scalar _ => .fzScalar
  | .fz .string _ => .fzString

/-- The functions that a user calls with method syntax. -/
inductive Method where
  | get | getMut | getKeyValue | containsKey | getDisjointMut | getDisjointUncheckedMut
  | len | isEmpty | iter | iterMut | keys | intoKeys | values | valuesMut | intoValues | intoIter
deriving DecidableEq

/-- The traits that provide such functions too. -/
inductive ApiTrait where
  | mapQuery | mapExtras | mapIteration | len | intoIterator
deriving DecidableEq

/-- The trait that declares the function (core/traits/map_query.rs l.8-22, map_extras.rs l.10-24, map_iteration.rs l.37-70,
len.rs l.9-17, std's `IntoIterator`). -/
def Method.trait : Method → ApiTrait
  | .get | .getMut | .containsKey => .mapQuery
  | .getKeyValue | .getDisjointMut | .getDisjointUncheckedMut => .mapExtras
  | .len | .isEmpty => .len
  | .iter | .iterMut | .keys | .intoKeys | .values | .valuesMut | .intoValues => .mapIteration
  | .intoIter => .intoIterator

/-- Is the inherent function of that name `pub`?  All the types have an inherent function for every `Method`; those of the
inline types come from `common_primary_funcs!` (core/maps/decl_macros.rs l.1-88) and one of the `*_primary_funcs!` (l.99-155
dense, l.157-216 eytzinger, l.280-347 hash, l.493-569 scan, l.587-667 sparse), those of the `Fz` types are written out
(core/fz_maps/fz_hash_map.rs l.77-195, fz_scalar_map.rs l.67-256, fz_string_map.rs l.95-286).  `into_iter` is private everywhere
(l.16, fz_hash_map.rs l.163); `get_mut` is private in `sparse_scalar_lookup_primary_funcs!` (l.613). -/
def MapType.inherentPub : MapType → Method → Bool
  | _, .intoIter => false
  | .inlineSparse, .getMut => false
  | _, _ => true

/-- The traits that every program has in scope (the standard prelude). -/
def prelude : List ApiTrait := [.intoIterator]

/-- Does `m.method(..)` find a function when the traits `scope` have been imported?  Rust prefers a visible inherent function
and otherwise takes that of a trait in scope; private functions are not considered.  All the types implement all
the traits (core/inline_maps/*.rs, core/fz_maps/*.rs, e.g. inline_sparse_scalar_lookup_map.rs l.58-143). -/
def MapType.resolves (t : MapType) (scope : List ApiTrait) (m : Method) : Bool :=
  t.inherentPub m || (prelude ++ scope).contains m.trait

/-- What a query type is known to implement, for a given key type. -/
structure QueryCaps where
  sized : Bool
  /-- `Equivalent<K>` -/
  equivalent : Bool
  /-- `Comparable<K>` -/
  comparable : Bool
  /-- `Scalar` -/
  scalar : Bool
  /-- `Hash` -/
  hash : Bool
  /-- `Len` -/
  len : Bool
  /-- `AsRef<str>` -/
  asRefStr : Bool
  /-- it is `str` itself -/
  isStr : Bool
deriving DecidableEq

/-- Which query types the emitted hasher hashes (`Hasher<Q>`: core/hashers/bridge_hasher.rs l.21-24, scalar_hasher.rs l.9-11,
length_hasher.rs l.9-11, inline_left_range_hasher.rs l.38, l.54-57, inline_right_range_hasher.rs l.39, l.56-59).  An impl without
`?Sized` is for sized types only. -/
def HasherTok.hashes (q : QueryCaps) : HasherTok → Bool
  | .bridge _ => q.hash
  | .scalar => q.sized && q.scalar
  | .length => q.len
  | .left .. | .right .. => q.isStr || (q.sized && q.asRefStr)

/-- The bounds on `Q` of `get`, `get_mut`, `get_key_value`, `contains_key` of the emitted type: core/maps/decl_macros.rs l.105 (dense), l.163
(eytzinger), l.286-287 (hash), l.499 (scan), l.593 (sparse); core/fz_maps/fz_hash_map.rs l.82, fz_scalar_map.rs l.71, fz_string_map.rs
l.97 (there the argument is `impl AsRef<str>`; `&Q` is one if `Q` is). -/
def Emitted.accepts (q : QueryCaps) : Emitted K V → Bool
  | .scanRaw .. | .scanNew .. => q.equivalent
  | .eytzingerRaw .. | .eytzingerNew .. => q.comparable
  | .dense .. | .sparse .. => q.sized && q.comparable && q.scalar
  | .hash _ _ _ _ _ h | .hashNC _ _ _ _ _ h => q.equivalent && h.hashes q
  | .fz .hash _ => q.hash && q.equivalent
  | .fz .scalar _ => q.sized && q.scalar && q.comparable
  | .fz .string _ => q.asRefStr

end Frozen.Model
