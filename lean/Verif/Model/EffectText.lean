import Verif.Model.EffectBuild

/-!
# Lookups in string maps with queries whose `AsRef<str>` has effects

The lookups of `FzStringMap` and `FzStringSet` take any query type with `AsRef<str>`, which is code of the user.
-/

namespace Frozen.Model

variable {W S V : Type}

/-- The search of `get`, `get_mut`, `get_key_value` and `contains_key` of an `FzStringMap` (core/fz_maps/fz_string_map.rs l.97-152), also through the traits
(l.334-336, l.350-356), and of `get` and `contains` of an `FzStringSet`: the query is converted, and the string looked up. -/
def FzStringMap.searchAsE (asRef : S → Eff W Str) (bhStr bhSlice : Str → Eff W Nat) (m : FzStringMap V) (key : S) : Eff W (Option Nat) := do
  let key ← asRef key
  m.searchE bhStr bhSlice key

/-- `get_disjoint_unchecked_mut` of an `FzStringMap` (core/fz_maps/fz_string_map.rs l.168-186): `array::from_fn` converts the keys in order. -/
def FzStringMap.disjointUncheckedAsE (asRef : S → Eff W Str) (bhStr bhSlice : Str → Eff W Nat) (m : FzStringMap V) (keys : List S) :
    Eff W (List (Option Nat)) := do
  let keys ← mapE asRef keys
  disjointUncheckedE (m.searchE bhStr bhSlice) keys

/-- `get_disjoint_mut` of an `FzStringMap` (core/fz_maps/fz_string_map.rs l.154-166): the wrapped map compares the strings, not the keys. -/
def FzStringMap.disjointAsE (asRef : S → Eff W Str) (bhStr bhSlice : Str → Eff W Nat) (m : FzStringMap V) (keys : List S) :
    Eff W (List (Option Nat)) := do
  let keys ← mapE asRef keys
  disjointMutE (m.searchE bhStr bhSlice) (fun a b => pure (strEq a b)) keys

end Frozen.Model
