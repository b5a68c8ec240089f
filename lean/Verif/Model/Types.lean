import Verif.Model.Tokens

/-!
# The types of the library

What the fields of the types are made of.  Const parameters (lengths, ranges) are left out; a type is named by its position in the list of
type and lifetime parameters, lifetimes first.  The functions of the types play no part here.
-/

namespace Frozen.Model

/-- The types that the library declares, and the types of the standard library and of hashbrown that they are made of. -/
inductive TyName where
  -- core/hashers
  | bridgeHasher | scalarHasher | lengthHasher | leftRangeHasher | rightRangeHasher | inlineLeftRangeHasher | inlineRightRangeHasher
  -- core/hash_tables
  | hashTableSlot | hashTable | inlineHashTable | inlineHashTableNoCollisions
  -- core/maps
  | denseMap | eytzingerMap | hashMap | scanMap | sparseMap
  -- core/inline_maps
  | inlineDenseMap | inlineEytzingerMap | inlineHashMap | inlineHashMapNoCollisions | inlineScanMap | inlineSparseMap
  -- core/inline_sets
  | inlineDenseSet | inlineEytzingerSet | inlineHashSet | inlineHashSetNoCollisions | inlineScanSet | inlineSparseSet
  -- core/fz_maps
  | fzHashMap | fzOrderedMap | scalarMapTypes | fzScalarMap | stringMapTypes | fzStringMap
  -- core/fz_sets
  | fzHashSet | fzOrderedSet | fzScalarSet | fzStringSet
  -- core/maps/iterators.rs
  | mapIter | mapIterMut | mapKeys | mapValues | mapValuesMut | mapIntoIter | mapIntoKeys | mapIntoValues
  -- core/sets/iterators.rs
  | setIter | setIntoIter | union | symmetricDifference | difference | intersection
  -- other crates
  | sliceIter | sliceIterMut | vecIntoIter | range | chain | hashSet | bTreeSet
deriving DecidableEq

/-- Types and lifetimes. -/
inductive Ty where
  /-- a parameter of the declaration, or a type or lifetime chosen by the user -/
  | param (n : Nat)
  /-- a type without parameters that owns plain data: `u8`, `usize`, `()`, `str`, foldhash's `FixedState` and `RandomState` -/
  | prim
  | pair (a b : Ty)
  | array (t : Ty)
  | slice (t : Ty)
  | boxed (t : Ty)
  /-- `&'l t` -/
  | shared (l t : Ty)
  /-- `&'l mut t` -/
  | exclusive (l t : Ty)
  | phantom (t : Ty)
  /-- `std::sync::LazyLock<t>` -/
  | lazyLock (t : Ty)
  /-- `<s as SetIteration<t>>::Iterator<'l>` -/
  | assocIter (l s t : Ty)
  | adt (c : TyName) (args : List Ty)

/-- The type with its parameters replaced. -/
def Ty.subst (args : List Ty) : Ty → Ty
  | .param n => args.getD n .prim
  | .prim => .prim
  | .pair a b => .pair (a.subst args) (b.subst args)
  | .array t => .array (t.subst args)
  | .slice t => .slice (t.subst args)
  | .boxed t => .boxed (t.subst args)
  | .shared l t => .shared (l.subst args) (t.subst args)
  | .exclusive l t => .exclusive (l.subst args) (t.subst args)
  | .phantom t => .phantom (t.subst args)
  | .lazyLock t => .lazyLock (t.subst args)
  | .assocIter l s t => .assocIter (l.subst args) (s.subst args) (t.subst args)
  | .adt c as => .adt c (as.map (fun (a : Ty) => a.subst args))

/-- The number of type and lifetime parameters (the declarations cited at `TyName.fields`). -/
def TyName.arity : TyName → Nat
  | .scalarHasher | .lengthHasher => 0
  | .bridgeHasher | .leftRangeHasher | .rightRangeHasher | .inlineLeftRangeHasher | .inlineRightRangeHasher | .hashTableSlot => 1
  | .hashTable | .inlineHashTable | .inlineHashTableNoCollisions => 2
  | .denseMap | .eytzingerMap | .scanMap | .sparseMap => 2
  | .hashMap => 4
  | .inlineDenseMap | .inlineEytzingerMap | .inlineScanMap => 2
  | .inlineSparseMap => 3
  | .inlineHashMap | .inlineHashMapNoCollisions => 4
  | .inlineDenseSet | .inlineEytzingerSet | .inlineScanSet => 1
  | .inlineSparseSet => 2
  | .inlineHashSet | .inlineHashSetNoCollisions => 3
  | .fzHashMap => 3
  | .fzOrderedMap | .scalarMapTypes | .fzScalarMap => 2
  | .stringMapTypes => 2
  | .fzStringMap => 3
  | .fzHashSet | .fzStringSet => 2
  | .fzOrderedSet | .fzScalarSet => 1
  | .mapIter | .mapIterMut | .mapKeys | .mapValues | .mapValuesMut => 3
  | .mapIntoIter | .mapIntoKeys | .mapIntoValues => 2
  | .setIter => 2
  | .setIntoIter => 1
  | .union | .symmetricDifference | .difference | .intersection => 4
  | .sliceIter | .sliceIterMut => 2
  | .vecIntoIter | .range => 1
  | .chain | .hashSet => 2
  | .bTreeSet => 1

/-- The types of the fields, those of all variants for an `enum`. -/
def TyName.fields : TyName → List Ty
  -- core/hashers/bridge_hasher.rs l.9-11: `BH`
  | .bridgeHasher => [.param 0]
  -- core/hashers/scalar_hasher.rs l.7
  | .scalarHasher => []
  -- core/hashers/length_hasher.rs l.7
  | .lengthHasher => []
  -- core/hashers/left_range_hasher.rs l.11-14, right_range_hasher.rs l.11-14: `BH`
  | .leftRangeHasher => [.param 0, .adt .range [.prim]]
  | .rightRangeHasher => [.param 0, .adt .range [.prim]]
  -- core/hashers/inline_left_range_hasher.rs l.10-12, inline_right_range_hasher.rs l.10-12: `BH`
  | .inlineLeftRangeHasher => [.param 0]
  | .inlineRightRangeHasher => [.param 0]
  -- core/hash_tables/hash_table_slot.rs l.10-13: `CM`
  | .hashTableSlot => [.param 0, .param 0]
  -- core/hash_tables/hash_table.rs l.22-26: `T, CM`
  | .hashTable => [.boxed (.slice (.adt .hashTableSlot [.param 1])), .boxed (.slice (.param 0)), .prim]
  -- core/hash_tables/inline_hash_table.rs l.19-23: `T, CM`
  | .inlineHashTable => [.array (.adt .hashTableSlot [.param 1]), .array (.param 0), .prim]
  -- core/hash_tables/inline_hash_table_no_collisions.rs l.17-21: `T, CM`
  | .inlineHashTableNoCollisions => [.array (.param 0), .array (.param 1), .prim]
  -- core/maps/dense_scalar_lookup_map.rs l.29-33: `K, V`
  | .denseMap => [.prim, .prim, .boxed (.slice (.pair (.param 0) (.param 1)))]
  -- core/maps/eytzinger_search_map.rs l.30-32: `K, V`
  | .eytzingerMap => [.boxed (.slice (.pair (.param 0) (.param 1)))]
  -- core/maps/hash_map.rs l.32-35: `K, V, CM, H`
  | .hashMap => [.adt .hashTable [.pair (.param 0) (.param 1), .param 2], .param 3]
  -- core/maps/scan_map.rs l.29-31: `K, V`
  | .scanMap => [.boxed (.slice (.pair (.param 0) (.param 1)))]
  -- core/maps/sparse_scalar_lookup_map.rs l.30-35: `K, V`
  | .sparseMap => [.prim, .prim, .boxed (.slice .prim), .boxed (.slice (.pair (.param 0) (.param 1)))]
  -- core/inline_maps/inline_dense_scalar_lookup_map.rs l.30-34: `K, V`
  | .inlineDenseMap => [.prim, .prim, .array (.pair (.param 0) (.param 1))]
  -- core/inline_maps/inline_eytzinger_search_map.rs l.35-37: `K, V`
  | .inlineEytzingerMap => [.array (.pair (.param 0) (.param 1))]
  -- core/inline_maps/inline_hash_map.rs l.36-39: `K, V, CM, H`
  | .inlineHashMap => [.adt .inlineHashTable [.pair (.param 0) (.param 1), .param 2], .param 3]
  -- core/inline_maps/inline_hash_map_no_collisions.rs l.36-39: `K, V, CM, H`
  | .inlineHashMapNoCollisions => [.adt .inlineHashTableNoCollisions [.pair (.param 0) (.param 1), .param 2], .param 3]
  -- core/inline_maps/inline_scan_map.rs l.34-36: `K, V`
  | .inlineScanMap => [.array (.pair (.param 0) (.param 1))]
  -- core/inline_maps/inline_sparse_scalar_lookup_map.rs l.32-37: `K, V, CM`
  | .inlineSparseMap => [.prim, .prim, .array (.param 2), .array (.pair (.param 0) (.param 1))]
  -- core/inline_sets/inline_dense_scalar_lookup_set.rs l.33-35: `T`
  | .inlineDenseSet => [.adt .inlineDenseMap [.param 0, .prim]]
  -- core/inline_sets/inline_eytzinger_search_set.rs l.33-35: `T`
  | .inlineEytzingerSet => [.adt .inlineEytzingerMap [.param 0, .prim]]
  -- core/inline_sets/inline_hash_set.rs l.37-39: `T, CM, H`
  | .inlineHashSet => [.adt .inlineHashMap [.param 0, .prim, .param 1, .param 2]]
  -- core/inline_sets/inline_hash_set_no_collisions.rs l.37-39: `T, CM, H`
  | .inlineHashSetNoCollisions => [.adt .inlineHashMapNoCollisions [.param 0, .prim, .param 1, .param 2]]
  -- core/inline_sets/inline_scan_set.rs l.31-33: `T`
  | .inlineScanSet => [.adt .inlineScanMap [.param 0, .prim]]
  -- core/inline_sets/inline_sparse_scalar_lookup_set.rs l.34-36: `T, CM`
  | .inlineSparseSet => [.adt .inlineSparseMap [.param 0, .prim, .param 1]]
  -- core/fz_maps/fz_hash_map.rs l.41-43: `K, V, BH`
  | .fzHashMap => [.adt .hashMap [.param 0, .param 1, .prim, .adt .bridgeHasher [.param 2]]]
  -- core/fz_maps/fz_ordered_map.rs l.38-40: `K, V`
  | .fzOrderedMap => [.adt .eytzingerMap [.param 0, .param 1]]
  -- core/fz_maps/fz_scalar_map.rs l.29-33: `K, V`
  | .scalarMapTypes =>
    [.adt .hashMap [.param 0, .param 1, .prim, .adt .scalarHasher []], .adt .denseMap [.param 0, .param 1], .adt .sparseMap [.param 0, .param 1]]
  -- core/fz_maps/fz_scalar_map.rs l.44-46: `K, V`
  | .fzScalarMap => [.adt .scalarMapTypes [.param 0, .param 1]]
  -- core/fz_maps/fz_string_map.rs l.26-30: `V, BH`
  | .stringMapTypes =>
    [.adt .hashMap [.boxed .prim, .param 0, .prim, .adt .leftRangeHasher [.param 1]],
     .adt .hashMap [.boxed .prim, .param 0, .prim, .adt .rightRangeHasher [.param 1]],
     .adt .hashMap [.boxed .prim, .param 0, .prim, .adt .bridgeHasher [.param 1]]]
  -- core/fz_maps/fz_string_map.rs l.42-45: `K, V, BH`
  | .fzStringMap => [.adt .stringMapTypes [.param 1, .param 2], .phantom (.param 0)]
  -- core/fz_sets/fz_hash_set.rs l.43-45: `T, BH`
  | .fzHashSet => [.adt .fzHashMap [.param 0, .prim, .param 1]]
  -- core/fz_sets/fz_ordered_set.rs l.41-43: `T`
  | .fzOrderedSet => [.adt .fzOrderedMap [.param 0, .prim]]
  -- core/fz_sets/fz_scalar_set.rs l.36-38: `T`
  | .fzScalarSet => [.adt .fzScalarMap [.param 0, .prim]]
  -- core/fz_sets/fz_string_set.rs l.34-36: `K, BH`
  | .fzStringSet => [.adt .fzStringMap [.param 0, .prim, .param 1]]
  -- core/maps/iterators.rs l.8-10: `'a, K, V`
  | .mapIter => [.adt .sliceIter [.param 0, .pair (.param 1) (.param 2)]]
  -- core/maps/iterators.rs l.64-66: `'a, K, V`
  | .mapIterMut => [.adt .sliceIterMut [.param 0, .pair (.param 1) (.param 2)]]
  -- core/maps/iterators.rs l.116-118, l.174-176: `'a, K, V`
  | .mapKeys => [.adt .mapIter [.param 0, .param 1, .param 2]]
  | .mapValues => [.adt .mapIter [.param 0, .param 1, .param 2]]
  -- core/maps/iterators.rs l.232-234: `'a, K, V`
  | .mapValuesMut => [.adt .mapIterMut [.param 0, .param 1, .param 2]]
  -- core/maps/iterators.rs l.286-288: `K, V`
  | .mapIntoIter => [.adt .vecIntoIter [.pair (.param 0) (.param 1)]]
  -- core/maps/iterators.rs l.341-343, l.386-388: `K, V`
  | .mapIntoKeys => [.adt .mapIntoIter [.param 0, .param 1]]
  | .mapIntoValues => [.adt .mapIntoIter [.param 0, .param 1]]
  -- core/sets/iterators.rs l.7-9: `'a, T`
  | .setIter => [.adt .mapIter [.param 0, .param 1, .prim]]
  -- core/sets/iterators.rs l.65-67: `T`
  | .setIntoIter => [.adt .mapIntoIter [.param 0, .prim]]
  -- core/sets/iterators.rs l.107-117: `'a, S1, S2, T`
  | .union =>
    [.shared (.param 0) (.param 1), .assocIter (.param 0) (.param 1) (.param 3),
     .shared (.param 0) (.param 2), .assocIter (.param 0) (.param 2) (.param 3)]
  -- core/sets/iterators.rs l.223-230: `'a, S1, S2, T`
  | .symmetricDifference =>
    [.adt .chain [.adt .difference [.param 0, .param 1, .param 2, .param 3], .adt .difference [.param 0, .param 2, .param 1, .param 3]]]
  -- core/sets/iterators.rs l.297-306: `'a, S1, S2, T`
  | .difference => [.shared (.param 0) (.param 1), .assocIter (.param 0) (.param 1) (.param 3), .shared (.param 0) (.param 2)]
  -- core/sets/iterators.rs l.381-391: `'a, S1, S2, T`
  | .intersection =>
    [.shared (.param 0) (.param 1), .assocIter (.param 0) (.param 1) (.param 3),
     .shared (.param 0) (.param 2), .assocIter (.param 0) (.param 2) (.param 3)]
  -- `core::slice::Iter<'a, T>`, which has the same auto traits and variance as `&'a [T]`
  | .sliceIter => [.shared (.param 0) (.slice (.param 1))]
  -- `core::slice::IterMut<'a, T>`, which has the same auto traits and variance as `&'a mut [T]`
  | .sliceIterMut => [.exclusive (.param 0) (.slice (.param 1))]
  -- `alloc::vec::IntoIter<T>`, which owns what is left of the vector
  | .vecIntoIter => [.boxed (.slice (.param 0))]
  -- `core::ops::Range<T>`
  | .range => [.param 0, .param 0]
  -- `core::iter::Chain<A, B>`
  | .chain => [.param 0, .param 1]
  -- `HashSet<T, BH>` of std and hashbrown, `BTreeSet<T>`: they own their elements and the hasher
  | .hashSet => [.boxed (.slice (.param 0)), .param 1]
  | .bTreeSet => [.boxed (.slice (.param 0))]

/-- The `impl SetIteration` blocks: the iterator of a set and the type of its elements.  The sets of the library all have `Iter<'a, T>`
(core/inline_sets/inline_dense_scalar_lookup_set.rs l.83-91, inline_eytzinger_search_set.rs l.83-91, inline_hash_set.rs l.81-95,
inline_hash_set_no_collisions.rs l.81-95, inline_scan_set.rs l.81-89, inline_sparse_scalar_lookup_set.rs l.94-107, core/fz_sets/fz_hash_set.rs
l.180-193, fz_ordered_set.rs l.153-161, fz_scalar_set.rs l.147-155, fz_string_set.rs l.169-177, the last for `Box<str>` only); the iterators of the
foreign sets (core/traits/set_iteration.rs l.17-52) are not told apart from a slice iterator, whose auto traits and variance they share. -/
def Ty.iteration (s l : Ty) : Option (Ty × Ty) :=
  match s with
  | .adt .inlineDenseSet [t] | .adt .inlineEytzingerSet [t] | .adt .inlineScanSet [t] => some (t, .adt .setIter [l, t])
  | .adt .inlineSparseSet [t, _] => some (t, .adt .setIter [l, t])
  | .adt .inlineHashSet [t, _, _] | .adt .inlineHashSetNoCollisions [t, _, _] => some (t, .adt .setIter [l, t])
  | .adt .fzHashSet [t, _] => some (t, .adt .setIter [l, t])
  | .adt .fzOrderedSet [t] | .adt .fzScalarSet [t] => some (t, .adt .setIter [l, t])
  | .adt .fzStringSet [.boxed .prim, _] => some (.boxed .prim, .adt .setIter [l, .boxed .prim])
  | .adt .hashSet [t, _] => some (t, .adt .sliceIter [l, t])
  | .adt .bTreeSet [t] => some (t, .adt .sliceIter [l, t])
  | _ => none

/-! ## The types of declarations -/

/-- The hasher type that the emitter names (core/emit/collection_emitter.rs l.256, l.318, l.360, l.373, l.383, l.394); the
hash builder is foldhash's `FixedState`. -/
def HasherTok.ty : HasherTok → Ty
  | .bridge _ => .adt .bridgeHasher [.prim]
  | .scalar => .adt .scalarHasher []
  | .length => .adt .lengthHasher []
  | .left _ _ _ => .adt .inlineLeftRangeHasher [.prim]
  | .right _ _ _ => .adt .inlineRightRangeHasher [.prim]

/-- The path by which generated code names a type (`Emitted.mapSig`, `Emitted.setSig`); types that it does not name have none. -/
def TyName.path : TyName → Option (List String)
  | .inlineScanMap => some ["frozen_collections", "inline_maps", "InlineScanMap"]
  | .inlineEytzingerMap => some ["frozen_collections", "inline_maps", "InlineEytzingerSearchMap"]
  | .inlineDenseMap => some ["frozen_collections", "inline_maps", "InlineDenseScalarLookupMap"]
  | .inlineSparseMap => some ["frozen_collections", "inline_maps", "InlineSparseScalarLookupMap"]
  | .inlineHashMap => some ["frozen_collections", "inline_maps", "InlineHashMap"]
  | .inlineHashMapNoCollisions => some ["frozen_collections", "inline_maps", "InlineHashMapNoCollisions"]
  | .fzHashMap => some ["frozen_collections", "FzHashMap"]
  | .fzScalarMap => some ["frozen_collections", "FzScalarMap"]
  | .fzStringMap => some ["frozen_collections", "FzStringMap"]
  | .inlineScanSet => some ["frozen_collections", "inline_sets", "InlineScanSet"]
  | .inlineEytzingerSet => some ["frozen_collections", "inline_sets", "InlineEytzingerSearchSet"]
  | .inlineDenseSet => some ["frozen_collections", "inline_sets", "InlineDenseScalarLookupSet"]
  | .inlineSparseSet => some ["frozen_collections", "inline_sets", "InlineSparseScalarLookupSet"]
  | .inlineHashSet => some ["frozen_collections", "inline_sets", "InlineHashSet"]
  | .inlineHashSetNoCollisions => some ["frozen_collections", "inline_sets", "InlineHashSetNoCollisions"]
  | .fzHashSet => some ["frozen_collections", "FzHashSet"]
  | .fzScalarSet => some ["frozen_collections", "FzScalarSet"]
  | .fzStringSet => some ["frozen_collections", "FzStringSet"]
  | _ => none

/-- The type of an emitted map whose keys have type `k` and whose values have type `v` (`Emitted.mapSig`). -/
def Emitted.mapTy {K V : Type} (k v : Ty) : Emitted K V → TyName × List Ty
  | .scanRaw _ _ | .scanNew _ _ => (.inlineScanMap, [k, v])
  | .eytzingerRaw _ _ | .eytzingerNew _ _ => (.inlineEytzingerMap, [k, v])
  | .dense _ _ _ _ => (.inlineDenseMap, [k, v])
  | .sparse _ _ _ _ _ _ _ => (.inlineSparseMap, [k, v, .prim])
  | .hash _ _ _ _ _ h => (.inlineHashMap, [k, v, .prim, h.ty])
  | .hashNC _ _ _ _ _ h => (.inlineHashMapNoCollisions, [k, v, .prim, h.ty])
  | .fz .hash _ => (.fzHashMap, [k, v, .prim])
  | .fz .scalar _ => (.fzScalarMap, [k, v])
  | .fz .string _ => (.fzStringMap, [k, v, .prim])

/-- The type of an emitted set whose elements have type `k` (`Emitted.setSig`). -/
def Emitted.setTy {K V : Type} (k : Ty) : Emitted K V → TyName × List Ty
  | .scanRaw _ _ | .scanNew _ _ => (.inlineScanSet, [k])
  | .eytzingerRaw _ _ | .eytzingerNew _ _ => (.inlineEytzingerSet, [k])
  | .dense _ _ _ _ => (.inlineDenseSet, [k])
  | .sparse _ _ _ _ _ _ _ => (.inlineSparseSet, [k, .prim])
  | .hash _ _ _ _ _ h => (.inlineHashSet, [k, .prim, h.ty])
  | .hashNC _ _ _ _ _ h => (.inlineHashSetNoCollisions, [k, .prim, h.ty])
  | .fz .hash _ => (.fzHashSet, [k, .prim])
  | .fz .scalar _ => (.fzScalarSet, [k])
  | .fz .string _ => (.fzStringSet, [k, .prim])

/-- The type of the emitted collection; `v` is `none` for a set. -/
def Emitted.ty {K V : Type} (k : Ty) (v : Option Ty) (e : Emitted K V) : TyName × List Ty :=
  match v with
  | some v => e.mapTy k v
  | none => e.setTy k

/-- The type of the static that an item declares, if it declares one (core/emit/collection_emitter.rs l.485-504). -/
def Item.staticTy {K V : Type} (k : Ty) (v : Option Ty) : Item (Emitted K V) → Option Ty
  | .staticConst _ _ e => some (.adt (e.ty k v).1 (e.ty k v).2)
  | .staticLazy _ _ e => some (.lazyLock (.adt (e.ty k v).1 (e.ty k v).2))
  | .letStmt .. => none
  | .expr .. => none

end Frozen.Model
