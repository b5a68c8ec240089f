import Verif.Model.Tokens

/-!
# The module trees of the crates

Which modules, items and re-exports the facade crate `frozen-collections`, the core crate and the crate of procedural macros declare, with their
visibility and the features they depend on.  Functions, `impl` blocks, private imports and everything under `cfg(test)` are left out, and so are the
private modules `analyzers` and `utils` of the core crate, whose items nothing re-exports.
-/

namespace Frozen.Model

/-- The features of the facade crate (frozen-collections/Cargo.toml l.33-38).  Each of them turns on the feature of the same name of the core crate, and
the crate of macros turns on `macros` (frozen-collections-macros/Cargo.toml l.20), so that the core crate has the same features. -/
structure Features where
  std : Bool
  macros : Bool
  serde : Bool
  emit : Bool
deriving DecidableEq

/-- The three namespaces of Rust. -/
inductive Ns where
  | type | value | macro
deriving DecidableEq

/-- A declaration in a module. -/
inductive Stmt where
  /-- `mod name` -/
  | mod (name : String)
  /-- a struct, trait, function or macro -/
  | item (ns : Ns) (name : String)
  /-- `use path::name`; the path is written out from the crate on -/
  | use (path : List String) (name : String)
  /-- `use path::*` -/
  | glob (path : List String)
deriving DecidableEq

/-- A declaration, the module it stands in, and the module inside which it is visible: `[]` for `pub`, the crate for `pub(crate)`, the module it stands in
if it is private. -/
structure Line where
  within : List String
  scope : List String
  stmt : Stmt
deriving DecidableEq

/-- `mod file;` with a public item in it, and `pub use file::item;`. -/
def fileOf (m : List String) (nss : List Ns) (file name : String) : List Line :=
  ⟨m, m, .mod file⟩ :: ⟨m, [], .use (m ++ [file]) name⟩ :: nss.map (fun ns => ⟨m ++ [file], [], .item ns name⟩)

/-- `pub use path::{names};`. -/
def usesOf (m path names : List String) : List Line := names.map (fun n => ⟨m, [], .use path n⟩)

/-- Public types or traits. -/
def typesOf (m names : List String) : List Line := names.map (fun n => ⟨m, [], .item .type n⟩)

/-- `pub mod name { pub use path::*; }`. -/
def globMod (m : List String) (name : String) (path : List String) : List Line := [⟨m, [], .mod name⟩, ⟨m ++ [name], [], .glob path⟩]

/-- The facade crate (frozen-collections/src/lib.rs l.243-246, l.400-401, l.487-488, l.637-638, l.724-725, l.845-846, l.918-919, l.1016-1017,
l.1075-1076, l.1083-1130). -/
def facadeLines (f : Features) : List Line :=
  usesOf ["frozen_collections"] ["frozen_collections_core", "traits"]
    ["Map", "MapExtras", "MapIteration", "MapQuery", "Scalar", "Set", "SetExtras", "SetIteration", "SetOps", "SetQuery"] ++
  usesOf ["frozen_collections"] ["frozen_collections_core", "traits"]
    ["CollectionMagnitude", "Hasher", "LargeCollection", "Len", "MediumCollection", "SmallCollection"] ++
  (if f.macros then usesOf ["frozen_collections"] ["frozen_collections_macros"]
    ["fz_hash_map", "fz_hash_set", "fz_ordered_map", "fz_ordered_set", "fz_scalar_map", "fz_scalar_set", "fz_string_map", "fz_string_set", "Scalar"]
   else []) ++
  (if f.emit then globMod ["frozen_collections"] "emit" ["frozen_collections_core", "emit"] else []) ++
  [⟨["frozen_collections"], [], .glob ["frozen_collections_core", "fz_maps"]⟩,
   ⟨["frozen_collections"], [], .glob ["frozen_collections_core", "fz_sets"]⟩] ++
  globMod ["frozen_collections"] "sets" ["frozen_collections_core", "sets"] ++
  globMod ["frozen_collections"] "maps" ["frozen_collections_core", "maps"] ++
  globMod ["frozen_collections"] "inline_maps" ["frozen_collections_core", "inline_maps"] ++
  globMod ["frozen_collections"] "inline_sets" ["frozen_collections_core", "inline_sets"] ++
  globMod ["frozen_collections"] "hashers" ["frozen_collections_core", "hashers"] ++
  globMod ["frozen_collections"] "hash_tables" ["frozen_collections_core", "hash_tables"] ++
  [⟨["frozen_collections"], [], .mod "foldhash"⟩,
   ⟨["frozen_collections", "foldhash"], [], .use ["foldhash", "fast"] "FixedState"⟩,
   ⟨["frozen_collections"], [], .use ["frozen_collections_core"] "DefaultBuildHasher"⟩]

/-- The core crate: its root (core/lib.rs l.14-38) and the modules `fz_maps`, `fz_sets`, `hash_tables`, `hashers`, `inline_maps`, `inline_sets`, `maps`,
`sets`, `traits` (the files core/traits/mod.rs l.3-29, core/maps/mod.rs l.3-16, core/hashers/mod.rs l.3-17 and so on; the public items of
core/maps/iterators.rs and core/sets/iterators.rs). -/
def coreLines : List Line :=
  (["fz_maps", "fz_sets", "hash_tables", "hashers", "inline_maps", "inline_sets", "maps", "sets", "traits"].map
    (fun n => (⟨["frozen_collections_core"], [], .mod n⟩ : Line))) ++
  [⟨["frozen_collections_core"], [], .item .type "DefaultBuildHasher"⟩] ++
  fileOf ["frozen_collections_core", "fz_maps"] [.type] "fz_hash_map" "FzHashMap" ++
  fileOf ["frozen_collections_core", "fz_maps"] [.type] "fz_ordered_map" "FzOrderedMap" ++
  fileOf ["frozen_collections_core", "fz_maps"] [.type] "fz_scalar_map" "FzScalarMap" ++
  fileOf ["frozen_collections_core", "fz_maps"] [.type] "fz_string_map" "FzStringMap" ++
  fileOf ["frozen_collections_core", "fz_sets"] [.type] "fz_hash_set" "FzHashSet" ++
  fileOf ["frozen_collections_core", "fz_sets"] [.type] "fz_ordered_set" "FzOrderedSet" ++
  fileOf ["frozen_collections_core", "fz_sets"] [.type] "fz_scalar_set" "FzScalarSet" ++
  fileOf ["frozen_collections_core", "fz_sets"] [.type] "fz_string_set" "FzStringSet" ++
  [⟨["frozen_collections_core", "hash_tables"], ["frozen_collections_core", "hash_tables"], .mod "hash_table"⟩,
   ⟨["frozen_collections_core", "hash_tables"], ["frozen_collections_core"], .use ["frozen_collections_core", "hash_tables", "hash_table"] "HashTable"⟩,
   ⟨["frozen_collections_core", "hash_tables", "hash_table"], [], .item .type "HashTable"⟩] ++
  fileOf ["frozen_collections_core", "hash_tables"] [.type] "hash_table_slot" "HashTableSlot" ++
  fileOf ["frozen_collections_core", "hash_tables"] [.type] "inline_hash_table" "InlineHashTable" ++
  fileOf ["frozen_collections_core", "hash_tables"] [.type] "inline_hash_table_no_collisions" "InlineHashTableNoCollisions" ++
  fileOf ["frozen_collections_core", "hashers"] [.type] "bridge_hasher" "BridgeHasher" ++
  fileOf ["frozen_collections_core", "hashers"] [.type] "inline_left_range_hasher" "InlineLeftRangeHasher" ++
  fileOf ["frozen_collections_core", "hashers"] [.type] "inline_right_range_hasher" "InlineRightRangeHasher" ++
  fileOf ["frozen_collections_core", "hashers"] [.type] "left_range_hasher" "LeftRangeHasher" ++
  fileOf ["frozen_collections_core", "hashers"] [.type, .value] "length_hasher" "LengthHasher" ++
  fileOf ["frozen_collections_core", "hashers"] [.type] "right_range_hasher" "RightRangeHasher" ++
  fileOf ["frozen_collections_core", "hashers"] [.type, .value] "scalar_hasher" "ScalarHasher" ++
  fileOf ["frozen_collections_core", "inline_maps"] [.type] "inline_dense_scalar_lookup_map" "InlineDenseScalarLookupMap" ++
  fileOf ["frozen_collections_core", "inline_maps"] [.type] "inline_eytzinger_search_map" "InlineEytzingerSearchMap" ++
  fileOf ["frozen_collections_core", "inline_maps"] [.type] "inline_hash_map" "InlineHashMap" ++
  fileOf ["frozen_collections_core", "inline_maps"] [.type] "inline_hash_map_no_collisions" "InlineHashMapNoCollisions" ++
  fileOf ["frozen_collections_core", "inline_maps"] [.type] "inline_scan_map" "InlineScanMap" ++
  fileOf ["frozen_collections_core", "inline_maps"] [.type] "inline_sparse_scalar_lookup_map" "InlineSparseScalarLookupMap" ++
  fileOf ["frozen_collections_core", "inline_sets"] [.type] "inline_dense_scalar_lookup_set" "InlineDenseScalarLookupSet" ++
  fileOf ["frozen_collections_core", "inline_sets"] [.type] "inline_eytzinger_search_set" "InlineEytzingerSearchSet" ++
  fileOf ["frozen_collections_core", "inline_sets"] [.type] "inline_hash_set" "InlineHashSet" ++
  fileOf ["frozen_collections_core", "inline_sets"] [.type] "inline_hash_set_no_collisions" "InlineHashSetNoCollisions" ++
  fileOf ["frozen_collections_core", "inline_sets"] [.type] "inline_scan_set" "InlineScanSet" ++
  fileOf ["frozen_collections_core", "inline_sets"] [.type] "inline_sparse_scalar_lookup_set" "InlineSparseScalarLookupSet" ++
  fileOf ["frozen_collections_core", "maps"] [.type] "dense_scalar_lookup_map" "DenseScalarLookupMap" ++
  fileOf ["frozen_collections_core", "maps"] [.type] "eytzinger_search_map" "EytzingerSearchMap" ++
  fileOf ["frozen_collections_core", "maps"] [.type] "hash_map" "HashMap" ++
  fileOf ["frozen_collections_core", "maps"] [.type] "scan_map" "ScanMap" ++
  fileOf ["frozen_collections_core", "maps"] [.type] "sparse_scalar_lookup_map" "SparseScalarLookupMap" ++
  [⟨["frozen_collections_core", "maps"], ["frozen_collections_core"], .mod "decl_macros"⟩,
   ⟨["frozen_collections_core", "maps"], ["frozen_collections_core", "maps"], .mod "iterators"⟩,
   ⟨["frozen_collections_core", "maps"], [], .glob ["frozen_collections_core", "maps", "iterators"]⟩] ++
  typesOf ["frozen_collections_core", "maps", "iterators"]
    ["Iter", "IterMut", "Keys", "Values", "ValuesMut", "IntoIter", "IntoKeys", "IntoValues"] ++
  [⟨["frozen_collections_core", "sets"], ["frozen_collections_core"], .mod "decl_macros"⟩,
   ⟨["frozen_collections_core", "sets"], ["frozen_collections_core", "sets"], .mod "iterators"⟩,
   ⟨["frozen_collections_core", "sets"], [], .glob ["frozen_collections_core", "sets", "iterators"]⟩] ++
  typesOf ["frozen_collections_core", "sets", "iterators"] ["Iter", "IntoIter", "Union", "SymmetricDifference", "Difference", "Intersection"] ++
  [⟨["frozen_collections_core", "traits"], ["frozen_collections_core", "traits"], .mod "collection_magnitude"⟩] ++
  usesOf ["frozen_collections_core", "traits"] ["frozen_collections_core", "traits", "collection_magnitude"]
    ["CollectionMagnitude", "LargeCollection", "MediumCollection", "SmallCollection"] ++
  typesOf ["frozen_collections_core", "traits", "collection_magnitude"]
    ["CollectionMagnitude", "LargeCollection", "MediumCollection", "SmallCollection"] ++
  fileOf ["frozen_collections_core", "traits"] [.type] "hasher" "Hasher" ++
  fileOf ["frozen_collections_core", "traits"] [.type] "len" "Len" ++
  fileOf ["frozen_collections_core", "traits"] [.type] "map" "Map" ++
  fileOf ["frozen_collections_core", "traits"] [.type] "map_extras" "MapExtras" ++
  fileOf ["frozen_collections_core", "traits"] [.type] "map_iteration" "MapIteration" ++
  fileOf ["frozen_collections_core", "traits"] [.type] "map_query" "MapQuery" ++
  fileOf ["frozen_collections_core", "traits"] [.type] "scalar" "Scalar" ++
  fileOf ["frozen_collections_core", "traits"] [.type] "set" "Set" ++
  fileOf ["frozen_collections_core", "traits"] [.type] "set_extras" "SetExtras" ++
  fileOf ["frozen_collections_core", "traits"] [.type] "set_iteration" "SetIteration" ++
  fileOf ["frozen_collections_core", "traits"] [.type] "set_ops" "SetOps" ++
  fileOf ["frozen_collections_core", "traits"] [.type] "set_query" "SetQuery"

/-- The modules of the core crate that depend on features: `macros` and `emit` (core/lib.rs l.26-30, core/macros/mod.rs l.3-9, core/emit/mod.rs l.3-8).
`NonLiteralKey` is `pub(crate)` (core/emit/collection_entry.rs l.9). -/
def coreFeatureLines (f : Features) : List Line :=
  (if f.macros then
    [⟨["frozen_collections_core"], [], .mod "macros"⟩] ++
    fileOf ["frozen_collections_core", "macros"] [.value] "derive_scalar_macro" "derive_scalar_macro" ++
    [⟨["frozen_collections_core", "macros"], ["frozen_collections_core", "macros"], .mod "macro_api"⟩,
     ⟨["frozen_collections_core", "macros"], [], .glob ["frozen_collections_core", "macros", "macro_api"]⟩] ++
    ["fz_hash_map_macro", "fz_ordered_map_macro", "fz_string_map_macro", "fz_scalar_map_macro", "fz_hash_set_macro", "fz_ordered_set_macro",
      "fz_string_set_macro", "fz_scalar_set_macro"].map (fun n => (⟨["frozen_collections_core", "macros", "macro_api"], [], .item .value n⟩ : Line))
   else []) ++
  (if f.emit || f.macros then
    [⟨["frozen_collections_core"], [], .mod "emit"⟩,
     ⟨["frozen_collections_core", "emit"], ["frozen_collections_core", "emit"], .mod "collection_emitter"⟩,
     ⟨["frozen_collections_core", "emit"], ["frozen_collections_core", "emit"], .mod "collection_entry"⟩,
     ⟨["frozen_collections_core", "emit"], [], .glob ["frozen_collections_core", "emit", "collection_emitter"]⟩,
     ⟨["frozen_collections_core", "emit"], [], .glob ["frozen_collections_core", "emit", "collection_entry"]⟩,
     ⟨["frozen_collections_core", "emit", "collection_emitter"], [], .item .type "CollectionEmitter"⟩,
     ⟨["frozen_collections_core", "emit", "collection_entry"], [], .item .type "CollectionEntry"⟩,
     ⟨["frozen_collections_core", "emit", "collection_entry"], ["frozen_collections_core"], .item .type "NonLiteralKey"⟩]
   else [])

/-- The crate of procedural macros (frozen-collections-macros/src/lib.rs l.19-85), and what is used of the crates `foldhash` and `core`. -/
def otherLines : List Line :=
  ["fz_hash_map", "fz_hash_set", "fz_ordered_map", "fz_ordered_set", "fz_string_map", "fz_string_set", "fz_scalar_map", "fz_scalar_set", "Scalar"].map
    (fun n => (⟨["frozen_collections_macros"], [], .item .macro n⟩ : Line)) ++
  [⟨["foldhash"], [], .mod "fast"⟩, ⟨["foldhash", "fast"], [], .item .type "FixedState"⟩, ⟨["foldhash", "fast"], [], .item .type "RandomState"⟩,
   ⟨["core"], [], .item .macro "compile_error"⟩]

/-- All the declarations. -/
def crateLines (f : Features) : List Line := facadeLines f ++ coreLines ++ coreFeatureLines f ++ otherLines

/-- The public functions that generated code calls by the path of a type without type arguments: `BridgeHasher::new` (core/hashers/bridge_hasher.rs l.16),
`HashTableSlot::new` (core/hash_tables/hash_table_slot.rs l.20), and `with_seed` of foldhash. -/
def typeFns : List (List String × String) :=
  [(["frozen_collections_core", "hashers", "bridge_hasher", "BridgeHasher"], "new"),
   (["frozen_collections_core", "hash_tables", "hash_table_slot", "HashTableSlot"], "new"),
   (["foldhash", "fast", "FixedState"], "with_seed")]

end Frozen.Model
