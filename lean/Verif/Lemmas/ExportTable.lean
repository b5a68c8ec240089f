import Verif.Lemmas.Exports

/-! # All names of the crates, with all features -/

namespace Frozen.Props

open Frozen.Model

/-- The names of the crates. -/
def allNames : List Binding :=
  [⟨["frozen_collections"], [], .type, "Map", ["frozen_collections_core", "traits", "map", "Map"]⟩,
   ⟨["frozen_collections"], [], .type, "MapExtras", ["frozen_collections_core", "traits", "map_extras", "MapExtras"]⟩,
   ⟨["frozen_collections"], [], .type, "MapIteration", ["frozen_collections_core", "traits", "map_iteration", "MapIteration"]⟩,
   ⟨["frozen_collections"], [], .type, "MapQuery", ["frozen_collections_core", "traits", "map_query", "MapQuery"]⟩,
   ⟨["frozen_collections"], [], .type, "Scalar", ["frozen_collections_core", "traits", "scalar", "Scalar"]⟩,
   ⟨["frozen_collections"], [], .type, "Set", ["frozen_collections_core", "traits", "set", "Set"]⟩,
   ⟨["frozen_collections"], [], .type, "SetExtras", ["frozen_collections_core", "traits", "set_extras", "SetExtras"]⟩,
   ⟨["frozen_collections"], [], .type, "SetIteration", ["frozen_collections_core", "traits", "set_iteration", "SetIteration"]⟩,
   ⟨["frozen_collections"], [], .type, "SetOps", ["frozen_collections_core", "traits", "set_ops", "SetOps"]⟩,
   ⟨["frozen_collections"], [], .type, "SetQuery", ["frozen_collections_core", "traits", "set_query", "SetQuery"]⟩,
   ⟨["frozen_collections"], [], .type, "CollectionMagnitude", ["frozen_collections_core", "traits", "collection_magnitude", "CollectionMagnitude"]⟩,
   ⟨["frozen_collections"], [], .type, "Hasher", ["frozen_collections_core", "traits", "hasher", "Hasher"]⟩,
   ⟨["frozen_collections"], [], .type, "LargeCollection", ["frozen_collections_core", "traits", "collection_magnitude", "LargeCollection"]⟩,
   ⟨["frozen_collections"], [], .type, "Len", ["frozen_collections_core", "traits", "len", "Len"]⟩,
   ⟨["frozen_collections"], [], .type, "MediumCollection", ["frozen_collections_core", "traits", "collection_magnitude", "MediumCollection"]⟩,
   ⟨["frozen_collections"], [], .type, "SmallCollection", ["frozen_collections_core", "traits", "collection_magnitude", "SmallCollection"]⟩,
   ⟨["frozen_collections"], [], .macro, "fz_hash_map", ["frozen_collections_macros", "fz_hash_map"]⟩,
   ⟨["frozen_collections"], [], .macro, "fz_hash_set", ["frozen_collections_macros", "fz_hash_set"]⟩,
   ⟨["frozen_collections"], [], .macro, "fz_ordered_map", ["frozen_collections_macros", "fz_ordered_map"]⟩,
   ⟨["frozen_collections"], [], .macro, "fz_ordered_set", ["frozen_collections_macros", "fz_ordered_set"]⟩,
   ⟨["frozen_collections"], [], .macro, "fz_scalar_map", ["frozen_collections_macros", "fz_scalar_map"]⟩,
   ⟨["frozen_collections"], [], .macro, "fz_scalar_set", ["frozen_collections_macros", "fz_scalar_set"]⟩,
   ⟨["frozen_collections"], [], .macro, "fz_string_map", ["frozen_collections_macros", "fz_string_map"]⟩,
   ⟨["frozen_collections"], [], .macro, "fz_string_set", ["frozen_collections_macros", "fz_string_set"]⟩,
   ⟨["frozen_collections"], [], .macro, "Scalar", ["frozen_collections_macros", "Scalar"]⟩,
   ⟨["frozen_collections"], [], .type, "emit", ["frozen_collections", "emit"]⟩,
   ⟨["frozen_collections", "emit"], [], .type, "CollectionEmitter", ["frozen_collections_core", "emit", "collection_emitter", "CollectionEmitter"]⟩,
   ⟨["frozen_collections", "emit"], [], .type, "CollectionEntry", ["frozen_collections_core", "emit", "collection_entry", "CollectionEntry"]⟩,
   ⟨["frozen_collections"], [], .type, "FzHashMap", ["frozen_collections_core", "fz_maps", "fz_hash_map", "FzHashMap"]⟩,
   ⟨["frozen_collections"], [], .type, "FzOrderedMap", ["frozen_collections_core", "fz_maps", "fz_ordered_map", "FzOrderedMap"]⟩,
   ⟨["frozen_collections"], [], .type, "FzScalarMap", ["frozen_collections_core", "fz_maps", "fz_scalar_map", "FzScalarMap"]⟩,
   ⟨["frozen_collections"], [], .type, "FzStringMap", ["frozen_collections_core", "fz_maps", "fz_string_map", "FzStringMap"]⟩,
   ⟨["frozen_collections"], [], .type, "FzHashSet", ["frozen_collections_core", "fz_sets", "fz_hash_set", "FzHashSet"]⟩,
   ⟨["frozen_collections"], [], .type, "FzOrderedSet", ["frozen_collections_core", "fz_sets", "fz_ordered_set", "FzOrderedSet"]⟩,
   ⟨["frozen_collections"], [], .type, "FzScalarSet", ["frozen_collections_core", "fz_sets", "fz_scalar_set", "FzScalarSet"]⟩,
   ⟨["frozen_collections"], [], .type, "FzStringSet", ["frozen_collections_core", "fz_sets", "fz_string_set", "FzStringSet"]⟩,
   ⟨["frozen_collections"], [], .type, "sets", ["frozen_collections", "sets"]⟩,
   ⟨["frozen_collections", "sets"], [], .type, "Iter", ["frozen_collections_core", "sets", "iterators", "Iter"]⟩,
   ⟨["frozen_collections", "sets"], [], .type, "IntoIter", ["frozen_collections_core", "sets", "iterators", "IntoIter"]⟩,
   ⟨["frozen_collections", "sets"], [], .type, "Union", ["frozen_collections_core", "sets", "iterators", "Union"]⟩,
   ⟨["frozen_collections", "sets"], [], .type, "SymmetricDifference", ["frozen_collections_core", "sets", "iterators", "SymmetricDifference"]⟩,
   ⟨["frozen_collections", "sets"], [], .type, "Difference", ["frozen_collections_core", "sets", "iterators", "Difference"]⟩,
   ⟨["frozen_collections", "sets"], [], .type, "Intersection", ["frozen_collections_core", "sets", "iterators", "Intersection"]⟩,
   ⟨["frozen_collections"], [], .type, "maps", ["frozen_collections", "maps"]⟩,
   ⟨["frozen_collections", "maps"], [], .type, "DenseScalarLookupMap", ["frozen_collections_core", "maps", "dense_scalar_lookup_map", "DenseScalarLookupMap"]⟩,
   ⟨["frozen_collections", "maps"], [], .type, "EytzingerSearchMap", ["frozen_collections_core", "maps", "eytzinger_search_map", "EytzingerSearchMap"]⟩,
   ⟨["frozen_collections", "maps"], [], .type, "HashMap", ["frozen_collections_core", "maps", "hash_map", "HashMap"]⟩,
   ⟨["frozen_collections", "maps"], [], .type, "ScanMap", ["frozen_collections_core", "maps", "scan_map", "ScanMap"]⟩,
   ⟨["frozen_collections", "maps"], [], .type, "SparseScalarLookupMap", ["frozen_collections_core", "maps", "sparse_scalar_lookup_map", "SparseScalarLookupMap"]⟩,
   ⟨["frozen_collections", "maps"], [], .type, "Iter", ["frozen_collections_core", "maps", "iterators", "Iter"]⟩,
   ⟨["frozen_collections", "maps"], [], .type, "IterMut", ["frozen_collections_core", "maps", "iterators", "IterMut"]⟩,
   ⟨["frozen_collections", "maps"], [], .type, "Keys", ["frozen_collections_core", "maps", "iterators", "Keys"]⟩,
   ⟨["frozen_collections", "maps"], [], .type, "Values", ["frozen_collections_core", "maps", "iterators", "Values"]⟩,
   ⟨["frozen_collections", "maps"], [], .type, "ValuesMut", ["frozen_collections_core", "maps", "iterators", "ValuesMut"]⟩,
   ⟨["frozen_collections", "maps"], [], .type, "IntoIter", ["frozen_collections_core", "maps", "iterators", "IntoIter"]⟩,
   ⟨["frozen_collections", "maps"], [], .type, "IntoKeys", ["frozen_collections_core", "maps", "iterators", "IntoKeys"]⟩,
   ⟨["frozen_collections", "maps"], [], .type, "IntoValues", ["frozen_collections_core", "maps", "iterators", "IntoValues"]⟩,
   ⟨["frozen_collections"], [], .type, "inline_maps", ["frozen_collections", "inline_maps"]⟩,
   ⟨["frozen_collections", "inline_maps"], [], .type, "InlineDenseScalarLookupMap", ["frozen_collections_core", "inline_maps", "inline_dense_scalar_lookup_map", "InlineDenseScalarLookupMap"]⟩,
   ⟨["frozen_collections", "inline_maps"], [], .type, "InlineEytzingerSearchMap", ["frozen_collections_core", "inline_maps", "inline_eytzinger_search_map", "InlineEytzingerSearchMap"]⟩,
   ⟨["frozen_collections", "inline_maps"], [], .type, "InlineHashMap", ["frozen_collections_core", "inline_maps", "inline_hash_map", "InlineHashMap"]⟩,
   ⟨["frozen_collections", "inline_maps"], [], .type, "InlineHashMapNoCollisions", ["frozen_collections_core", "inline_maps", "inline_hash_map_no_collisions", "InlineHashMapNoCollisions"]⟩,
   ⟨["frozen_collections", "inline_maps"], [], .type, "InlineScanMap", ["frozen_collections_core", "inline_maps", "inline_scan_map", "InlineScanMap"]⟩,
   ⟨["frozen_collections", "inline_maps"], [], .type, "InlineSparseScalarLookupMap", ["frozen_collections_core", "inline_maps", "inline_sparse_scalar_lookup_map", "InlineSparseScalarLookupMap"]⟩,
   ⟨["frozen_collections"], [], .type, "inline_sets", ["frozen_collections", "inline_sets"]⟩,
   ⟨["frozen_collections", "inline_sets"], [], .type, "InlineDenseScalarLookupSet", ["frozen_collections_core", "inline_sets", "inline_dense_scalar_lookup_set", "InlineDenseScalarLookupSet"]⟩,
   ⟨["frozen_collections", "inline_sets"], [], .type, "InlineEytzingerSearchSet", ["frozen_collections_core", "inline_sets", "inline_eytzinger_search_set", "InlineEytzingerSearchSet"]⟩,
   ⟨["frozen_collections", "inline_sets"], [], .type, "InlineHashSet", ["frozen_collections_core", "inline_sets", "inline_hash_set", "InlineHashSet"]⟩,
   ⟨["frozen_collections", "inline_sets"], [], .type, "InlineHashSetNoCollisions", ["frozen_collections_core", "inline_sets", "inline_hash_set_no_collisions", "InlineHashSetNoCollisions"]⟩,
   ⟨["frozen_collections", "inline_sets"], [], .type, "InlineScanSet", ["frozen_collections_core", "inline_sets", "inline_scan_set", "InlineScanSet"]⟩,
   ⟨["frozen_collections", "inline_sets"], [], .type, "InlineSparseScalarLookupSet", ["frozen_collections_core", "inline_sets", "inline_sparse_scalar_lookup_set", "InlineSparseScalarLookupSet"]⟩,
   ⟨["frozen_collections"], [], .type, "hashers", ["frozen_collections", "hashers"]⟩,
   ⟨["frozen_collections", "hashers"], [], .type, "BridgeHasher", ["frozen_collections_core", "hashers", "bridge_hasher", "BridgeHasher"]⟩,
   ⟨["frozen_collections", "hashers"], [], .type, "InlineLeftRangeHasher", ["frozen_collections_core", "hashers", "inline_left_range_hasher", "InlineLeftRangeHasher"]⟩,
   ⟨["frozen_collections", "hashers"], [], .type, "InlineRightRangeHasher", ["frozen_collections_core", "hashers", "inline_right_range_hasher", "InlineRightRangeHasher"]⟩,
   ⟨["frozen_collections", "hashers"], [], .type, "LeftRangeHasher", ["frozen_collections_core", "hashers", "left_range_hasher", "LeftRangeHasher"]⟩,
   ⟨["frozen_collections", "hashers"], [], .type, "LengthHasher", ["frozen_collections_core", "hashers", "length_hasher", "LengthHasher"]⟩,
   ⟨["frozen_collections", "hashers"], [], .value, "LengthHasher", ["frozen_collections_core", "hashers", "length_hasher", "LengthHasher"]⟩,
   ⟨["frozen_collections", "hashers"], [], .type, "RightRangeHasher", ["frozen_collections_core", "hashers", "right_range_hasher", "RightRangeHasher"]⟩,
   ⟨["frozen_collections", "hashers"], [], .type, "ScalarHasher", ["frozen_collections_core", "hashers", "scalar_hasher", "ScalarHasher"]⟩,
   ⟨["frozen_collections", "hashers"], [], .value, "ScalarHasher", ["frozen_collections_core", "hashers", "scalar_hasher", "ScalarHasher"]⟩,
   ⟨["frozen_collections"], [], .type, "hash_tables", ["frozen_collections", "hash_tables"]⟩,
   ⟨["frozen_collections", "hash_tables"], [], .type, "HashTableSlot", ["frozen_collections_core", "hash_tables", "hash_table_slot", "HashTableSlot"]⟩,
   ⟨["frozen_collections", "hash_tables"], [], .type, "InlineHashTable", ["frozen_collections_core", "hash_tables", "inline_hash_table", "InlineHashTable"]⟩,
   ⟨["frozen_collections", "hash_tables"], [], .type, "InlineHashTableNoCollisions", ["frozen_collections_core", "hash_tables", "inline_hash_table_no_collisions", "InlineHashTableNoCollisions"]⟩,
   ⟨["frozen_collections"], [], .type, "foldhash", ["frozen_collections", "foldhash"]⟩,
   ⟨["frozen_collections", "foldhash"], [], .type, "FixedState", ["foldhash", "fast", "FixedState"]⟩,
   ⟨["frozen_collections"], [], .type, "DefaultBuildHasher", ["frozen_collections_core", "DefaultBuildHasher"]⟩,
   ⟨["frozen_collections_core"], [], .type, "fz_maps", ["frozen_collections_core", "fz_maps"]⟩,
   ⟨["frozen_collections_core"], [], .type, "fz_sets", ["frozen_collections_core", "fz_sets"]⟩,
   ⟨["frozen_collections_core"], [], .type, "hash_tables", ["frozen_collections_core", "hash_tables"]⟩,
   ⟨["frozen_collections_core"], [], .type, "hashers", ["frozen_collections_core", "hashers"]⟩,
   ⟨["frozen_collections_core"], [], .type, "inline_maps", ["frozen_collections_core", "inline_maps"]⟩,
   ⟨["frozen_collections_core"], [], .type, "inline_sets", ["frozen_collections_core", "inline_sets"]⟩,
   ⟨["frozen_collections_core"], [], .type, "maps", ["frozen_collections_core", "maps"]⟩,
   ⟨["frozen_collections_core"], [], .type, "sets", ["frozen_collections_core", "sets"]⟩,
   ⟨["frozen_collections_core"], [], .type, "traits", ["frozen_collections_core", "traits"]⟩,
   ⟨["frozen_collections_core"], [], .type, "DefaultBuildHasher", ["frozen_collections_core", "DefaultBuildHasher"]⟩,
   ⟨["frozen_collections_core", "fz_maps"], ["frozen_collections_core", "fz_maps"], .type, "fz_hash_map", ["frozen_collections_core", "fz_maps", "fz_hash_map"]⟩,
   ⟨["frozen_collections_core", "fz_maps"], [], .type, "FzHashMap", ["frozen_collections_core", "fz_maps", "fz_hash_map", "FzHashMap"]⟩,
   ⟨["frozen_collections_core", "fz_maps", "fz_hash_map"], [], .type, "FzHashMap", ["frozen_collections_core", "fz_maps", "fz_hash_map", "FzHashMap"]⟩,
   ⟨["frozen_collections_core", "fz_maps"], ["frozen_collections_core", "fz_maps"], .type, "fz_ordered_map", ["frozen_collections_core", "fz_maps", "fz_ordered_map"]⟩,
   ⟨["frozen_collections_core", "fz_maps"], [], .type, "FzOrderedMap", ["frozen_collections_core", "fz_maps", "fz_ordered_map", "FzOrderedMap"]⟩,
   ⟨["frozen_collections_core", "fz_maps", "fz_ordered_map"], [], .type, "FzOrderedMap", ["frozen_collections_core", "fz_maps", "fz_ordered_map", "FzOrderedMap"]⟩,
   ⟨["frozen_collections_core", "fz_maps"], ["frozen_collections_core", "fz_maps"], .type, "fz_scalar_map", ["frozen_collections_core", "fz_maps", "fz_scalar_map"]⟩,
   ⟨["frozen_collections_core", "fz_maps"], [], .type, "FzScalarMap", ["frozen_collections_core", "fz_maps", "fz_scalar_map", "FzScalarMap"]⟩,
   ⟨["frozen_collections_core", "fz_maps", "fz_scalar_map"], [], .type, "FzScalarMap", ["frozen_collections_core", "fz_maps", "fz_scalar_map", "FzScalarMap"]⟩,
   ⟨["frozen_collections_core", "fz_maps"], ["frozen_collections_core", "fz_maps"], .type, "fz_string_map", ["frozen_collections_core", "fz_maps", "fz_string_map"]⟩,
   ⟨["frozen_collections_core", "fz_maps"], [], .type, "FzStringMap", ["frozen_collections_core", "fz_maps", "fz_string_map", "FzStringMap"]⟩,
   ⟨["frozen_collections_core", "fz_maps", "fz_string_map"], [], .type, "FzStringMap", ["frozen_collections_core", "fz_maps", "fz_string_map", "FzStringMap"]⟩,
   ⟨["frozen_collections_core", "fz_sets"], ["frozen_collections_core", "fz_sets"], .type, "fz_hash_set", ["frozen_collections_core", "fz_sets", "fz_hash_set"]⟩,
   ⟨["frozen_collections_core", "fz_sets"], [], .type, "FzHashSet", ["frozen_collections_core", "fz_sets", "fz_hash_set", "FzHashSet"]⟩,
   ⟨["frozen_collections_core", "fz_sets", "fz_hash_set"], [], .type, "FzHashSet", ["frozen_collections_core", "fz_sets", "fz_hash_set", "FzHashSet"]⟩,
   ⟨["frozen_collections_core", "fz_sets"], ["frozen_collections_core", "fz_sets"], .type, "fz_ordered_set", ["frozen_collections_core", "fz_sets", "fz_ordered_set"]⟩,
   ⟨["frozen_collections_core", "fz_sets"], [], .type, "FzOrderedSet", ["frozen_collections_core", "fz_sets", "fz_ordered_set", "FzOrderedSet"]⟩,
   ⟨["frozen_collections_core", "fz_sets", "fz_ordered_set"], [], .type, "FzOrderedSet", ["frozen_collections_core", "fz_sets", "fz_ordered_set", "FzOrderedSet"]⟩,
   ⟨["frozen_collections_core", "fz_sets"], ["frozen_collections_core", "fz_sets"], .type, "fz_scalar_set", ["frozen_collections_core", "fz_sets", "fz_scalar_set"]⟩,
   ⟨["frozen_collections_core", "fz_sets"], [], .type, "FzScalarSet", ["frozen_collections_core", "fz_sets", "fz_scalar_set", "FzScalarSet"]⟩,
   ⟨["frozen_collections_core", "fz_sets", "fz_scalar_set"], [], .type, "FzScalarSet", ["frozen_collections_core", "fz_sets", "fz_scalar_set", "FzScalarSet"]⟩,
   ⟨["frozen_collections_core", "fz_sets"], ["frozen_collections_core", "fz_sets"], .type, "fz_string_set", ["frozen_collections_core", "fz_sets", "fz_string_set"]⟩,
   ⟨["frozen_collections_core", "fz_sets"], [], .type, "FzStringSet", ["frozen_collections_core", "fz_sets", "fz_string_set", "FzStringSet"]⟩,
   ⟨["frozen_collections_core", "fz_sets", "fz_string_set"], [], .type, "FzStringSet", ["frozen_collections_core", "fz_sets", "fz_string_set", "FzStringSet"]⟩,
   ⟨["frozen_collections_core", "hash_tables"], ["frozen_collections_core", "hash_tables"], .type, "hash_table", ["frozen_collections_core", "hash_tables", "hash_table"]⟩,
   ⟨["frozen_collections_core", "hash_tables"], ["frozen_collections_core"], .type, "HashTable", ["frozen_collections_core", "hash_tables", "hash_table", "HashTable"]⟩,
   ⟨["frozen_collections_core", "hash_tables", "hash_table"], [], .type, "HashTable", ["frozen_collections_core", "hash_tables", "hash_table", "HashTable"]⟩,
   ⟨["frozen_collections_core", "hash_tables"], ["frozen_collections_core", "hash_tables"], .type, "hash_table_slot", ["frozen_collections_core", "hash_tables", "hash_table_slot"]⟩,
   ⟨["frozen_collections_core", "hash_tables"], [], .type, "HashTableSlot", ["frozen_collections_core", "hash_tables", "hash_table_slot", "HashTableSlot"]⟩,
   ⟨["frozen_collections_core", "hash_tables", "hash_table_slot"], [], .type, "HashTableSlot", ["frozen_collections_core", "hash_tables", "hash_table_slot", "HashTableSlot"]⟩,
   ⟨["frozen_collections_core", "hash_tables"], ["frozen_collections_core", "hash_tables"], .type, "inline_hash_table", ["frozen_collections_core", "hash_tables", "inline_hash_table"]⟩,
   ⟨["frozen_collections_core", "hash_tables"], [], .type, "InlineHashTable", ["frozen_collections_core", "hash_tables", "inline_hash_table", "InlineHashTable"]⟩,
   ⟨["frozen_collections_core", "hash_tables", "inline_hash_table"], [], .type, "InlineHashTable", ["frozen_collections_core", "hash_tables", "inline_hash_table", "InlineHashTable"]⟩,
   ⟨["frozen_collections_core", "hash_tables"], ["frozen_collections_core", "hash_tables"], .type, "inline_hash_table_no_collisions", ["frozen_collections_core", "hash_tables", "inline_hash_table_no_collisions"]⟩,
   ⟨["frozen_collections_core", "hash_tables"], [], .type, "InlineHashTableNoCollisions", ["frozen_collections_core", "hash_tables", "inline_hash_table_no_collisions", "InlineHashTableNoCollisions"]⟩,
   ⟨["frozen_collections_core", "hash_tables", "inline_hash_table_no_collisions"], [], .type, "InlineHashTableNoCollisions", ["frozen_collections_core", "hash_tables", "inline_hash_table_no_collisions", "InlineHashTableNoCollisions"]⟩,
   ⟨["frozen_collections_core", "hashers"], ["frozen_collections_core", "hashers"], .type, "bridge_hasher", ["frozen_collections_core", "hashers", "bridge_hasher"]⟩,
   ⟨["frozen_collections_core", "hashers"], [], .type, "BridgeHasher", ["frozen_collections_core", "hashers", "bridge_hasher", "BridgeHasher"]⟩,
   ⟨["frozen_collections_core", "hashers", "bridge_hasher"], [], .type, "BridgeHasher", ["frozen_collections_core", "hashers", "bridge_hasher", "BridgeHasher"]⟩,
   ⟨["frozen_collections_core", "hashers"], ["frozen_collections_core", "hashers"], .type, "inline_left_range_hasher", ["frozen_collections_core", "hashers", "inline_left_range_hasher"]⟩,
   ⟨["frozen_collections_core", "hashers"], [], .type, "InlineLeftRangeHasher", ["frozen_collections_core", "hashers", "inline_left_range_hasher", "InlineLeftRangeHasher"]⟩,
   ⟨["frozen_collections_core", "hashers", "inline_left_range_hasher"], [], .type, "InlineLeftRangeHasher", ["frozen_collections_core", "hashers", "inline_left_range_hasher", "InlineLeftRangeHasher"]⟩,
   ⟨["frozen_collections_core", "hashers"], ["frozen_collections_core", "hashers"], .type, "inline_right_range_hasher", ["frozen_collections_core", "hashers", "inline_right_range_hasher"]⟩,
   ⟨["frozen_collections_core", "hashers"], [], .type, "InlineRightRangeHasher", ["frozen_collections_core", "hashers", "inline_right_range_hasher", "InlineRightRangeHasher"]⟩,
   ⟨["frozen_collections_core", "hashers", "inline_right_range_hasher"], [], .type, "InlineRightRangeHasher", ["frozen_collections_core", "hashers", "inline_right_range_hasher", "InlineRightRangeHasher"]⟩,
   ⟨["frozen_collections_core", "hashers"], ["frozen_collections_core", "hashers"], .type, "left_range_hasher", ["frozen_collections_core", "hashers", "left_range_hasher"]⟩,
   ⟨["frozen_collections_core", "hashers"], [], .type, "LeftRangeHasher", ["frozen_collections_core", "hashers", "left_range_hasher", "LeftRangeHasher"]⟩,
   ⟨["frozen_collections_core", "hashers", "left_range_hasher"], [], .type, "LeftRangeHasher", ["frozen_collections_core", "hashers", "left_range_hasher", "LeftRangeHasher"]⟩,
   ⟨["frozen_collections_core", "hashers"], ["frozen_collections_core", "hashers"], .type, "length_hasher", ["frozen_collections_core", "hashers", "length_hasher"]⟩,
   ⟨["frozen_collections_core", "hashers"], [], .type, "LengthHasher", ["frozen_collections_core", "hashers", "length_hasher", "LengthHasher"]⟩,
   ⟨["frozen_collections_core", "hashers"], [], .value, "LengthHasher", ["frozen_collections_core", "hashers", "length_hasher", "LengthHasher"]⟩,
   ⟨["frozen_collections_core", "hashers", "length_hasher"], [], .type, "LengthHasher", ["frozen_collections_core", "hashers", "length_hasher", "LengthHasher"]⟩,
   ⟨["frozen_collections_core", "hashers", "length_hasher"], [], .value, "LengthHasher", ["frozen_collections_core", "hashers", "length_hasher", "LengthHasher"]⟩,
   ⟨["frozen_collections_core", "hashers"], ["frozen_collections_core", "hashers"], .type, "right_range_hasher", ["frozen_collections_core", "hashers", "right_range_hasher"]⟩,
   ⟨["frozen_collections_core", "hashers"], [], .type, "RightRangeHasher", ["frozen_collections_core", "hashers", "right_range_hasher", "RightRangeHasher"]⟩,
   ⟨["frozen_collections_core", "hashers", "right_range_hasher"], [], .type, "RightRangeHasher", ["frozen_collections_core", "hashers", "right_range_hasher", "RightRangeHasher"]⟩,
   ⟨["frozen_collections_core", "hashers"], ["frozen_collections_core", "hashers"], .type, "scalar_hasher", ["frozen_collections_core", "hashers", "scalar_hasher"]⟩,
   ⟨["frozen_collections_core", "hashers"], [], .type, "ScalarHasher", ["frozen_collections_core", "hashers", "scalar_hasher", "ScalarHasher"]⟩,
   ⟨["frozen_collections_core", "hashers"], [], .value, "ScalarHasher", ["frozen_collections_core", "hashers", "scalar_hasher", "ScalarHasher"]⟩,
   ⟨["frozen_collections_core", "hashers", "scalar_hasher"], [], .type, "ScalarHasher", ["frozen_collections_core", "hashers", "scalar_hasher", "ScalarHasher"]⟩,
   ⟨["frozen_collections_core", "hashers", "scalar_hasher"], [], .value, "ScalarHasher", ["frozen_collections_core", "hashers", "scalar_hasher", "ScalarHasher"]⟩,
   ⟨["frozen_collections_core", "inline_maps"], ["frozen_collections_core", "inline_maps"], .type, "inline_dense_scalar_lookup_map", ["frozen_collections_core", "inline_maps", "inline_dense_scalar_lookup_map"]⟩,
   ⟨["frozen_collections_core", "inline_maps"], [], .type, "InlineDenseScalarLookupMap", ["frozen_collections_core", "inline_maps", "inline_dense_scalar_lookup_map", "InlineDenseScalarLookupMap"]⟩,
   ⟨["frozen_collections_core", "inline_maps", "inline_dense_scalar_lookup_map"], [], .type, "InlineDenseScalarLookupMap", ["frozen_collections_core", "inline_maps", "inline_dense_scalar_lookup_map", "InlineDenseScalarLookupMap"]⟩,
   ⟨["frozen_collections_core", "inline_maps"], ["frozen_collections_core", "inline_maps"], .type, "inline_eytzinger_search_map", ["frozen_collections_core", "inline_maps", "inline_eytzinger_search_map"]⟩,
   ⟨["frozen_collections_core", "inline_maps"], [], .type, "InlineEytzingerSearchMap", ["frozen_collections_core", "inline_maps", "inline_eytzinger_search_map", "InlineEytzingerSearchMap"]⟩,
   ⟨["frozen_collections_core", "inline_maps", "inline_eytzinger_search_map"], [], .type, "InlineEytzingerSearchMap", ["frozen_collections_core", "inline_maps", "inline_eytzinger_search_map", "InlineEytzingerSearchMap"]⟩,
   ⟨["frozen_collections_core", "inline_maps"], ["frozen_collections_core", "inline_maps"], .type, "inline_hash_map", ["frozen_collections_core", "inline_maps", "inline_hash_map"]⟩,
   ⟨["frozen_collections_core", "inline_maps"], [], .type, "InlineHashMap", ["frozen_collections_core", "inline_maps", "inline_hash_map", "InlineHashMap"]⟩,
   ⟨["frozen_collections_core", "inline_maps", "inline_hash_map"], [], .type, "InlineHashMap", ["frozen_collections_core", "inline_maps", "inline_hash_map", "InlineHashMap"]⟩,
   ⟨["frozen_collections_core", "inline_maps"], ["frozen_collections_core", "inline_maps"], .type, "inline_hash_map_no_collisions", ["frozen_collections_core", "inline_maps", "inline_hash_map_no_collisions"]⟩,
   ⟨["frozen_collections_core", "inline_maps"], [], .type, "InlineHashMapNoCollisions", ["frozen_collections_core", "inline_maps", "inline_hash_map_no_collisions", "InlineHashMapNoCollisions"]⟩,
   ⟨["frozen_collections_core", "inline_maps", "inline_hash_map_no_collisions"], [], .type, "InlineHashMapNoCollisions", ["frozen_collections_core", "inline_maps", "inline_hash_map_no_collisions", "InlineHashMapNoCollisions"]⟩,
   ⟨["frozen_collections_core", "inline_maps"], ["frozen_collections_core", "inline_maps"], .type, "inline_scan_map", ["frozen_collections_core", "inline_maps", "inline_scan_map"]⟩,
   ⟨["frozen_collections_core", "inline_maps"], [], .type, "InlineScanMap", ["frozen_collections_core", "inline_maps", "inline_scan_map", "InlineScanMap"]⟩,
   ⟨["frozen_collections_core", "inline_maps", "inline_scan_map"], [], .type, "InlineScanMap", ["frozen_collections_core", "inline_maps", "inline_scan_map", "InlineScanMap"]⟩,
   ⟨["frozen_collections_core", "inline_maps"], ["frozen_collections_core", "inline_maps"], .type, "inline_sparse_scalar_lookup_map", ["frozen_collections_core", "inline_maps", "inline_sparse_scalar_lookup_map"]⟩,
   ⟨["frozen_collections_core", "inline_maps"], [], .type, "InlineSparseScalarLookupMap", ["frozen_collections_core", "inline_maps", "inline_sparse_scalar_lookup_map", "InlineSparseScalarLookupMap"]⟩,
   ⟨["frozen_collections_core", "inline_maps", "inline_sparse_scalar_lookup_map"], [], .type, "InlineSparseScalarLookupMap", ["frozen_collections_core", "inline_maps", "inline_sparse_scalar_lookup_map", "InlineSparseScalarLookupMap"]⟩,
   ⟨["frozen_collections_core", "inline_sets"], ["frozen_collections_core", "inline_sets"], .type, "inline_dense_scalar_lookup_set", ["frozen_collections_core", "inline_sets", "inline_dense_scalar_lookup_set"]⟩,
   ⟨["frozen_collections_core", "inline_sets"], [], .type, "InlineDenseScalarLookupSet", ["frozen_collections_core", "inline_sets", "inline_dense_scalar_lookup_set", "InlineDenseScalarLookupSet"]⟩,
   ⟨["frozen_collections_core", "inline_sets", "inline_dense_scalar_lookup_set"], [], .type, "InlineDenseScalarLookupSet", ["frozen_collections_core", "inline_sets", "inline_dense_scalar_lookup_set", "InlineDenseScalarLookupSet"]⟩,
   ⟨["frozen_collections_core", "inline_sets"], ["frozen_collections_core", "inline_sets"], .type, "inline_eytzinger_search_set", ["frozen_collections_core", "inline_sets", "inline_eytzinger_search_set"]⟩,
   ⟨["frozen_collections_core", "inline_sets"], [], .type, "InlineEytzingerSearchSet", ["frozen_collections_core", "inline_sets", "inline_eytzinger_search_set", "InlineEytzingerSearchSet"]⟩,
   ⟨["frozen_collections_core", "inline_sets", "inline_eytzinger_search_set"], [], .type, "InlineEytzingerSearchSet", ["frozen_collections_core", "inline_sets", "inline_eytzinger_search_set", "InlineEytzingerSearchSet"]⟩,
   ⟨["frozen_collections_core", "inline_sets"], ["frozen_collections_core", "inline_sets"], .type, "inline_hash_set", ["frozen_collections_core", "inline_sets", "inline_hash_set"]⟩,
   ⟨["frozen_collections_core", "inline_sets"], [], .type, "InlineHashSet", ["frozen_collections_core", "inline_sets", "inline_hash_set", "InlineHashSet"]⟩,
   ⟨["frozen_collections_core", "inline_sets", "inline_hash_set"], [], .type, "InlineHashSet", ["frozen_collections_core", "inline_sets", "inline_hash_set", "InlineHashSet"]⟩,
   ⟨["frozen_collections_core", "inline_sets"], ["frozen_collections_core", "inline_sets"], .type, "inline_hash_set_no_collisions", ["frozen_collections_core", "inline_sets", "inline_hash_set_no_collisions"]⟩,
   ⟨["frozen_collections_core", "inline_sets"], [], .type, "InlineHashSetNoCollisions", ["frozen_collections_core", "inline_sets", "inline_hash_set_no_collisions", "InlineHashSetNoCollisions"]⟩,
   ⟨["frozen_collections_core", "inline_sets", "inline_hash_set_no_collisions"], [], .type, "InlineHashSetNoCollisions", ["frozen_collections_core", "inline_sets", "inline_hash_set_no_collisions", "InlineHashSetNoCollisions"]⟩,
   ⟨["frozen_collections_core", "inline_sets"], ["frozen_collections_core", "inline_sets"], .type, "inline_scan_set", ["frozen_collections_core", "inline_sets", "inline_scan_set"]⟩,
   ⟨["frozen_collections_core", "inline_sets"], [], .type, "InlineScanSet", ["frozen_collections_core", "inline_sets", "inline_scan_set", "InlineScanSet"]⟩,
   ⟨["frozen_collections_core", "inline_sets", "inline_scan_set"], [], .type, "InlineScanSet", ["frozen_collections_core", "inline_sets", "inline_scan_set", "InlineScanSet"]⟩,
   ⟨["frozen_collections_core", "inline_sets"], ["frozen_collections_core", "inline_sets"], .type, "inline_sparse_scalar_lookup_set", ["frozen_collections_core", "inline_sets", "inline_sparse_scalar_lookup_set"]⟩,
   ⟨["frozen_collections_core", "inline_sets"], [], .type, "InlineSparseScalarLookupSet", ["frozen_collections_core", "inline_sets", "inline_sparse_scalar_lookup_set", "InlineSparseScalarLookupSet"]⟩,
   ⟨["frozen_collections_core", "inline_sets", "inline_sparse_scalar_lookup_set"], [], .type, "InlineSparseScalarLookupSet", ["frozen_collections_core", "inline_sets", "inline_sparse_scalar_lookup_set", "InlineSparseScalarLookupSet"]⟩,
   ⟨["frozen_collections_core", "maps"], ["frozen_collections_core", "maps"], .type, "dense_scalar_lookup_map", ["frozen_collections_core", "maps", "dense_scalar_lookup_map"]⟩,
   ⟨["frozen_collections_core", "maps"], [], .type, "DenseScalarLookupMap", ["frozen_collections_core", "maps", "dense_scalar_lookup_map", "DenseScalarLookupMap"]⟩,
   ⟨["frozen_collections_core", "maps", "dense_scalar_lookup_map"], [], .type, "DenseScalarLookupMap", ["frozen_collections_core", "maps", "dense_scalar_lookup_map", "DenseScalarLookupMap"]⟩,
   ⟨["frozen_collections_core", "maps"], ["frozen_collections_core", "maps"], .type, "eytzinger_search_map", ["frozen_collections_core", "maps", "eytzinger_search_map"]⟩,
   ⟨["frozen_collections_core", "maps"], [], .type, "EytzingerSearchMap", ["frozen_collections_core", "maps", "eytzinger_search_map", "EytzingerSearchMap"]⟩,
   ⟨["frozen_collections_core", "maps", "eytzinger_search_map"], [], .type, "EytzingerSearchMap", ["frozen_collections_core", "maps", "eytzinger_search_map", "EytzingerSearchMap"]⟩,
   ⟨["frozen_collections_core", "maps"], ["frozen_collections_core", "maps"], .type, "hash_map", ["frozen_collections_core", "maps", "hash_map"]⟩,
   ⟨["frozen_collections_core", "maps"], [], .type, "HashMap", ["frozen_collections_core", "maps", "hash_map", "HashMap"]⟩,
   ⟨["frozen_collections_core", "maps", "hash_map"], [], .type, "HashMap", ["frozen_collections_core", "maps", "hash_map", "HashMap"]⟩,
   ⟨["frozen_collections_core", "maps"], ["frozen_collections_core", "maps"], .type, "scan_map", ["frozen_collections_core", "maps", "scan_map"]⟩,
   ⟨["frozen_collections_core", "maps"], [], .type, "ScanMap", ["frozen_collections_core", "maps", "scan_map", "ScanMap"]⟩,
   ⟨["frozen_collections_core", "maps", "scan_map"], [], .type, "ScanMap", ["frozen_collections_core", "maps", "scan_map", "ScanMap"]⟩,
   ⟨["frozen_collections_core", "maps"], ["frozen_collections_core", "maps"], .type, "sparse_scalar_lookup_map", ["frozen_collections_core", "maps", "sparse_scalar_lookup_map"]⟩,
   ⟨["frozen_collections_core", "maps"], [], .type, "SparseScalarLookupMap", ["frozen_collections_core", "maps", "sparse_scalar_lookup_map", "SparseScalarLookupMap"]⟩,
   ⟨["frozen_collections_core", "maps", "sparse_scalar_lookup_map"], [], .type, "SparseScalarLookupMap", ["frozen_collections_core", "maps", "sparse_scalar_lookup_map", "SparseScalarLookupMap"]⟩,
   ⟨["frozen_collections_core", "maps"], ["frozen_collections_core"], .type, "decl_macros", ["frozen_collections_core", "maps", "decl_macros"]⟩,
   ⟨["frozen_collections_core", "maps"], ["frozen_collections_core", "maps"], .type, "iterators", ["frozen_collections_core", "maps", "iterators"]⟩,
   ⟨["frozen_collections_core", "maps"], [], .type, "Iter", ["frozen_collections_core", "maps", "iterators", "Iter"]⟩,
   ⟨["frozen_collections_core", "maps"], [], .type, "IterMut", ["frozen_collections_core", "maps", "iterators", "IterMut"]⟩,
   ⟨["frozen_collections_core", "maps"], [], .type, "Keys", ["frozen_collections_core", "maps", "iterators", "Keys"]⟩,
   ⟨["frozen_collections_core", "maps"], [], .type, "Values", ["frozen_collections_core", "maps", "iterators", "Values"]⟩,
   ⟨["frozen_collections_core", "maps"], [], .type, "ValuesMut", ["frozen_collections_core", "maps", "iterators", "ValuesMut"]⟩,
   ⟨["frozen_collections_core", "maps"], [], .type, "IntoIter", ["frozen_collections_core", "maps", "iterators", "IntoIter"]⟩,
   ⟨["frozen_collections_core", "maps"], [], .type, "IntoKeys", ["frozen_collections_core", "maps", "iterators", "IntoKeys"]⟩,
   ⟨["frozen_collections_core", "maps"], [], .type, "IntoValues", ["frozen_collections_core", "maps", "iterators", "IntoValues"]⟩,
   ⟨["frozen_collections_core", "maps", "iterators"], [], .type, "Iter", ["frozen_collections_core", "maps", "iterators", "Iter"]⟩,
   ⟨["frozen_collections_core", "maps", "iterators"], [], .type, "IterMut", ["frozen_collections_core", "maps", "iterators", "IterMut"]⟩,
   ⟨["frozen_collections_core", "maps", "iterators"], [], .type, "Keys", ["frozen_collections_core", "maps", "iterators", "Keys"]⟩,
   ⟨["frozen_collections_core", "maps", "iterators"], [], .type, "Values", ["frozen_collections_core", "maps", "iterators", "Values"]⟩,
   ⟨["frozen_collections_core", "maps", "iterators"], [], .type, "ValuesMut", ["frozen_collections_core", "maps", "iterators", "ValuesMut"]⟩,
   ⟨["frozen_collections_core", "maps", "iterators"], [], .type, "IntoIter", ["frozen_collections_core", "maps", "iterators", "IntoIter"]⟩,
   ⟨["frozen_collections_core", "maps", "iterators"], [], .type, "IntoKeys", ["frozen_collections_core", "maps", "iterators", "IntoKeys"]⟩,
   ⟨["frozen_collections_core", "maps", "iterators"], [], .type, "IntoValues", ["frozen_collections_core", "maps", "iterators", "IntoValues"]⟩,
   ⟨["frozen_collections_core", "sets"], ["frozen_collections_core"], .type, "decl_macros", ["frozen_collections_core", "sets", "decl_macros"]⟩,
   ⟨["frozen_collections_core", "sets"], ["frozen_collections_core", "sets"], .type, "iterators", ["frozen_collections_core", "sets", "iterators"]⟩,
   ⟨["frozen_collections_core", "sets"], [], .type, "Iter", ["frozen_collections_core", "sets", "iterators", "Iter"]⟩,
   ⟨["frozen_collections_core", "sets"], [], .type, "IntoIter", ["frozen_collections_core", "sets", "iterators", "IntoIter"]⟩,
   ⟨["frozen_collections_core", "sets"], [], .type, "Union", ["frozen_collections_core", "sets", "iterators", "Union"]⟩,
   ⟨["frozen_collections_core", "sets"], [], .type, "SymmetricDifference", ["frozen_collections_core", "sets", "iterators", "SymmetricDifference"]⟩,
   ⟨["frozen_collections_core", "sets"], [], .type, "Difference", ["frozen_collections_core", "sets", "iterators", "Difference"]⟩,
   ⟨["frozen_collections_core", "sets"], [], .type, "Intersection", ["frozen_collections_core", "sets", "iterators", "Intersection"]⟩,
   ⟨["frozen_collections_core", "sets", "iterators"], [], .type, "Iter", ["frozen_collections_core", "sets", "iterators", "Iter"]⟩,
   ⟨["frozen_collections_core", "sets", "iterators"], [], .type, "IntoIter", ["frozen_collections_core", "sets", "iterators", "IntoIter"]⟩,
   ⟨["frozen_collections_core", "sets", "iterators"], [], .type, "Union", ["frozen_collections_core", "sets", "iterators", "Union"]⟩,
   ⟨["frozen_collections_core", "sets", "iterators"], [], .type, "SymmetricDifference", ["frozen_collections_core", "sets", "iterators", "SymmetricDifference"]⟩,
   ⟨["frozen_collections_core", "sets", "iterators"], [], .type, "Difference", ["frozen_collections_core", "sets", "iterators", "Difference"]⟩,
   ⟨["frozen_collections_core", "sets", "iterators"], [], .type, "Intersection", ["frozen_collections_core", "sets", "iterators", "Intersection"]⟩,
   ⟨["frozen_collections_core", "traits"], ["frozen_collections_core", "traits"], .type, "collection_magnitude", ["frozen_collections_core", "traits", "collection_magnitude"]⟩,
   ⟨["frozen_collections_core", "traits"], [], .type, "CollectionMagnitude", ["frozen_collections_core", "traits", "collection_magnitude", "CollectionMagnitude"]⟩,
   ⟨["frozen_collections_core", "traits"], [], .type, "LargeCollection", ["frozen_collections_core", "traits", "collection_magnitude", "LargeCollection"]⟩,
   ⟨["frozen_collections_core", "traits"], [], .type, "MediumCollection", ["frozen_collections_core", "traits", "collection_magnitude", "MediumCollection"]⟩,
   ⟨["frozen_collections_core", "traits"], [], .type, "SmallCollection", ["frozen_collections_core", "traits", "collection_magnitude", "SmallCollection"]⟩,
   ⟨["frozen_collections_core", "traits", "collection_magnitude"], [], .type, "CollectionMagnitude", ["frozen_collections_core", "traits", "collection_magnitude", "CollectionMagnitude"]⟩,
   ⟨["frozen_collections_core", "traits", "collection_magnitude"], [], .type, "LargeCollection", ["frozen_collections_core", "traits", "collection_magnitude", "LargeCollection"]⟩,
   ⟨["frozen_collections_core", "traits", "collection_magnitude"], [], .type, "MediumCollection", ["frozen_collections_core", "traits", "collection_magnitude", "MediumCollection"]⟩,
   ⟨["frozen_collections_core", "traits", "collection_magnitude"], [], .type, "SmallCollection", ["frozen_collections_core", "traits", "collection_magnitude", "SmallCollection"]⟩,
   ⟨["frozen_collections_core", "traits"], ["frozen_collections_core", "traits"], .type, "hasher", ["frozen_collections_core", "traits", "hasher"]⟩,
   ⟨["frozen_collections_core", "traits"], [], .type, "Hasher", ["frozen_collections_core", "traits", "hasher", "Hasher"]⟩,
   ⟨["frozen_collections_core", "traits", "hasher"], [], .type, "Hasher", ["frozen_collections_core", "traits", "hasher", "Hasher"]⟩,
   ⟨["frozen_collections_core", "traits"], ["frozen_collections_core", "traits"], .type, "len", ["frozen_collections_core", "traits", "len"]⟩,
   ⟨["frozen_collections_core", "traits"], [], .type, "Len", ["frozen_collections_core", "traits", "len", "Len"]⟩,
   ⟨["frozen_collections_core", "traits", "len"], [], .type, "Len", ["frozen_collections_core", "traits", "len", "Len"]⟩,
   ⟨["frozen_collections_core", "traits"], ["frozen_collections_core", "traits"], .type, "map", ["frozen_collections_core", "traits", "map"]⟩,
   ⟨["frozen_collections_core", "traits"], [], .type, "Map", ["frozen_collections_core", "traits", "map", "Map"]⟩,
   ⟨["frozen_collections_core", "traits", "map"], [], .type, "Map", ["frozen_collections_core", "traits", "map", "Map"]⟩,
   ⟨["frozen_collections_core", "traits"], ["frozen_collections_core", "traits"], .type, "map_extras", ["frozen_collections_core", "traits", "map_extras"]⟩,
   ⟨["frozen_collections_core", "traits"], [], .type, "MapExtras", ["frozen_collections_core", "traits", "map_extras", "MapExtras"]⟩,
   ⟨["frozen_collections_core", "traits", "map_extras"], [], .type, "MapExtras", ["frozen_collections_core", "traits", "map_extras", "MapExtras"]⟩,
   ⟨["frozen_collections_core", "traits"], ["frozen_collections_core", "traits"], .type, "map_iteration", ["frozen_collections_core", "traits", "map_iteration"]⟩,
   ⟨["frozen_collections_core", "traits"], [], .type, "MapIteration", ["frozen_collections_core", "traits", "map_iteration", "MapIteration"]⟩,
   ⟨["frozen_collections_core", "traits", "map_iteration"], [], .type, "MapIteration", ["frozen_collections_core", "traits", "map_iteration", "MapIteration"]⟩,
   ⟨["frozen_collections_core", "traits"], ["frozen_collections_core", "traits"], .type, "map_query", ["frozen_collections_core", "traits", "map_query"]⟩,
   ⟨["frozen_collections_core", "traits"], [], .type, "MapQuery", ["frozen_collections_core", "traits", "map_query", "MapQuery"]⟩,
   ⟨["frozen_collections_core", "traits", "map_query"], [], .type, "MapQuery", ["frozen_collections_core", "traits", "map_query", "MapQuery"]⟩,
   ⟨["frozen_collections_core", "traits"], ["frozen_collections_core", "traits"], .type, "scalar", ["frozen_collections_core", "traits", "scalar"]⟩,
   ⟨["frozen_collections_core", "traits"], [], .type, "Scalar", ["frozen_collections_core", "traits", "scalar", "Scalar"]⟩,
   ⟨["frozen_collections_core", "traits", "scalar"], [], .type, "Scalar", ["frozen_collections_core", "traits", "scalar", "Scalar"]⟩,
   ⟨["frozen_collections_core", "traits"], ["frozen_collections_core", "traits"], .type, "set", ["frozen_collections_core", "traits", "set"]⟩,
   ⟨["frozen_collections_core", "traits"], [], .type, "Set", ["frozen_collections_core", "traits", "set", "Set"]⟩,
   ⟨["frozen_collections_core", "traits", "set"], [], .type, "Set", ["frozen_collections_core", "traits", "set", "Set"]⟩,
   ⟨["frozen_collections_core", "traits"], ["frozen_collections_core", "traits"], .type, "set_extras", ["frozen_collections_core", "traits", "set_extras"]⟩,
   ⟨["frozen_collections_core", "traits"], [], .type, "SetExtras", ["frozen_collections_core", "traits", "set_extras", "SetExtras"]⟩,
   ⟨["frozen_collections_core", "traits", "set_extras"], [], .type, "SetExtras", ["frozen_collections_core", "traits", "set_extras", "SetExtras"]⟩,
   ⟨["frozen_collections_core", "traits"], ["frozen_collections_core", "traits"], .type, "set_iteration", ["frozen_collections_core", "traits", "set_iteration"]⟩,
   ⟨["frozen_collections_core", "traits"], [], .type, "SetIteration", ["frozen_collections_core", "traits", "set_iteration", "SetIteration"]⟩,
   ⟨["frozen_collections_core", "traits", "set_iteration"], [], .type, "SetIteration", ["frozen_collections_core", "traits", "set_iteration", "SetIteration"]⟩,
   ⟨["frozen_collections_core", "traits"], ["frozen_collections_core", "traits"], .type, "set_ops", ["frozen_collections_core", "traits", "set_ops"]⟩,
   ⟨["frozen_collections_core", "traits"], [], .type, "SetOps", ["frozen_collections_core", "traits", "set_ops", "SetOps"]⟩,
   ⟨["frozen_collections_core", "traits", "set_ops"], [], .type, "SetOps", ["frozen_collections_core", "traits", "set_ops", "SetOps"]⟩,
   ⟨["frozen_collections_core", "traits"], ["frozen_collections_core", "traits"], .type, "set_query", ["frozen_collections_core", "traits", "set_query"]⟩,
   ⟨["frozen_collections_core", "traits"], [], .type, "SetQuery", ["frozen_collections_core", "traits", "set_query", "SetQuery"]⟩,
   ⟨["frozen_collections_core", "traits", "set_query"], [], .type, "SetQuery", ["frozen_collections_core", "traits", "set_query", "SetQuery"]⟩,
   ⟨["frozen_collections_core"], [], .type, "macros", ["frozen_collections_core", "macros"]⟩,
   ⟨["frozen_collections_core", "macros"], ["frozen_collections_core", "macros"], .type, "derive_scalar_macro", ["frozen_collections_core", "macros", "derive_scalar_macro"]⟩,
   ⟨["frozen_collections_core", "macros"], [], .value, "derive_scalar_macro", ["frozen_collections_core", "macros", "derive_scalar_macro", "derive_scalar_macro"]⟩,
   ⟨["frozen_collections_core", "macros", "derive_scalar_macro"], [], .value, "derive_scalar_macro", ["frozen_collections_core", "macros", "derive_scalar_macro", "derive_scalar_macro"]⟩,
   ⟨["frozen_collections_core", "macros"], ["frozen_collections_core", "macros"], .type, "macro_api", ["frozen_collections_core", "macros", "macro_api"]⟩,
   ⟨["frozen_collections_core", "macros"], [], .value, "fz_hash_map_macro", ["frozen_collections_core", "macros", "macro_api", "fz_hash_map_macro"]⟩,
   ⟨["frozen_collections_core", "macros"], [], .value, "fz_ordered_map_macro", ["frozen_collections_core", "macros", "macro_api", "fz_ordered_map_macro"]⟩,
   ⟨["frozen_collections_core", "macros"], [], .value, "fz_string_map_macro", ["frozen_collections_core", "macros", "macro_api", "fz_string_map_macro"]⟩,
   ⟨["frozen_collections_core", "macros"], [], .value, "fz_scalar_map_macro", ["frozen_collections_core", "macros", "macro_api", "fz_scalar_map_macro"]⟩,
   ⟨["frozen_collections_core", "macros"], [], .value, "fz_hash_set_macro", ["frozen_collections_core", "macros", "macro_api", "fz_hash_set_macro"]⟩,
   ⟨["frozen_collections_core", "macros"], [], .value, "fz_ordered_set_macro", ["frozen_collections_core", "macros", "macro_api", "fz_ordered_set_macro"]⟩,
   ⟨["frozen_collections_core", "macros"], [], .value, "fz_string_set_macro", ["frozen_collections_core", "macros", "macro_api", "fz_string_set_macro"]⟩,
   ⟨["frozen_collections_core", "macros"], [], .value, "fz_scalar_set_macro", ["frozen_collections_core", "macros", "macro_api", "fz_scalar_set_macro"]⟩,
   ⟨["frozen_collections_core", "macros", "macro_api"], [], .value, "fz_hash_map_macro", ["frozen_collections_core", "macros", "macro_api", "fz_hash_map_macro"]⟩,
   ⟨["frozen_collections_core", "macros", "macro_api"], [], .value, "fz_ordered_map_macro", ["frozen_collections_core", "macros", "macro_api", "fz_ordered_map_macro"]⟩,
   ⟨["frozen_collections_core", "macros", "macro_api"], [], .value, "fz_string_map_macro", ["frozen_collections_core", "macros", "macro_api", "fz_string_map_macro"]⟩,
   ⟨["frozen_collections_core", "macros", "macro_api"], [], .value, "fz_scalar_map_macro", ["frozen_collections_core", "macros", "macro_api", "fz_scalar_map_macro"]⟩,
   ⟨["frozen_collections_core", "macros", "macro_api"], [], .value, "fz_hash_set_macro", ["frozen_collections_core", "macros", "macro_api", "fz_hash_set_macro"]⟩,
   ⟨["frozen_collections_core", "macros", "macro_api"], [], .value, "fz_ordered_set_macro", ["frozen_collections_core", "macros", "macro_api", "fz_ordered_set_macro"]⟩,
   ⟨["frozen_collections_core", "macros", "macro_api"], [], .value, "fz_string_set_macro", ["frozen_collections_core", "macros", "macro_api", "fz_string_set_macro"]⟩,
   ⟨["frozen_collections_core", "macros", "macro_api"], [], .value, "fz_scalar_set_macro", ["frozen_collections_core", "macros", "macro_api", "fz_scalar_set_macro"]⟩,
   ⟨["frozen_collections_core"], [], .type, "emit", ["frozen_collections_core", "emit"]⟩,
   ⟨["frozen_collections_core", "emit"], ["frozen_collections_core", "emit"], .type, "collection_emitter", ["frozen_collections_core", "emit", "collection_emitter"]⟩,
   ⟨["frozen_collections_core", "emit"], ["frozen_collections_core", "emit"], .type, "collection_entry", ["frozen_collections_core", "emit", "collection_entry"]⟩,
   ⟨["frozen_collections_core", "emit"], [], .type, "CollectionEmitter", ["frozen_collections_core", "emit", "collection_emitter", "CollectionEmitter"]⟩,
   ⟨["frozen_collections_core", "emit"], [], .type, "CollectionEntry", ["frozen_collections_core", "emit", "collection_entry", "CollectionEntry"]⟩,
   ⟨["frozen_collections_core", "emit"], ["frozen_collections_core"], .type, "NonLiteralKey", ["frozen_collections_core", "emit", "collection_entry", "NonLiteralKey"]⟩,
   ⟨["frozen_collections_core", "emit", "collection_emitter"], [], .type, "CollectionEmitter", ["frozen_collections_core", "emit", "collection_emitter", "CollectionEmitter"]⟩,
   ⟨["frozen_collections_core", "emit", "collection_entry"], [], .type, "CollectionEntry", ["frozen_collections_core", "emit", "collection_entry", "CollectionEntry"]⟩,
   ⟨["frozen_collections_core", "emit", "collection_entry"], ["frozen_collections_core"], .type, "NonLiteralKey", ["frozen_collections_core", "emit", "collection_entry", "NonLiteralKey"]⟩,
   ⟨["frozen_collections_macros"], [], .macro, "fz_hash_map", ["frozen_collections_macros", "fz_hash_map"]⟩,
   ⟨["frozen_collections_macros"], [], .macro, "fz_hash_set", ["frozen_collections_macros", "fz_hash_set"]⟩,
   ⟨["frozen_collections_macros"], [], .macro, "fz_ordered_map", ["frozen_collections_macros", "fz_ordered_map"]⟩,
   ⟨["frozen_collections_macros"], [], .macro, "fz_ordered_set", ["frozen_collections_macros", "fz_ordered_set"]⟩,
   ⟨["frozen_collections_macros"], [], .macro, "fz_string_map", ["frozen_collections_macros", "fz_string_map"]⟩,
   ⟨["frozen_collections_macros"], [], .macro, "fz_string_set", ["frozen_collections_macros", "fz_string_set"]⟩,
   ⟨["frozen_collections_macros"], [], .macro, "fz_scalar_map", ["frozen_collections_macros", "fz_scalar_map"]⟩,
   ⟨["frozen_collections_macros"], [], .macro, "fz_scalar_set", ["frozen_collections_macros", "fz_scalar_set"]⟩,
   ⟨["frozen_collections_macros"], [], .macro, "Scalar", ["frozen_collections_macros", "Scalar"]⟩,
   ⟨["foldhash"], [], .type, "fast", ["foldhash", "fast"]⟩,
   ⟨["foldhash", "fast"], [], .type, "FixedState", ["foldhash", "fast", "FixedState"]⟩,
   ⟨["foldhash", "fast"], [], .type, "RandomState", ["foldhash", "fast", "RandomState"]⟩,
   ⟨["core"], [], .macro, "compile_error", ["core", "compile_error"]⟩]

theorem closed_all : bindStep (crateLines (feats true true)) allNames ⊆ allNames := by
  have h : bindStep (crateLines (feats true true)) allNames = allNames := by decide +kernel
  rw [h]
  exact fun _ h => h

theorem functional_all : FunctionalTable allNames := functional_of_pairwise (by decide +kernel)

/-- The name depends on the feature `macros`. -/
def Binding.needsMacros (b : Binding) : Bool :=
  (b.ns == .macro && b.within == ["frozen_collections"]) || (b.name == "macros" && b.within == ["frozen_collections_core"]) ||
    ["frozen_collections_core", "macros"].isPrefixOf b.within

/-- The name depends on the feature `emit`. -/
def Binding.needsEmit (b : Binding) : Bool :=
  (b.name == "emit" && b.within == ["frozen_collections"]) || b.within == ["frozen_collections", "emit"]

theorem closed_no_macros : bindStep (crateLines (feats false true)) (allNames.filter (fun b => !b.needsMacros)) ⊆
    allNames.filter (fun b => !b.needsMacros) := by
  have h : bindStep (crateLines (feats false true)) (allNames.filter (fun b => !b.needsMacros)) = allNames.filter (fun b => !b.needsMacros) := by
    decide +kernel
  rw [h]
  exact fun _ h => h

theorem closed_no_emit : bindStep (crateLines (feats true false)) (allNames.filter (fun b => !b.needsEmit)) ⊆
    allNames.filter (fun b => !b.needsEmit) := by
  have h : bindStep (crateLines (feats true false)) (allNames.filter (fun b => !b.needsEmit)) = allNames.filter (fun b => !b.needsEmit) := by
    decide +kernel
  rw [h]
  exact fun _ h => h

/-- Names are public or visible inside their own crate only. -/
theorem scopes_all : ∀ b ∈ allNames, b.scope = [] ∨ ∃ rest, b.scope = b.within.take 1 ++ rest ∧ b.within ≠ [] := by
  have h : ∀ b ∈ allNames, b.scope = [] ∨ (b.scope = b.within.take 1 ++ b.scope.drop 1 ∧ b.within ≠ []) := by decide +kernel
  intro b hb
  rcases h b hb with h | h
  · exact .inl h
  · exact .inr ⟨_, h⟩

/-- The modules that the facade crate passes on. -/
def passedOn : List String := ["sets", "maps", "inline_maps", "inline_sets", "hashers", "hash_tables"]

theorem passedOn_lines : ∀ l ∈ crateLines (feats true true), ∀ m ∈ passedOn, l.within = ["frozen_collections", m] →
    l = ⟨["frozen_collections", m], [], .glob ["frozen_collections_core", m]⟩ := by decide +kernel

theorem passedOn_mem : ∀ m ∈ passedOn, (⟨["frozen_collections"], [], .mod m⟩ : Line) ∈ crateLines (feats false false) ∧
    (⟨["frozen_collections", m], [], .glob ["frozen_collections_core", m]⟩ : Line) ∈ crateLines (feats false false) ∧
    (⟨["frozen_collections_core"], [], .mod m⟩ : Line) ∈ crateLines (feats false false) := by decide +kernel

/-- The items that are meant for the core crate itself. -/
def internalItems : List (List String) :=
  [["frozen_collections_core", "hash_tables", "hash_table", "HashTable"], ["frozen_collections_core", "emit", "collection_entry", "NonLiteralKey"]]

theorem internal_all : ∀ b ∈ allNames, b.dfn ∈ internalItems → b.scope = ["frozen_collections_core"] ∨
    (b.within = ["frozen_collections_core", "hash_tables", "hash_table"] ∧ b.scope = []) := by decide +kernel

/-- Files are modules that only the module they stand in can see. -/
theorem hash_table_file : ∀ b ∈ allNames, b.dfn = ["frozen_collections_core", "hash_tables", "hash_table"] →
    b.scope = ["frozen_collections_core", "hash_tables"] := by decide +kernel

end Frozen.Props
