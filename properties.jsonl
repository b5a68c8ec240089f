{"id": "C01", "title": "Hash map lookup returns the last value given for a key", "statement": "For FzHashMap (and the crate's general HashMap) built from any list of entries with any hash function that is consistent with equality, get(q), get_key_value(q), contains_key(q) and get_mut(q) all answer according to the LAST entry of the input list whose key is equivalent to q, and answer None/false exactly when no entry matches. No lookup panics or reads outside the table.", "quantifier": "all entry lists, all hash functions consistent with equality (including constant ones), all query keys, all collection magnitudes", "why_tests_cant": "Tests use a few key sets and one seeded hasher; the claim ranges over all hash functions, hence all collision patterns.", "anchors": ["frozen-collections-core/src/fz_maps/fz_hash_map.rs: FzHashMap::with_hasher", "frozen-collections-core/src/maps/hash_map.rs: HashMap::with_hasher, from_dedupped", "frozen-collections-core/src/hash_tables/hash_table.rs: HashTable::new", "frozen-collections-core/src/hash_tables/decl_macros.rs: find, find_mut", "frozen-collections-core/src/maps/decl_macros.rs: hash_primary_funcs"]}
{"id": "C02", "title": "Ordered map lookup returns the last value given for a key", "statement": "For FzOrderedMap (and EytzingerSearchMap) built from any list of entries under any total order, get/get_key_value/contains_key/get_mut answer according to the LAST input entry comparing equal to the query, and None/false exactly when no entry compares equal.", "quantifier": "all entry lists, all lawful total orders on keys, all query types ordered consistently with the keys, all queries", "why_tests_cant": "The search is an implicit-tree walk whose correctness depends on an arithmetic layout formula for every length n.", "anchors": ["frozen-collections-core/src/fz_maps/fz_ordered_map.rs: FzOrderedMap::new", "frozen-collections-core/src/maps/eytzinger_search_map.rs", "frozen-collections-core/src/utils/eytzinger.rs: eytzinger_layout, eytzinger_search_by"]}
{"id": "C03", "title": "Scalar map lookup returns the last value given for a key", "statement": "For FzScalarMap built from any list of entries whose keys' indices do not span the entire 2^64 range, get/get_key_value/contains_key/get_mut answer according to the LAST input entry whose key is equal to the query, whichever internal representation (dense, sparse, hashed) the analyzer picked, with no panic and no out-of-bounds access.", "quantifier": "all entry lists, all scalar key types whose index is strictly monotone, all queries (including far outside the key range)", "why_tests_cant": "Three representations selected by data-dependent analysis; unchecked indexing is used in two of them.", "anchors": ["frozen-collections-core/src/fz_maps/fz_scalar_map.rs: FzScalarMap::new", "frozen-collections-core/src/analyzers/scalar_key_analyzer.rs", "frozen-collections-core/src/maps/dense_scalar_lookup_map.rs", "frozen-collections-core/src/maps/sparse_scalar_lookup_map.rs", "frozen-collections-core/src/maps/decl_macros.rs"]}
{"id": "C04", "title": "String map lookup returns the last value given for a key", "statement": "For FzStringMap built from any list of string entries with any byte-slice hash function, get/get_key_value/contains_key/get_mut answer according to the LAST input entry whose key equals the query string, whichever hashing strategy (whole key, left subslice, right subslice) the analyzer picked, for query strings of any length including shorter than the hashed range.", "quantifier": "all lists of (string, value) entries, all hash functions on byte slices, all query strings", "why_tests_cant": "The hashed sub-range is data dependent; queries shorter than the range take a separate code path.", "anchors": ["frozen-collections-core/src/fz_maps/fz_string_map.rs: FzStringMap::with_hasher", "frozen-collections-core/src/analyzers/slice_key_analyzer.rs", "frozen-collections-core/src/hashers/left_range_hasher.rs", "frozen-collections-core/src/hashers/right_range_hasher.rs"]}
{"id": "C05", "title": "Map length is the number of distinct keys", "statement": "len() of every frozen map equals the number of distinct keys in the construction input, and is_empty() is len()==0.", "quantifier": "all entry lists, all map types (hash, ordered, scalar, string, scan)", "why_tests_cant": "Depends on deduplication being exact for every input.", "anchors": ["frozen-collections-core/src/maps/decl_macros.rs: common_primary_funcs", "frozen-collections-core/src/utils/dedup.rs"]}
{"id": "C06", "title": "Iteration visits each key exactly once with its last value", "statement": "iter()/keys()/values()/into_iter() of every frozen map yield, in some order, exactly one entry per distinct input key, namely the last input entry for that key (key object and value).", "quantifier": "all entry lists and all map types", "why_tests_cant": "Requires permutation reasoning over rehash/sort/layout steps for all sizes.", "anchors": ["frozen-collections-core/src/maps/iterators.rs", "frozen-collections-core/src/maps/decl_macros.rs: common_primary_funcs"]}
{"id": "C07", "title": "The three deduplication strategies agree on keep-last", "statement": "Equality-based and hash-based deduplication return exactly the sub-list of the input made of the last occurrence of every key, in input order; comparison-based deduplication and sort-and-dedup return the same entries in ascending key order. None panics.", "quantifier": "all lists, all equivalence relations, all consistent hashes, all total orders, any hash-set implementation that meets its lookup contract", "why_tests_cant": "Index bookkeeping over arbitrary duplicate patterns.", "anchors": ["frozen-collections-core/src/utils/dedup.rs: DeduppedVec::using_eq, using_cmp, using_hash, SortedAndDeduppedVec::new"]}
{"id": "C08", "title": "has_duplicates detects duplicates exactly", "statement": "has_duplicates(list) is true iff two different positions of the list hold equal elements.", "quantifier": "all lists, all equality tests", "why_tests_cant": "The answer guards an unsafe function that hands out several mutable references; it must be exact for every array.", "anchors": ["frozen-collections-core/src/utils/dedup.rs: has_duplicates"]}
{"id": "C09", "title": "Eytzinger layout is a panic-free permutation equal to the BFS order of the search tree", "statement": "For every n below half the range of usize (every slice whose elements have a size), laying out a slice of n elements terminates without panic, arithmetic overflow or underflow, and puts at position i the element whose sorted rank is the in-order rank of node i in the complete binary tree of n nodes; in particular the result is a permutation of the input.", "quantifier": "all lengths n, all element lists", "why_tests_cant": "An in-place cyclic permutation with an auxiliary map and bit-trick index formula; correctness for all n needs induction.", "anchors": ["frozen-collections-core/src/utils/eytzinger.rs: eytzinger_layout, get_eytzinger_index"]}
{"id": "C10", "title": "Eytzinger search is exact and logarithmic", "statement": "Searching a laid-out strictly ascending list returns the position of the matching element if one exists and None otherwise, and performs at most floor(log2 n)+1 comparisons.", "quantifier": "all strictly ascending lists, all monotone comparison functions", "why_tests_cant": "Needs the binary-search-tree invariant of the layout for every n.", "anchors": ["frozen-collections-core/src/utils/eytzinger.rs: eytzinger_search_by"]}
{"id": "C11", "title": "Hash table lookup never goes out of bounds", "statement": "For any table built by the hash table constructor, any 64-bit hash code and any predicate, find and find_mut stay inside the slot and entry arrays (every unchecked access is in bounds) and return exactly the first stored entry in the bucket of that hash which satisfies the predicate.", "quantifier": "all entry lists, all hash functions (even inconsistent), all 64-bit query hashes, all predicates, all unstable sort results", "why_tests_cant": "Memory safety of unchecked indexing must hold for all inputs.", "anchors": ["frozen-collections-core/src/hash_tables/hash_table.rs", "frozen-collections-core/src/hash_tables/decl_macros.rs"]}
{"id": "C12", "title": "Hash code analysis yields a usable power-of-two slot count", "statement": "For every non-empty list of hash codes the analysis terminates without panic, and returns a slot count that is a power of two, at least 1 and at most the documented maximum, together with the number of collisions, where that number is exactly the number of codes minus the number of distinct slots used.", "quantifier": "all non-empty lists of 64-bit hash codes up to the maximum possible Vec length", "why_tests_cant": "Nested loops with early exits; claim is about every code list.", "anchors": ["frozen-collections-core/src/analyzers/hash_code_analyzer.rs: analyze_hash_codes"]}
{"id": "C13", "title": "Hash masking agrees with modulo slot assignment", "statement": "The slot in which an entry is stored at construction (hash modulo slot count) is the slot inspected on lookup (hash AND mask) for every 64-bit hash.", "quantifier": "all 64-bit hash codes, all tables", "why_tests_cant": "Depends on the slot count always being a power of two.", "anchors": ["frozen-collections-core/src/hash_tables/hash_table.rs: HashTable::new", "frozen-collections-core/src/hash_tables/decl_macros.rs"]}
{"id": "C14", "title": "Collection magnitude is enforced, never truncated", "statement": "Building a hash map/table with a given magnitude fails with an error iff the number of distinct entries exceeds the magnitude's capacity; on success no stored index is truncated.", "quantifier": "all entry lists and all three magnitudes", "why_tests_cant": "Tests cover single boundary sizes only; truncation would only appear for specific sizes.", "anchors": ["frozen-collections-core/src/hash_tables/hash_table.rs: HashTable::new", "frozen-collections-core/src/traits/collection_magnitude.rs"]}
{"id": "C15", "title": "Scalar index is an order embedding", "statement": "For every built-in integer type of width w<=64, signed or unsigned (including the sign-bit XOR trick), index() is injective, strictly monotone, at most 2^w-1, and consecutive values have consecutive indices.", "quantifier": "all widths up to 64 bits and all pairs of values", "why_tests_cant": "Exhaustive testing of 64-bit values is impossible.", "anchors": ["frozen-collections-core/src/traits/scalar.rs: impl_unsigned_scalar, impl_signed_scalar, NonZero variants"]}
{"id": "C16", "title": "derive(Scalar) yields dense indices or a compile error", "statement": "For any enum accepted by the derive macro, variant number i gets index i, so that index is strictly monotone in declaration order and covers 0..n; the macro is rejected exactly when the input is not an enum, has no variants, has a variant with fields or has an explicit discriminant.", "quantifier": "all enum declarations", "why_tests_cant": "Ranges over all programs given to the macro.", "anchors": ["frozen-collections-core/src/macros/derive_scalar_macro.rs: derive_scalar_macro"]}
{"id": "C17", "title": "Scalar key analysis picks a representation that is valid and bounded", "statement": "For keys not spanning the whole 2^64 range: dense is chosen iff distinct keys fill the range min..=max; sparse only if the lookup table has at most max(128, 10*count) slots; general otherwise; and there is no panic.", "quantifier": "all non-empty lists of distinct keys", "why_tests_cant": "Decision boundaries over 64-bit ranges.", "anchors": ["frozen-collections-core/src/analyzers/scalar_key_analyzer.rs: analyze_scalar_keys"]}
{"id": "C18", "title": "Scalar map construction never fails", "statement": "FzScalarMap::new succeeds for every list of entries (in particular for entries containing both the smallest and the largest 64-bit key).", "quantifier": "all entry lists, debug and release arithmetic", "why_tests_cant": "The failing input is a single pair of extreme keys that no test includes.", "anchors": ["frozen-collections-core/src/analyzers/scalar_key_analyzer.rs: analyze_scalar_keys", "frozen-collections-core/src/maps/sparse_scalar_lookup_map.rs: from_sorted_and_dedupped"]}
{"id": "C19", "title": "Dense scalar map construction succeeds iff keys are contiguous", "statement": "DenseScalarLookupMap::new returns Ok iff the distinct keys form a contiguous range (or are empty), and then looks up correctly; otherwise it returns an error, for keys not spanning the whole 2^64 range.", "quantifier": "all entry lists", "why_tests_cant": "Boundary behaviour over all ranges.", "anchors": ["frozen-collections-core/src/maps/dense_scalar_lookup_map.rs: DenseScalarLookupMap::new"]}
{"id": "C20", "title": "Slice analysis returns ranges that are valid for every key", "statement": "If key analysis selects a left or right sub-slice range, then every key is long enough to contain it, range start < end, the hashed sub-slices collide on at most n/20 keys, and the sub-slice used by the analyzer is the one the corresponding hasher later hashes. No slice access in the analysis panics.", "quantifier": "all lists of byte slices, all hash functions", "why_tests_cant": "Index arithmetic on prefix/suffix lengths for arbitrary key sets (empty keys, identical keys, differing lengths).", "anchors": ["frozen-collections-core/src/analyzers/slice_key_analyzer.rs: analyze_slice_keys, analyze_subslices, is_sufficiently_unique"]}
{"id": "C21", "title": "Length analysis accepts exactly near-unique lengths", "statement": "Key-length hashing is selected exactly when no length is shared by more than max(1, n/20) keys.", "quantifier": "all lists of keys", "why_tests_cant": "Counting claim over all multisets of lengths.", "anchors": ["frozen-collections-core/src/analyzers/slice_key_analyzer.rs: analyze_lengths"]}
{"id": "C22", "title": "Hashers are total and equal on equal keys", "statement": "Every hasher in the crate (bridge, length, scalar, left range, right range, and their inline const-generic forms) returns a value without panic for any query value of any length, returns the same value for equal values, and the inline forms compute the same value as the runtime forms.", "quantifier": "all values, all ranges with start<=end, all underlying hash functions", "why_tests_cant": "Out-of-range slices would only fail on specific query lengths.", "anchors": ["frozen-collections-core/src/hashers/left_range_hasher.rs", "frozen-collections-core/src/hashers/right_range_hasher.rs", "frozen-collections-core/src/hashers/inline_left_range_hasher.rs", "frozen-collections-core/src/hashers/inline_right_range_hasher.rs", "frozen-collections-core/src/hashers/length_hasher.rs", "frozen-collections-core/src/hashers/scalar_hasher.rs", "frozen-collections-core/src/hashers/bridge_hasher.rs"]}
{"id": "C23", "title": "get_disjoint_mut returns what get_mut returns and never aliases", "statement": "get_disjoint_mut(keys) panics if two of the keys are equal; otherwise it returns for each key what get_mut returns, and all returned mutable references are to pairwise different entries.", "quantifier": "all maps, all arrays of query keys", "why_tests_cant": "Aliasing &mut is undefined behaviour and has to be excluded for every query type and array.", "anchors": ["frozen-collections-core/src/maps/decl_macros.rs: get_disjoint_mut_funcs", "frozen-collections-core/src/utils/dedup.rs: has_duplicates"]}
{"id": "C24", "title": "Frozen maps behave like a fixed-key dictionary under any operation history", "statement": "Starting from any constructed map, any sequence of get/contains_key/get_mut-and-write/iter_mut-and-write/values_mut/get_disjoint_mut operations gives the same answers as a plain dictionary holding the last-wins input entries, and never changes the key set, the number of entries or the order of iteration.", "quantifier": "all maps and all finite operation histories", "why_tests_cant": "Infinite space of histories.", "anchors": ["frozen-collections-core/src/maps/decl_macros.rs", "frozen-collections-core/src/maps/iterators.rs: IterMut, ValuesMut"]}
{"id": "C25", "title": "Map equality is extensional", "statement": "For two frozen maps (of possibly different types) with lawful keys, m1 == m2 iff both have the same set of keys with equal values; in particular == is reflexive, symmetric and transitive and independent of construction order.", "quantifier": "all pairs of maps", "why_tests_cant": "Only one direction of containment is checked by the code; correctness needs a counting argument.", "anchors": ["frozen-collections-core/src/maps/decl_macros.rs: partial_eq_trait_funcs"]}
{"id": "C26", "title": "Set union yields every element of either set exactly once", "statement": "a.union(&b) yields each element that is in a or b exactly once and nothing else, whatever the two set types and sizes.", "quantifier": "all pairs of sets", "why_tests_cant": "The iteration strategy switches on relative size.", "anchors": ["frozen-collections-core/src/sets/iterators.rs: Union", "frozen-collections-core/src/traits/set_ops.rs"]}
{"id": "C27", "title": "Set intersection, difference and symmetric difference are exact", "statement": "a.intersection(&b), a.difference(&b), a.symmetric_difference(&b) yield exactly the mathematically defined elements, each once.", "quantifier": "all pairs of sets", "why_tests_cant": "Size-dependent strategy and chained iterators; for all sets.", "anchors": ["frozen-collections-core/src/sets/iterators.rs: Intersection, Difference, SymmetricDifference"]}
{"id": "C28", "title": "Set operation size hints bracket the number of remaining elements", "statement": "At every point during iteration of a set-operation iterator, size_hint's lower bound is at most, and its upper bound at least, the number of elements still to be yielded.", "quantifier": "all pairs of sets and all points of the iteration", "why_tests_cant": "Mid-iteration hints are never tested.", "anchors": ["frozen-collections-core/src/sets/iterators.rs: size_hint"]}
{"id": "C29", "title": "Subset, superset and disjointness tests are exact", "statement": "a.is_subset(&b) iff every element of a is in b; a.is_superset(&b) iff every element of b is in a; a.is_disjoint(&b) iff they share no element.", "quantifier": "all pairs of sets", "why_tests_cant": "Size shortcuts need a pigeonhole argument.", "anchors": ["frozen-collections-core/src/traits/set_ops.rs: is_subset, is_superset, is_disjoint"]}
{"id": "C30", "title": "Set equality is extensional", "statement": "For two frozen sets, a == b iff they have exactly the same elements.", "quantifier": "all pairs of sets", "why_tests_cant": "Code only checks lengths and one inclusion.", "anchors": ["frozen-collections-core/src/sets/decl_macros.rs: partial_eq_trait_funcs"]}
{"id": "C31", "title": "Bit operators compute set algebra", "statement": "a|b, a&b, a^b, a-b build hash sets containing exactly the union, intersection, symmetric difference and difference, and satisfy the usual algebraic laws.", "quantifier": "all pairs of sets", "why_tests_cant": "Composition of iterators and collection for all inputs.", "anchors": ["frozen-collections-core/src/sets/decl_macros.rs: bitor/bitand/bitxor/sub trait funcs"]}
{"id": "C32", "title": "Sets contain exactly the input elements", "statement": "For each frozen set type: contains(q) is true iff some input element is equivalent to q, get(q) returns the last such element, contains and get agree, len is the number of distinct elements, and iteration yields each once.", "quantifier": "all input lists and queries, all four set types", "why_tests_cant": "As for maps.", "anchors": ["frozen-collections-core/src/fz_sets/fz_hash_set.rs", "frozen-collections-core/src/fz_sets/fz_ordered_set.rs", "frozen-collections-core/src/fz_sets/fz_scalar_set.rs", "frozen-collections-core/src/fz_sets/fz_string_set.rs"]}
{"id": "C33", "title": "Indexing panics exactly on absent keys", "statement": "map[&q] returns the same value as get(&q) when present and panics iff get(&q) is None.", "quantifier": "all maps and queries", "why_tests_cant": "Universal over maps and queries.", "anchors": ["frozen-collections-core/src/maps/decl_macros.rs: index_trait_funcs"]}
{"id": "C34", "title": "Serialization round-trips", "statement": "Deserializing the serialized form of any frozen map or set yields a map/set equal to the original (same keys and values).", "quantifier": "all frozen maps and sets, all serializers that transport sequences of entries faithfully", "why_tests_cant": "All contents; the rebuilt collection may choose another layout.", "anchors": ["frozen-collections-core/src/maps/decl_macros.rs: serialize_trait_funcs", "frozen-collections-core/src/fz_maps/*.rs: visit_map", "frozen-collections-core/src/fz_sets/*.rs: visit_seq"]}
{"id": "C35", "title": "All construction routes agree", "statement": "new(vec), From<[_; N]>, FromIterator and deserialization of the same entry sequence produce maps/sets with the same observable content; for entry lists with distinct keys the content is independent of the order of entries.", "quantifier": "all entry lists and permutations", "why_tests_cant": "Permutation invariance cannot be enumerated.", "anchors": ["frozen-collections-core/src/fz_maps/*.rs: From, FromIterator, visit_map"]}
{"id": "C36", "title": "Default collections are empty", "statement": "A default-constructed map or set of any type has length 0, yields nothing and answers None/false to every query without panic or out-of-bounds access.", "quantifier": "all queries (all 64-bit hashes/indices)", "why_tests_cant": "Uses sentinel bounds with unchecked accesses; must hold for all queries.", "anchors": ["frozen-collections-core/src/hash_tables/hash_table.rs: Default", "frozen-collections-core/src/maps/dense_scalar_lookup_map.rs: Default", "frozen-collections-core/src/maps/sparse_scalar_lookup_map.rs: Default"]}
{"id": "C37", "title": "Macro-emitted literal collections behave like the entries written", "statement": "For any literal-key fz_* macro invocation, the emitted inline collection (scan, ordered, dense, sparse, hash with or without collisions) looks up exactly as the last-wins dictionary of the entries, with every unchecked access in bounds.", "quantifier": "all entry lists, all four key categories, all hash functions", "why_tests_cant": "Macro inputs are unbounded; emission thresholds select between six representations.", "anchors": ["frozen-collections-core/src/emit/collection_emitter.rs", "frozen-collections-core/src/emit/generator.rs", "frozen-collections-core/src/inline_maps/*.rs", "frozen-collections-core/src/hash_tables/inline_hash_table*.rs"]}
{"id": "C38", "title": "Emitted tables are well-typed for the chosen magnitude", "statement": "In emitted code every slot/lookup literal fits the integer type selected for the collection and every const-generic array length equals the number of elements emitted.", "quantifier": "all entry lists", "why_tests_cant": "Off-by-one at 255/65535 appear only at exact sizes.", "anchors": ["frozen-collections-core/src/emit/generator.rs: collection_magnitude, gen_inline_sparse, gen_inline_hash_table_components"]}
{"id": "C39", "title": "Non-literal macro invocations accept duplicate keys like the Fz types do", "statement": "An fz_* macro invoked with non-literal keys yields a collection with last-wins semantics for every number of entries, even when several keys evaluate to equal values at run time.", "quantifier": "all entry lists including those with duplicate keys", "why_tests_cant": "Behaviour depends on the number of entries and run-time equality.", "anchors": ["frozen-collections-core/src/emit/collection_emitter.rs: emit_hash_collection_expr, emit_ordered_collection_expr, emit_scalar_collection_expr, emit_string_collection_expr", "frozen-collections-core/src/inline_maps/inline_scan_map.rs: new", "frozen-collections-core/src/inline_maps/inline_eytzinger_search_map.rs: new", "frozen-collections-core/src/utils/dedup.rs: into_array"]}
{"id": "C40", "title": "Emitted numeric literals keep their value", "statement": "Inserting digit-group underscores into an emitted integer literal changes neither its digits nor its suffix, and never produces a literal that starts with an underscore.", "quantifier": "all digit strings and suffixes", "why_tests_cant": "All numbers.", "anchors": ["frozen-collections-core/src/emit/generator.rs: inject_underscores"]}
{"id": "C41", "title": "Emitter option validation is complete", "statement": "Emission fails iff: static and mutable both requested; static without a symbol name; mutable without a symbol name; or an alias without a symbol name; and a static collection is emitted without lazy initialisation only if both keys and values are constant.", "quantifier": "all combinations of emitter options", "why_tests_cant": "Claim on the interplay of all options.", "anchors": ["frozen-collections-core/src/emit/collection_emitter.rs: preflight, postflight"]}
{"id": "C42", "title": "Macro key classification is sound", "statement": "A macro call is rejected exactly when one of its keys is a malformed literal (an unknown integer suffix), a literal of a kind the macro does not take, or an integer literal whose suffix disagrees with an earlier one; otherwise the call is treated as all-integer-literals of type T iff every key is an integer literal with suffix T or none (and T occurs or no suffix occurs at all), as all-string-literals iff every key is a string literal, and as computed keys otherwise. The value of a literal is never misread.", "quantifier": "all sequences of literal/non-literal keys and all macro kinds", "why_tests_cant": "Unbounded sequences with order-dependent state.", "anchors": ["frozen-collections-core/src/macros/processor.rs: assess_keys, eval_literal_expr"]}
{"id": "C43", "title": "The collision bitmap is a set", "statement": "After clearing, the bit vector used by the hash code analysis reports index i set iff i was set since, for all indices within its capacity, without out-of-bounds access.", "quantifier": "all capacities, all index sequences", "why_tests_cant": "Word/bit arithmetic on all indices; initial contents are not zero.", "anchors": ["frozen-collections-core/src/utils/bitvec.rs"]}
{"id": "C44", "title": "Map and set iterators are exact-size and fused", "statement": "At every point of iterating a map or set, the reported length equals the number of items still to come, count/fold agree with repeated next, and after None the iterator keeps returning None.", "quantifier": "all collections and all points of the iteration", "why_tests_cant": "All prefixes of all iterations.", "anchors": ["frozen-collections-core/src/maps/iterators.rs", "frozen-collections-core/src/sets/iterators.rs: Iter, IntoIter"]}
{"id": "C45", "title": "Scan map lookup returns the last value given for a key", "statement": "For ScanMap built from any list of entries, get/get_key_value/contains_key/get_mut answer according to the last entry whose key is equivalent to the query; for raw inline scan maps with duplicate keys the last stored entry wins too.", "quantifier": "all entry lists, all queries", "why_tests_cant": "Universal over lists.", "anchors": ["frozen-collections-core/src/maps/scan_map.rs", "frozen-collections-core/src/maps/decl_macros.rs: scan_primary_funcs"]}
{"id": "C46", "title": "Construction of hash, ordered, string and scan collections never panics", "statement": "FzHashMap/FzOrderedMap/FzStringMap/ScanMap construction returns normally for every entry list representable in memory.", "quantifier": "all entry lists with fewer than 2^60 entries", "why_tests_cant": "unwrap() calls and index arithmetic must be shown unreachable for all inputs.", "anchors": ["frozen-collections-core/src/fz_maps/*.rs", "frozen-collections-core/src/maps/*.rs", "frozen-collections-core/src/hash_tables/hash_table.rs", "frozen-collections-core/src/analyzers/*.rs"]}
{"id": "C47", "title": "Deserialization does not trust the announced number of entries", "statement": "Deserializing a map or set from input that announces a wrong number of entries does not panic; the result depends only on the entries actually present.", "quantifier": "all inputs and all announced lengths", "why_tests_cant": "Round-trip tests always announce the right length; the claim ranges over hostile inputs.", "anchors": ["frozen-collections-core/src/fz_maps/*.rs: visit_map", "frozen-collections-core/src/fz_sets/*.rs: visit_seq"]}
{"id": "C48", "title": "String macros compile for every declared key type", "statement": "A long-form fz_string_map!/fz_string_set! call with computed string keys compiles for every declared key type the documentation allows (such as &'static str), whatever the number of entries.", "quantifier": "all declared key types, all numbers of entries", "why_tests_cant": "Which constructor is emitted depends on the number of entries and on the key type; a test covers one combination, and a call that does not compile cannot be in the test suite.", "anchors": ["frozen-collections-core/src/emit/collection_emitter.rs: emit_string_collection_expr", "frozen-collections-core/src/emit/generator.rs: gen_fz_string", "frozen-collections-core/src/fz_maps/fz_string_map.rs: impl FzStringMap<Box<str>, V>"]}
{"id": "C49", "title": "Integer literal keys keep fitting the declared key type", "statement": "If every integer literal key of a long-form macro call can stand for a value of the declared key type as written, then the literals of the generated code can, too.", "quantifier": "all lists of integer literals with or without suffix, all declared integer key types", "why_tests_cant": "Depends on the combination of suffixes over the whole list and the declared type.", "anchors": ["frozen-collections-core/src/macros/processor.rs: handle_literal_scalar_keys, assess_keys"]}
{"id": "C50", "title": "Lookups are memory safe for every trait implementation", "statement": "Whatever (safe, possibly unlawful) implementations of Eq, Ord, Hash, Equivalent, Comparable and Scalar the keys and queries have, no lookup, indexing or comparison on a map built by any constructor of the crate, or by code it emitted, accesses memory out of bounds, also after values have been changed through mutable references; the reference returned by get_mut points at an entry of the map.", "quantifier": "all trait implementations that are functions of their arguments (no law assumed), all entry lists, all sequences of stores, all queries", "why_tests_cant": "The unchecked accesses are guarded by values computed from user-supplied trait functions; tests use lawful keys, and an out-of-bounds read usually goes unnoticed.", "anchors": ["frozen-collections-core/src/maps/decl_macros.rs: dense_scalar_lookup_primary_funcs, sparse_scalar_lookup_primary_funcs, eytzinger_search_primary_funcs", "frozen-collections-core/src/hash_tables/decl_macros.rs: hash_table_funcs", "frozen-collections-core/src/hash_tables/inline_hash_table_no_collisions.rs: find, find_mut", "frozen-collections-core/src/emit/generator.rs"]}
{"id": "C51", "title": "Memory safety does not depend on trait functions repeating their answers", "statement": "Even if Scalar::index or Hash of a key gives a different answer at every call (a safe implementation can, through interior mutability or global state), lookups on the resulting map never access memory out of bounds.", "quantifier": "all sequences of answers of the trait function during construction, all entry lists, all queries", "why_tests_cant": "No test key changes its index during construction; the defect is undefined behaviour in safe code.", "anchors": ["frozen-collections-core/src/maps/dense_scalar_lookup_map.rs: new, from_sorted_and_dedupped", "frozen-collections-core/src/maps/sparse_scalar_lookup_map.rs: from_sorted_and_dedupped", "frozen-collections-core/src/hash_tables/hash_table.rs: new", "frozen-collections-core/src/fz_maps/fz_scalar_map.rs: new"]}
{"id": "C52", "title": "The safe raw constructors of the inline maps cannot break memory safety", "statement": "InlineScanMap, InlineEytzingerSearchMap, InlineDenseScalarLookupMap, InlineSparseScalarLookupMap, InlineHashMap and InlineHashMapNoCollisions built with their safe public functions new_raw, from any arguments, never access memory out of bounds on lookup.", "quantifier": "all arguments of new_raw, all queries", "why_tests_cant": "Tests call new_raw only with arguments computed by the generator.", "anchors": ["frozen-collections-core/src/inline_maps/*.rs: new_raw", "frozen-collections-core/src/hash_tables/inline_hash_table.rs: new_raw", "frozen-collections-core/src/hash_tables/inline_hash_table_no_collisions.rs: new_raw"]}
{"id": "C53", "title": "String-key analysis selects a shortest adequate sub-slice", "statement": "When a string-keyed collection hashes only a part of each key, that part is as short as possible: no other part (counted from either end) that is contained in all keys and yields at most n/20 duplicate hashes is shorter. It falls back to hashing whole keys only if every such part is longer than 16 bytes or is the whole key.", "quantifier": "all lists of keys, all hash functions without collisions on the parts of these keys", "why_tests_cant": "An optimality claim over all ranges; a wrong skip of common prefixes or suffixes only costs speed and goes unnoticed.", "anchors": ["frozen-collections-core/src/analyzers/slice_key_analyzer.rs: analyze_slice_keys, analyze_subslices, is_sufficiently_unique"]}
{"id": "C54", "title": "Ordered, scalar and string collections do not depend on the order of the input", "statement": "Two inputs that give the same last entry for every key, in whatever order and with whatever overridden duplicates, yield identical ordered, scalar and string maps (same representation, hence same iteration order and serialized form), and identical generated code when given to the emitter. For hash maps the iteration order can depend on the order of the input.", "quantifier": "all pairs of inputs that give the same last entry for every key, all lawful key orders, all hash functions", "why_tests_cant": "Relates every pair of reordered inputs; the tests build each collection from one order and mostly compare lookups.", "anchors": ["frozen-collections-core/src/utils/dedup.rs: SortedAndDeduppedVec::new, DeduppedVec::using_hash", "frozen-collections-core/src/fz_maps/fz_ordered_map.rs: FzOrderedMap::new", "frozen-collections-core/src/fz_maps/fz_scalar_map.rs: FzScalarMap::new", "frozen-collections-core/src/fz_maps/fz_string_map.rs: FzStringMap::with_hasher", "frozen-collections-core/src/emit/collection_emitter.rs: emit_ordered_collection, emit_scalar_collection, emit_string_collection"]}
{"id": "C55", "title": "Static collections written with a macro are accepted by the compiler whatever their values", "statement": "A macro call that declares a static collection expands to an item whose initializer is a constant expression or is evaluated lazily: value expressions that are not constant are fine, as they are in let statements and in calls with computed keys.", "quantifier": "all macro calls (form, kind, keys, values), all assignments of which key and value expressions are constant", "why_tests_cant": "An expansion that does not compile cannot be part of the test suite; all tests use constant values.", "anchors": ["frozen-collections-core/src/macros/processor.rs: process, handle_literal_scalar_keys, handle_literal_string_keys", "frozen-collections-core/src/emit/collection_emitter.rs: postflight, const_keys, const_values", "frozen-collections-core/src/emit/generator.rs"]}
{"id": "C56", "title": "Macro calls are read as they are written", "statement": "A call of a collection macro that has one of the documented forms (short form; let, let mut, static with a visibility; trailing comma or not) is read as what is written: the entries in order, the declared name, alias, types and visibility. Every other call is rejected, no call can be read in two ways, and what is declared by the expansion is the alias and variable named in the call, with the visibility of the call.", "quantifier": "all token sequences, for any behaviour of the parsers for expressions, types and module paths, all meanings of key and value expressions", "why_tests_cant": "There are infinitely many token sequences; tests show some accepted calls and a few rejected ones, not that everything else is rejected nor that accepted calls mean what they say.", "anchors": ["frozen-collections-core/src/macros/parsing/*.rs", "frozen-collections-core/src/macros/macro_api.rs", "frozen-collections-core/src/emit/collection_emitter.rs: postflight"]}
{"id": "C57", "title": "Generated code works on the target it is compiled for", "statement": "A collection of literal keys written with a macro (or emitted by a build script) compiles and finds its keys on the target platform, also when the target has another pointer width or other hash values than the machine the code is generated on.", "quantifier": "all macro calls and emitter inputs, all hash functions of host and target, integer types on 64-bit hosts and 32-bit targets", "why_tests_cant": "Tests generate and run code on the same machine.", "anchors": ["frozen-collections-core/src/emit/generator.rs: gen_inline_hash, gen_inline_dense_scalar_lookup, gen_inline_sparse_scalar_lookup", "frozen-collections-core/src/emit/collection_emitter.rs: emit_hash_collection, emit_string_collection, emit_scalar_collection", "frozen-collections-core/src/traits/scalar.rs: impl_signed_scalar"]}
{"id": "C58", "title": "Lookups call the user's traits as sparingly as promised", "statement": "A lookup hashes its query (or asks for its index) at most once. In a hash or string map it then compares the query only with stored keys in the same slot, one after the other until the first match, so at most one more comparison than there are collisions among the stored keys; with fewer than 128 keys that some power of two between twice and ten times their number separates, at most one comparison is made. Sorted maps make at most floor(log2 n)+1 comparisons and never hash; scalar maps whose keys span fewer than 128 indices never compare keys at all; scan maps compare every stored key exactly once.", "quantifier": "all maps the constructors can build from any entries, all queries, all hash functions, equalities and orders (lawful or not, except scalars); inline maps with any contents", "why_tests_cant": "The number of calls depends on the hash function and on the keys; tests observe answers, not the calls made to compute them, and benchmarks sample a few inputs.", "anchors": ["frozen-collections-core/src/maps/decl_macros.rs", "frozen-collections-core/src/hash_tables/decl_macros.rs: hash_table_funcs", "frozen-collections-core/src/hash_tables/inline_hash_table_no_collisions.rs: find, find_mut", "frozen-collections-core/src/utils/eytzinger.rs: eytzinger_search_by", "frozen-collections-core/src/analyzers/hash_code_analyzer.rs: analyze_hash_codes"]}
{"id": "C59", "title": "The references from get_disjoint_mut can all be used", "statement": "After get_disjoint_mut has returned mutable references for several different keys, the caller may read and write through all of them, alternately and in any order, without undefined behaviour under the aliasing rules proposed for Rust (Stacked Borrows and Tree Borrows, the two that Miri implements). Obtaining the references is itself free of undefined behaviour under these rules.", "quantifier": "all map types, all contents, all numbers of queries, all sequences of reads and writes through the references returned", "why_tests_cant": "Aliasing violations are not observable in an ordinary run: the compiled program usually does the expected thing until an optimisation relies on the rule. The project's tests switch this very call off when they run under Miri.", "anchors": ["frozen-collections-core/src/maps/decl_macros.rs: get_disjoint_mut_funcs, get_mut", "frozen-collections-core/src/hash_tables/decl_macros.rs: find_mut", "frozen-collections-core/src/hash_tables/inline_hash_table_no_collisions.rs: find_mut", "frozen-collections/tests/common/map_testing.rs: cfg(not(miri))"]}
{"id": "C60", "title": "Generic code sees the same on the standard collections and on frozen ones", "statement": "The Map and Set traits are also implemented for the collections of std and of hashbrown. A program written against these traits gets the same answers, the same panics and, up to the order of iteration, the same entries, whether it is run on a frozen map or on a standard map with the same entries, whatever sequence of lookups, writes, multi-key borrows and iterations it performs. Collecting a sequence of entries with duplicate keys gives the same keys and values in both.", "quantifier": "all key types with lawful equality, all contents, all programs of trait calls of any length, hash and B-tree based standard collections", "why_tests_cant": "Equality of behaviour over arbitrary programs and contents relates two implementations on infinitely many runs; tests compare single calls, mostly with distinct, present keys.", "anchors": ["frozen-collections-core/src/traits/map_query.rs: impl MapQuery for HashMap, BTreeMap", "frozen-collections-core/src/traits/map_extras.rs: impl MapExtras for HashMap, BTreeMap", "frozen-collections-core/src/traits/map_iteration.rs", "frozen-collections-core/src/traits/set_query.rs", "frozen-collections-core/src/utils/dedup.rs: has_duplicates"]}
{"id": "C61", "title": "Emitted maps have the same API whatever representation was chosen", "statement": "As documented, the maps declared by the macros all have the same API surface: code that calls functions of such a map keeps compiling when the number of entries, their keys, or their being literals changes. In particular the same functions can be called without importing further traits, and the same types can be used for queries.", "quantifier": "all macro calls: every kind, form, number and values of entries, literal or not; all functions; all query types given by the traits they implement", "why_tests_cant": "Tests compile a few maps with queries of the key type; the claim is about all pairs of maps and all client code.", "anchors": ["frozen-collections/src/lib.rs: documentation of the macros", "frozen-collections-core/src/maps/decl_macros.rs: sparse_scalar_lookup_primary_funcs, scan_primary_funcs, hash_primary_funcs, eytzinger_search_primary_funcs", "frozen-collections-core/src/fz_maps/fz_string_map.rs: get", "frozen-collections-core/src/emit/collection_emitter.rs"]}
{"id": "C62", "title": "Debug output shows the contents and nothing else", "statement": "{:?} of a map or set writes every different key or element exactly once, with the value given last, in the order of iteration. {:?} of an iterator writes, at every point of the iteration, the items it has still to give, and depends on nothing else: an iterator over keys does not reveal values, and formatting neither fails nor consumes the iterator.", "quantifier": "all collections built by any constructor, all iterator types and set operations, all points of an iteration, all formatting flags, all Debug implementations of keys and values", "why_tests_cant": "Tests compare the text of a few small collections with literals; that the text is a function of the remaining items relates infinitely many pairs of iterator states.", "anchors": ["frozen-collections-core/src/maps/decl_macros.rs: debug_trait_funcs", "frozen-collections-core/src/sets/decl_macros.rs: debug_trait_funcs", "frozen-collections-core/src/maps/iterators.rs: impl Debug for Iter, IterMut, Keys, Values, ValuesMut, IntoIter; derive(Debug) IntoKeys, IntoValues", "frozen-collections-core/src/sets/iterators.rs: impl Debug for Union, SymmetricDifference, Difference, Intersection"]}
{"id": "C63", "title": "Expansions mean the same wherever they stand", "statement": "The code that a macro call expands to, or that an emitter returns, refers to nothing but what the caller wrote, the names it declares and the crate frozen_collections. So it means the same in every module, whatever items and macros that module defines or imports, and can be used in crates without the standard library.", "quantifier": "all macro calls and emitter options, all types, expressions and visibilities written by the caller, all representations and numbers of entries", "why_tests_cant": "Tests expand macros in modules with the usual prelude, where every unqualified name resolves as intended; the claim is about all modules.", "anchors": ["frozen-collections-core/src/emit/generator.rs: gen_fz_hash, gen_fz_scalar, gen_fz_string, gen_inline_*", "frozen-collections-core/src/emit/collection_emitter.rs: postflight, emit_*", "frozen-collections-core/src/emit/collection_entry.rs: ToTokens", "frozen-collections-core/src/hash_tables/hash_table_slot.rs: ToTokens"]}
{"id": "C64", "title": "The initializer of every emitted declaration has the declared type", "statement": "In every declaration that a macro or emitter returns, the tokens after `=` are an expression of exactly the type that is declared, directly or through the alias: const generics are the lengths of the arrays listed, hasher types are those of the hasher expressions, literals fit the integer types, sets wrap the map of the same parameters with `()` values. Evaluating the expression gives the collection of the listed entries.", "quantifier": "all representations, maps and sets, all entries, all types and expressions written by the caller, all forms of declaration", "why_tests_cant": "Each test compiles one declaration; the claim is about the templates for all parameters, where type and constructor are generated by separate pieces of code.", "anchors": ["frozen-collections-core/src/emit/generator.rs: gen_fz_hash, gen_fz_scalar, gen_fz_string, gen_inline_*, gen_inline_hash_table_components, collection_magnitude", "frozen-collections-core/src/emit/collection_emitter.rs: postflight, emit_*", "frozen-collections-core/src/inline_sets: new", "frozen-collections-core/src/fz_sets: From"]}
{"id": "C65", "title": "Collections that implement Eq equal themselves", "statement": "`==` of any frozen map or set type that implements `Eq`, for given key and value types, is reflexive, symmetric and transitive: in particular `m == m` holds for every such map `m`, so it can be used where `Eq` is required.", "quantifier": "all map and set types of the crate, all key and value types (as far as the traits they implement), all contents", "why_tests_cant": "`Eq` is a marker whose law no test observes; breaking it needs value types, such as floats, for which the type should not be `Eq` in the first place.", "anchors": ["frozen-collections-core/src/inline_maps/inline_eytzinger_search_map.rs: impl Eq", "frozen-collections-core/src/inline_maps: impl Eq, impl PartialEq", "frozen-collections-core/src/fz_maps: impl Eq, impl PartialEq", "frozen-collections-core/src/maps: impl Eq, impl PartialEq", "frozen-collections-core/src/inline_sets: impl Eq", "frozen-collections-core/src/fz_sets: impl Eq"]}
{"id": "C66", "title": "Emitted collections implement the same traits whatever representation is chosen", "statement": "Which of Clone, Debug, Serialize, Index, Map, PartialEq, Eq, Default, FromIterator, Deserialize (and for sets Set and the operators |, &, ^, -) the collection of a macro call implements depends on the macro and on the key and value types, not on how many entries there are, what their values are or which are literals; and likewise which functions can be called on it. The documentation promises that all representations work the same way and have the same API surface.", "quantifier": "all macros, entries and key and value types that the macro accepts", "why_tests_cant": "A test compiles particular calls; adding or changing one entry elsewhere switches to another type with other trait bounds.", "anchors": ["frozen-collections/src/lib.rs: doc comments of the macros", "frozen-collections-core/src/inline_maps: impl blocks", "frozen-collections-core/src/inline_sets: impl blocks", "frozen-collections-core/src/fz_maps: impl blocks", "frozen-collections-core/src/fz_sets: impl blocks", "frozen-collections-core/src/fz_sets/fz_hash_set.rs: get", "frozen-collections-core/src/emit/collection_emitter.rs: emit_*"]}
{"id": "C67", "title": "Scalar collections work whatever order the key type has", "statement": "For every key type that implements `Scalar` (different values have different indices) with any lawful `Ord`, a scalar map can be built from any entries and looks up the last value given for each key; membership in scalar sets likewise. The trait does not ask that `Ord` be the order of the indices.", "quantifier": "all scalar key types, all total orders on them, all entries, overflow checks on or off", "why_tests_cant": "The tests use key types whose derived `Ord` is the order of the indices; the orders a user can write are unlimited, and a wrong answer needs keys of a certain density.", "anchors": ["frozen-collections-core/src/traits/scalar.rs: Scalar", "frozen-collections-core/src/macros/derive_scalar_macro.rs: derive_scalar_macro", "frozen-collections-core/src/fz_maps/fz_scalar_map.rs: new", "frozen-collections-core/src/maps/dense_scalar_lookup_map.rs: from_sorted_and_dedupped", "frozen-collections-core/src/maps/sparse_scalar_lookup_map.rs: from_sorted_and_dedupped"]}
{"id": "C68", "title": "Hash tables are as small as their collisions permit", "statement": "The number of slots of a hash table, for any hash codes, is the smallest power of two considered (from at least 95% of the number of keys, or the number of keys if there are fewer than 128, up to a growth limit that depends on the number of keys) at which no more than the tolerated share of hash codes falls on an occupied slot; if no considered size achieves that, it is the smallest considered size. So equal hash codes among fewer than 128 keys always give the smallest size.", "quantifier": "all lists of hash codes, hence all hashers and key sets", "why_tests_cant": "The tests look at a handful of code lists; which size is best depends on all the residues of all the codes for several moduli at once.", "anchors": ["frozen-collections-core/src/analyzers/hash_code_analyzer.rs: analyze_hash_codes", "frozen-collections-core/src/hash_tables/hash_table.rs: HashTable::new"]}
{"id": "C69", "title": "Analysing keys takes work linear in their size", "statement": "While a string collection is built, choosing how to hash its keys compares at most two pairs of bytes and hashes at most 32 pieces of at most 16 bytes for each byte of the keys. Choosing the size of a hash table tries at most five sizes and looks at each hash code at most once for each. This holds for all keys and all hashers, however badly they spread.", "quantifier": "all lists of keys of any lengths, all hashers, all lists of hash codes", "why_tests_cant": "Tests run on a few small inputs and measure no work; a loop bound that fails for adversarial keys shows only as slowness.", "anchors": ["frozen-collections-core/src/analyzers/slice_key_analyzer.rs: analyze_slice_keys", "frozen-collections-core/src/analyzers/hash_code_analyzer.rs: analyze_hash_codes", "frozen-collections-core/src/fz_maps/fz_string_map.rs: with_hasher"]}
{"id": "C70", "title": "Removing duplicate keys takes work proportional to the number of entries", "statement": "Building a hash map from n entries takes, beside the work of the hash table used to find equal keys, a number of steps proportional to n, however many keys are duplicates.", "quantifier": "all entries with any number of duplicates, all lawful hashers, all behaviours hashbrown's contract allows", "why_tests_cant": "Tests of duplicate removal use a handful of entries and look at the result only; the growth rate is a statement about all sizes.", "anchors": ["frozen-collections-core/src/utils/dedup.rs: DeduppedVec::using_hash", "frozen-collections-core/src/utils/dedup.rs: DeduppedVec::using_eq", "frozen-collections-core/src/fz_maps/fz_hash_map.rs: with_hasher"]}
{"id": "C71", "title": "A macro call is replaced by code with one meaning: the collection that was written", "statement": "The tokens of a macro call in a documented form, with keys that are all integer literals, all string literals, or computed and pairwise different, are replaced by code that can be read in exactly one way: as the declaration asked for (an expression, a `let` with the given mutability and name, a `static` with the given visibility and name, constant if all keys are literals and initialised on first use otherwise) of a collection whose lookups, iteration and size are those of the entries written, the last entry winning. Calls of no documented form, and calls whose keys do not go together, are replaced by a compile error, which is never mistaken for a collection.", "quantifier": "all token streams given to the eight macros, all parsers and printers of expressions and types that satisfy the grammar, all types and expressions of the caller, all seeds, sort functions and hashers of the host", "why_tests_cant": "Each macro test expands one call and looks at the collection; the claim joins parser, analysis, code generator and run-time library for all calls, and excludes other readings of the emitted code.", "anchors": ["frozen-collections-macros/src/lib.rs: fz_hash_map and the other macros", "frozen-collections-core/src/macros/macro_api.rs: fz_map_macro, fz_set_macro", "frozen-collections-core/src/macros/parsing: Map, Set, Payload, Entry", "frozen-collections-core/src/macros/processor.rs: process, handle_literal_scalar_keys", "frozen-collections-core/src/emit: CollectionEmitter, Generator"]}
{"id": "C72", "title": "The implementation strategy is the documented one for the keys given", "statement": "Which strategy a collection uses is determined by the documented conditions on its different keys. Integers and enums: an array if they form a contiguous range, a sparse array if the range is narrow (at most 128 values, or fewer than ten per key), otherwise the keys themselves as hash codes. Strings: their lengths as hash codes if these tell them apart (up to 5%), otherwise the shortest part of at most 16 bytes that does, counted from the left if possible and else from the right, otherwise classic hashing. Other keys: classic hashing, and Eytzinger search for ordered collections. Very small collections are scanned (for ordered keys, with early exit), and relatively small ordered collections use binary search. The choice depends on neither the order of the entries, nor duplicates, nor (for integers) the type of the keys.", "quantifier": "all inputs to the macros, the emitter and the constructors of the run-time types, all key types with lawful comparison, all hash functions that do not collide on corresponding parts of the string keys", "why_tests_cant": "Tests check lookups, which answer alike under every strategy, or the analysis of a few key sets; the claim characterises the choice for all sets of keys.", "anchors": ["frozen-collections/src/lib.rs: Analysis and Optimizations", "frozen-collections-core/src/emit/collection_emitter.rs: emit_hash_collection, emit_ordered_collection, emit_scalar_collection, emit_string_collection", "frozen-collections-core/src/emit/generator.rs", "frozen-collections-core/src/analyzers/scalar_key_analyzer.rs: analyze_scalar_keys", "frozen-collections-core/src/analyzers/slice_key_analyzer.rs: analyze_slice_keys", "frozen-collections-core/src/fz_maps/fz_scalar_map.rs: new", "frozen-collections-core/src/fz_maps/fz_string_map.rs: with_hasher"]}
{"id": "C73", "title": "derive(Scalar) turns an enum into keys of scalar collections, or says why it cannot", "statement": "Given the tokens of any item, the derive macro either reports an error or returns an implementation of the trait for exactly that type (its name, generics and `where` clause). An implementation is returned just for the enums with at least one variant, all without fields and discriminants; it assigns every variant its position in the declaration and can be read in one way only. Otherwise the error states the reason that holds of the first offending variant. The resulting function makes the variants lawful scalar keys: every list of entries with such keys becomes a map whose lookups are those of the entries, and a map with an entry for every variant is an array.", "quantifier": "all token streams given to the derive macro, all parsers of expressions, types, attributes, generics and where clauses that return a suffix of their input, all lists of entries keyed by variants, all sort functions of the host", "why_tests_cant": "Tests derive the trait for a handful of enums and look for an error on a handful of bad items; the claim is about every item, and joins the generated code to the behaviour of the collections keyed by it.", "anchors": ["frozen-collections-macros/src/lib.rs: derive_scalar", "frozen-collections-core/src/macros/derive_scalar_macro.rs: derive_scalar_macro", "frozen-collections-core/src/traits/scalar.rs: Scalar", "frozen-collections-core/src/fz_maps/fz_scalar_map.rs: new"]}
{"id": "C74", "title": "What a build script asks of the emitter is what the emitted code declares", "statement": "A chain of configuration calls on the emitter followed by one of the emit functions either returns an error (exactly if the settings contradict each other) or returns code. Each setting is that of the last call of its method, and calls of different methods can be exchanged. The code has one meaning: the declaration that was asked for (expression, local variable, static constant or static initialised on first use, with the requested name, alias, mutability and visibility) of a map or set that behaves like the given entries. Nothing else happens: in particular names that cannot be used are reported as an error.", "quantifier": "all sequences of configuration calls, all four emit functions, all lists of entries with lawful keys that agree with the code given for them, all types and expressions of the build script, all sort functions and hash table implementations of the host", "why_tests_cant": "Tests call the emitter with a few configurations and compare the text of the code, or check that there is an error; the claim ranges over all configurations and entries, and is about what the code means and not how it is spelled.", "anchors": ["frozen-collections-core/src/emit/collection_emitter.rs: CollectionEmitter", "frozen-collections-core/src/emit/collection_emitter.rs: preflight", "frozen-collections-core/src/emit/collection_emitter.rs: postflight", "frozen-collections-core/src/emit/collection_entry.rs: CollectionEntry"]}
{"id": "C75", "title": "Hash functions and random seeds show in nothing but the order of iteration", "statement": "Collections of the same entries that differ in the hash function they were built with, or in the random state of their hash functions, cannot be told apart except by the order of iteration: any sequence of lookups, updates, comparisons and listings that does not make use of positions observes the same (listings as collections of entries), even where the hash functions lead to different internal representations. Likewise the code that the macros and the emitter produce for given keys is the same in each build of a program.", "quantifier": "all lists of entries, all lawful pairs of hash functions, all sequences of operations, all types of collections; all macro calls, all lists of entries of a build script, all pairs of seeds", "why_tests_cant": "The tests run with one fixed seed (the seed is even replaced by a constant when the crate is tested) and with the hash functions of one run; the claim relates pairs of runs and pairs of builds for all hash functions and seeds.", "anchors": ["frozen-collections-core/src/emit/collection_emitter.rs: get_seed", "frozen-collections-core/src/fz_maps/fz_hash_map.rs: FzHashMap::with_hasher", "frozen-collections-core/src/fz_maps/fz_string_map.rs: FzStringMap::with_hasher", "frozen-collections-core/src/fz_sets/fz_hash_set.rs: FzHashSet::with_hasher", "frozen-collections-core/src/emit/generator.rs: gen_fz_string", "frozen-collections-core/src/macros/macro_api.rs: fz_hash_map_macro, fz_hash_set_macro"]}
{"id": "C76", "title": "Space is linear: collections, generated code and macro expansions", "statement": "A collection never takes space out of proportion to what it holds. FzHashMap, HashMap and FzStringMap take at most 21 cells (entries plus hash slots) per entry kept plus one, and at most 7 per entry from a thousand entries on, whatever the hash codes are; FzScalarMap takes at most 21 cells per entry plus 128 however far apart the keys are; FzOrderedMap takes exactly one cell per entry. Code written by the emitters lists some of the given entries, each at most as often as given, plus at most one table, which has at most 128 cells or twenty times as many cells as entries are listed. The expansion of any macro call, valid or not, has at most 345 times as many tokens as the call plus 2600.", "quantifier": "all hash functions, all comparison and index functions of lawful keys, all entries (fewer than 2^60), all sorting algorithms, all hash map implementations, all emitter settings, all token streams given to the macros", "why_tests_cant": "An adversarial key set that makes the search for a table size or for an integer range run away is exactly what a sample of inputs misses; a bound has to hold for every hash function and every key set.", "anchors": ["frozen-collections-core/src/analyzers/hash_code_analyzer.rs: analyze_hash_codes", "frozen-collections-core/src/analyzers/scalar_key_analyzer.rs: analyze_scalar_keys", "frozen-collections-core/src/hash_tables/hash_table.rs: HashTable::new", "frozen-collections-core/src/maps/sparse_scalar_lookup_map.rs: SparseScalarLookupMap::from_sorted_and_dedupped", "frozen-collections-core/src/emit/generator.rs: Generator", "frozen-collections-core/src/macros/macro_api.rs: fz_hash_map_macro, fz_scalar_map_macro, fz_string_map_macro, fz_ordered_map_macro"]}
{"id": "C77", "title": "Whatever generated code refers to exists, is public and is what it is meant to be", "statement": "Under every combination of the features std, macros, serde and emit, and in every module of every crate, each absolute path in the code that the emitters and macros return, and that the caller did not write, means exactly one item that the code may use: a type, a macro, or a public function of a type, declared under the name the path ends with. In particular the length hasher is also a value, compile errors use the macro of the core library, and derive(Scalar) implements the trait that the collections require. The modules maps, sets, inline_maps, inline_sets, hashers and hash_tables of the facade crate have exactly the public names of the core crate's modules, with the same meaning. The macros exist exactly if the feature macros is enabled and the emitter exactly if the feature emit is enabled, and the internal hash table and the marker type of computed keys cannot be reached from outside.", "quantifier": "all feature sets, all modules from which a path is used, all paths, all collections, visibilities, types, keys and values given to the emitters, all macro calls", "why_tests_cant": "The crate's tests are compiled with all features enabled, from a handful of modules, and for the representations that the sample collections happen to select; a re-export missing under one feature set or for one rarely chosen hasher shows up only in a user's build.", "anchors": ["frozen-collections/src/lib.rs", "frozen-collections-core/src/lib.rs", "frozen-collections-core/src/hashers/mod.rs", "frozen-collections-core/src/hash_tables/mod.rs", "frozen-collections-core/src/emit/mod.rs", "frozen-collections-core/src/traits/mod.rs", "frozen-collections-macros/src/lib.rs", "frozen-collections-core/src/emit/generator.rs: Generator"]}
{"id": "C78", "title": "Collections may be sent and shared between threads exactly when what they hold may", "statement": "Every map and set type of the library, and every iterator that consumes one, is Send, Sync or 'static exactly when its key, value and hasher types all are. Iterators that borrow a collection are Send and Sync exactly when the keys and values are Sync; iterators that borrow it mutably are Send (Sync) exactly when the keys and values are Send (Sync). The iterators returned by union, intersection, difference and symmetric_difference are Send and Sync exactly when both sets are Sync. A static declared by the macros or by generated code is therefore accepted exactly when the key and value types are Sync and 'static, and for a lazily built one also Send.", "quantifier": "all key, value, element, hasher and set types (and all combinations of Send, Sync and 'static for them), all collection, iterator and set-operation types, all forms of emitted declarations", "why_tests_cant": "A test can assert Send or Sync for particular key and value types; it cannot show both directions for every choice of types, nor that no type is needlessly or wrongly thread-bound", "anchors": ["frozen-collections-core/src/fz_maps/fz_string_map.rs: FzStringMap, MapTypes", "frozen-collections-core/src/fz_maps/fz_hash_map.rs: FzHashMap", "frozen-collections-core/src/hash_tables/hash_table.rs: HashTable", "frozen-collections-core/src/maps/iterators.rs", "frozen-collections-core/src/sets/iterators.rs: Union, Difference, Intersection, SymmetricDifference", "frozen-collections-core/src/traits/set_iteration.rs: SetIteration", "frozen-collections-core/src/emit/collection_emitter.rs: postflight"]}
{"id": "C79", "title": "A collection or iterator may stand for one with shorter lifetimes", "statement": "A collection whose key and value types borrow for long may be used wherever one whose types borrow for a shorter time is expected, and an iterator over a collection may be used wherever one over a shorter borrow is expected, in whatever the iterator only reads.", "quantifier": "all key, value, element, hasher and set types and lifetimes, all collection, iterator and set-operation types", "why_tests_cant": "Subtyping is decided by the compiler for each pair of types; a test shows it for one instantiation and cannot show that it holds for all of them", "anchors": ["frozen-collections-core/src/maps/iterators.rs: Iter, IterMut, ValuesMut", "frozen-collections-core/src/sets/iterators.rs: Union, Difference, Intersection, SymmetricDifference", "frozen-collections-core/src/fz_maps/fz_string_map.rs: FzStringMap"]}
{"id": "C80", "title": "The set operations work on set types that users write themselves", "statement": "Union, intersection, difference, symmetric difference, the subset, superset and disjointness checks and equality are right for every type that implements the set traits faithfully, including types outside this crate: the iterators give each element of the result once, then answer None, and stay at their end, as FusedIterator promises.", "quantifier": "all element types with a lawful equality, all pairs of set types with any length, membership test and iterator, all numbers of calls of next", "why_tests_cant": "The set types are unknown and unboundedly many, and a test calls next finitely often on finitely many of them; the failures need an iterator that behaves in an unusual but permitted way", "anchors": ["frozen-collections-core/src/sets/iterators.rs: Union, Intersection, Difference, SymmetricDifference", "frozen-collections-core/src/traits/set_iteration.rs: SetIteration", "frozen-collections-core/src/traits/set_ops.rs: SetOps", "frozen-collections-core/src/sets/decl_macros.rs: partial_eq_trait_funcs"]}
{"id": "C81", "title": "A clone of a collection is a faithful copy", "statement": "Cloning a map or a set gives a collection with the same entries in the same order that answers every query as the original does, with keys and values replaced by their clones; it panics exactly if cloning some key or value panics; and a map equals its clone whenever values equal their clones.", "quantifier": "all kinds of maps and sets, all contents, all queries, all Clone implementations for keys and values under which a clone of a key equals the key, all hashers whose clones hash alike", "why_tests_cant": "A hash or lookup table that refers to the entries of the original, or a hasher that is cloned with other seeds, shows only for some contents and queries; the contents and the user's Clone implementations are unbounded", "anchors": ["frozen-collections-core/src/maps: derive(Clone) on every map type", "frozen-collections-core/src/sets: derive(Clone) on every set type", "frozen-collections-core/src/hash_tables: HashTable, InlineHashTable", "frozen-collections-core/src/fz_maps: derive(Clone)", "frozen-collections-core/src/fz_sets: derive(Clone)"]}
{"id": "C82", "title": "A program behaves alike on 32-bit and 64-bit targets", "statement": "The same program gives the same answers whether usize has 32 or 64 bits: constructors succeed or fail alike and give collections with the same entries (for the same hash function in the same order), every sequence of lookups, writes and comparisons gives the same results, data serialized on one target can be read on the other, and code generated on one compiles and works on the other.", "quantifier": "both pointer widths on either side, all kinds of maps and sets, all contents below the size limits of both targets, all sequences of operations, all lawful user types and hash functions", "why_tests_cant": "A test suite runs on one pointer width; that another width computes the same for all contents and histories is a statement about pairs of programs", "anchors": ["frozen-collections-core/src/hash_tables/hash_table.rs: HashTable::new", "frozen-collections-core/src/analyzers: analyze_scalar_keys, analyze_slice_keys, analyze_hash_codes", "frozen-collections-core/src/fz_maps: FzHashMap, FzOrderedMap, FzScalarMap, FzStringMap", "frozen-collections-core/src/emit/collection_emitter.rs: emit_hash_collection, emit_ordered_collection, emit_scalar_collection, emit_string_collection"]}
{"id": "C83", "title": "Keys hashed by their length or by a part of them are found in every borrowed form", "statement": "Len counts the bytes or elements of a value for every type that implements it. A hash map that hashes keys by their length, or by a part of a string, finds a key through every type its key type borrows as (a String through str, a CString through CStr, a Vec through a slice, a Box, Rc or Arc through what it points to), and answers with the value of the last entry that has this key.", "quantifier": "all types that implement Len and their nested pointer types, all implementations of Borrow between them, all entries and queries, all ranges and hash functions, all magnitudes", "why_tests_cant": "Tests compare single lengths; that keys and borrowed forms hash alike for all types and values, and that all lookups therefore succeed, is a statement about all of them", "anchors": ["frozen-collections-core/src/traits/len.rs: Len", "frozen-collections-core/src/hashers/length_hasher.rs: LengthHasher", "frozen-collections-core/src/hashers/left_range_hasher.rs: LeftRangeHasher", "frozen-collections-core/src/hashers/right_range_hasher.rs: RightRangeHasher", "frozen-collections-core/src/maps/hash_map.rs: HashMap"]}
{"id": "C84", "title": "Traits documented as dyn compatible can be used as trait objects, and objects behave like the maps in them", "statement": "MapQuery, MapIteration, SetQuery and SetIteration can be the types of trait objects. Code that works on objects of type dyn MapQuery<Q, V> sees the same whichever map types are behind them and whatever key types these have: what it would see of dictionaries with the entries given.", "quantifier": "all traits of the crate; all slices of objects made from maps of any type, all entries, all programs that call the functions of the objects in any order and write through the references they get", "why_tests_cant": "Tests make one object of one type; whether a trait is dyn compatible depends on its whole declaration, and that no program can tell map types apart is a statement about all programs", "anchors": ["frozen-collections-core/src/traits/map_query.rs: MapQuery", "frozen-collections-core/src/traits/map_iteration.rs: MapIteration", "frozen-collections-core/src/traits/set_query.rs: SetQuery", "frozen-collections-core/src/traits/set_iteration.rs: SetIteration", "frozen-collections/src/lib.rs: crate documentation, Traits"]}
{"id": "C85", "title": "Standard collections can be used through the traits with every query they answer themselves", "statement": "The crate implements its traits for HashMap, BTreeMap, HashSet, BTreeSet and the collections of hashbrown. Each of these implementations is available for exactly the query types that the collection's own get or contains accepts, so that generic code can look up a str in a collection of Strings whatever the collection is.", "quantifier": "all key and query types, described by which of the relevant traits they implement; all six collections, all traits with a query type", "why_tests_cant": "A missing implementation shows only when somebody writes the call that needs it; tests contain only calls that compile", "anchors": ["frozen-collections-core/src/traits/map.rs: impl Map", "frozen-collections-core/src/traits/set.rs: impl Set", "frozen-collections-core/src/traits/map_query.rs: impl MapQuery", "frozen-collections-core/src/traits/set_query.rs: impl SetQuery", "frozen-collections-core/src/traits/map_extras.rs: impl MapExtras", "frozen-collections-core/src/traits/set_extras.rs: impl SetExtras"]}
{"id": "C86", "title": "Cloned iterators are independent and give the rest", "statement": "Cloning an iterator over a map or set, or one returned by union, intersection, difference or symmetric_difference, at any point of the iteration gives a second iterator. Original and clone each give exactly the items that were still to come at that point, in the same order, however the calls on them (and on clones of clones) are interleaved, and count() gives the number of items still to come.", "quantifier": "all collections of any kind, all pairs of sets, all programs of next, clone and count on any number of clones", "why_tests_cant": "The repository clones no set operation after the first item; the programs are unbounded and interleave any number of clones.", "anchors": ["frozen-collections-core/src/maps/iterators.rs: Clone for Iter, Keys, Values", "frozen-collections-core/src/sets/iterators.rs: Clone for Iter, Union, SymmetricDifference, Difference, Intersection; SymmetricDifference::count"]}
{"id": "C87", "title": "Hash maps with a user-written magnitude", "statement": "CollectionMagnitude is a public safe trait. With any implementation of it, building a hash map returns an error exactly when there are more different keys than MAX_CAPACITY; otherwise the map answers all queries according to the last entry given for the key, and no query gives undefined behaviour.", "quantifier": "all implementations of the magnitude, all entry lists, all queries, all hashers and hash codes", "why_tests_cant": "The implementations of the trait are unbounded; the repository uses only the three of the crate, and an error shows only when the last range of entries is read.", "anchors": ["frozen-collections-core/src/traits/collection_magnitude.rs: CollectionMagnitude", "frozen-collections-core/src/hash_tables/hash_table.rs: HashTable::new", "frozen-collections-core/src/hash_tables/decl_macros.rs: find, find_mut", "frozen-collections-core/src/maps/hash_map.rs: HashMap::with_hasher"]}
{"id": "C88", "title": "Static collections of constants are constant data", "statement": "A macro call that declares a static collection whose keys and values are all constant expressions embeds the collection in the binary as constant data: it needs no initialisation at run time and no heap. More generally, whenever the keys are all literals, the collection is analysed and laid out when the macro is expanded and not when the program runs.", "quantifier": "all macro calls of every kind and form, all entries, all choices of which expressions are constant", "why_tests_cant": "A static that is built on first use behaves the same in a test; only a statement about all expansions shows when it happens.", "anchors": ["frozen-collections-core/src/macros/processor.rs: process, assess_keys, handle_*", "frozen-collections-core/src/emit/collection_emitter.rs: postflight", "frozen-collections/src/lib.rs: Performance Considerations"]}
{"id": "C89", "title": "Order of iteration of collections with ordered keys", "statement": "A collection of ordered keys (ordered or scalar, built at run time or by a macro) is iterated in ascending order of its keys, as the standard ordered collections are; every other collection is iterated in an order determined by its entries and its hasher.", "quantifier": "all key and value types, lawful comparisons, all entry lists, all sort implementations, all macro calls and emitted collections", "why_tests_cant": "Tests compare iterated entries as sets or on one collection; the order depends on the number of keys and on the layout chosen for them, over unbounded inputs.", "anchors": ["frozen-collections-core/src/fz_maps/fz_ordered_map.rs: FzOrderedMap::new, iter", "frozen-collections-core/src/fz_maps/fz_scalar_map.rs: FzScalarMap::new, iter", "frozen-collections-core/src/utils/eytzinger.rs: eytzinger_layout", "frozen-collections-core/src/hash_tables/hash_table.rs: HashTable::new", "frozen-collections-core/src/emit/collection_emitter.rs: emit_ordered_collection, emit_scalar_collection"]}
{"id": "C90", "title": "Set operations look up each element of the smaller set at most once", "statement": "Union, intersection and the disjointness test of two sets look up only elements of the smaller set, each at most once and in the order of iteration; union looks up nothing before the larger set has been given completely. Difference looks up the elements of the first set once each, symmetric difference those of both. Subset, superset and equality tests look up nothing when the lengths decide, and otherwise stop at the first element that decides.", "quantifier": "all element types, all pairs of sets however built, all numbers of calls of next", "why_tests_cant": "Tests see the elements produced, not the lookups made; which set is asked depends on the two lengths, over unbounded sets and interleavings of calls.", "anchors": ["frozen-collections-core/src/sets/iterators.rs: Union::next, Intersection::next, Difference::next, SymmetricDifference::next", "frozen-collections-core/src/traits/set_ops.rs: is_disjoint, is_subset, is_superset", "frozen-collections-core/src/sets/decl_macros.rs: partial_eq_trait_funcs, bitor_trait_funcs"]}
{"id": "C91", "title": "Trait functions that panic or keep state do no harm", "statement": "If the Eq, Ord, Hash, Equivalent, Comparable and Scalar functions of keys and queries answer correctly whenever they return, every operation of a program on a map is either performed as on a dictionary or panics and leaves the map as it was, and the map remains usable; it panics only if the dictionary operation does or a user function panicked during it, and never swallows such a panic. If they never panic, what they do to the rest of the program makes no difference. Whatever they answer, even differently each time, a lookup has no undefined behaviour and a reference it hands out points at an entry.", "quantifier": "all key, query and value types, all map types and constructors, all states of the program, all trait functions with effects and panics, all programs that catch panics", "why_tests_cant": "A panic can strike in any of the calls that a lookup makes of user code, and effects and varying answers give unboundedly many executions for one input.", "anchors": ["frozen-collections-core/src/maps/decl_macros.rs: get_disjoint_mut_funcs, dense_scalar_lookup_primary_funcs, sparse_scalar_lookup_primary_funcs, hash_primary_funcs, scan_primary_funcs, eytzinger_search_primary_funcs", "frozen-collections-core/src/hash_tables/decl_macros.rs: hash_table_funcs", "frozen-collections-core/src/utils/eytzinger.rs: eytzinger_search_by", "frozen-collections-core/src/utils/dedup.rs: has_duplicates", "frozen-collections-core/src/fz_maps/fz_string_map.rs: FzStringMap"]}
{"id": "C92", "title": "Collections inside collections survive storage, and storage errors are passed on", "statement": "Types made of the frozen maps and sets, nested in each other to any depth, keep their contents when they are serialized into a document of a self-describing format and deserialized again, if the types at the leaves do. Deserializing any other document gives a working collection or an error and does not panic; it succeeds exactly when the document has the right kind and all its items can be read, and the error is that of the first item that cannot be. Serializing to any serializer announces the length, hands over the items in the order of iteration and ends; it stops at the first error of the serializer and returns that error.", "quantifier": "all leaf types, all nestings of the eight frozen types, all documents, all serializers and errors, all collections however built", "why_tests_cant": "Nestings, documents and points of failure are unbounded; tests store a few flat collections in one format that never fails.", "anchors": ["frozen-collections-core/src/maps/decl_macros.rs: serialize_trait_funcs", "frozen-collections-core/src/sets/decl_macros.rs: serialize_trait_funcs", "frozen-collections-core/src/fz_maps/fz_hash_map.rs: deserialize, MapVisitor", "frozen-collections-core/src/fz_maps/fz_ordered_map.rs: deserialize, MapVisitor", "frozen-collections-core/src/fz_maps/fz_scalar_map.rs: deserialize, MapVisitor", "frozen-collections-core/src/fz_maps/fz_string_map.rs: deserialize, MapVisitor", "frozen-collections-core/src/fz_sets/fz_hash_set.rs: deserialize, SetVisitor", "frozen-collections-core/src/fz_sets/fz_ordered_set.rs: deserialize, SetVisitor", "frozen-collections-core/src/fz_sets/fz_scalar_set.rs: deserialize, SetVisitor", "frozen-collections-core/src/fz_sets/fz_string_set.rs: deserialize, SetVisitor"]}
{"id": "C93", "title": "Constructors cope with trait functions that panic or have side effects", "statement": "Let the equality, order, hash and index functions of the keys be code that may change state of the program, and panic. If they answer lawfully whenever they do not panic, every map that a constructor returns is the right one (the last value given for each key, and nothing else), and if the entries fit the type, the constructor panics exactly if one of these functions panicked during the call; with functions that do not panic it returns the same map in every state of the program. If they answer arbitrarily, contradict themselves and panic, no constructor runs into undefined behaviour, and the map it returns, dense scalar maps apart, can be used without undefined behaviour, also after stores into it, and also if lookups run such functions again.", "quantifier": "all states of the program, all trait functions with effects, all stable sorts and hash tables that learn about the elements only through the functions they are given, all lists of entries, both build profiles, all constructors of ordered, hash, scalar, string and scan maps", "why_tests_cant": "The point where user code panics or changes its mind is arbitrary and depends on the order in which a library calls it; tests use types whose trait functions are pure.", "anchors": ["frozen-collections-core/src/utils/dedup.rs: DeduppedVec::using_eq, using_cmp, using_hash, SortedAndDeduppedVec::new", "frozen-collections-core/src/maps/scan_map.rs: new", "frozen-collections-core/src/maps/eytzinger_search_map.rs: new", "frozen-collections-core/src/maps/dense_scalar_lookup_map.rs: new", "frozen-collections-core/src/maps/sparse_scalar_lookup_map.rs: new", "frozen-collections-core/src/maps/hash_map.rs: with_hasher", "frozen-collections-core/src/hash_tables/hash_table.rs: new", "frozen-collections-core/src/fz_maps/fz_hash_map.rs: with_hasher", "frozen-collections-core/src/fz_maps/fz_scalar_map.rs: new", "frozen-collections-core/src/fz_maps/fz_string_map.rs: with_hasher", "frozen-collections-core/src/inline_maps/inline_scan_map.rs: new", "frozen-collections-core/src/inline_maps/inline_eytzinger_search_map.rs: new"]}
{"id": "C94", "title": "Set operations cope with trait functions that panic or have side effects", "statement": "Let the equality, order, hash and index functions of the elements be code that may change state of the program, and panic; let a program catch these panics, do other things that change its state, and go on with the same iterator. If the functions answer lawfully whenever they do not panic, union, intersection, difference and symmetric difference of two sets only ever give elements they should give, none twice, and when they end at most as many are missing as calls of next panicked; is_subset, is_superset, is_disjoint and == panic or answer correctly; the operators |, &, - and ^ (which also run Clone, and Hash and Eq in the hash set they make) panic or give the right set; and a call panics exactly if user code panicked during it. With functions that do not panic the iterators give the right elements in the same order in every program. If the functions answer arbitrarily, nothing runs into undefined behaviour, the iterators give elements of the two sets only, none more often than it is there, end after at most one call for each of them, and stay ended; and the operators end with a set of at most as many elements as there were to select from.", "quantifier": "all states of the program, all trait functions with effects, all sequences of calls and interferences in between, all pairs of sets of any two set types with the same elements, made by any constructor (and any two sets that keep the contract of sets)", "why_tests_cant": "The point where user code panics is arbitrary, and what an iterator does after a caught panic depends on the state it was left in; tests use types whose trait functions are pure and never resume an iterator.", "anchors": ["frozen-collections-core/src/sets/iterators.rs: Union::next, Intersection::next, Difference::next, SymmetricDifference::next", "frozen-collections-core/src/traits/set_ops.rs: is_disjoint, is_subset, is_superset", "frozen-collections-core/src/sets/decl_macros.rs: partial_eq_trait_funcs, bitor_trait_funcs, bitand_trait_funcs, bitxor_trait_funcs, sub_trait_funcs"]}
{"id": "C95", "title": "Comparing and cloning maps cope with user code that panics or has side effects", "statement": "Let the equality, order, hash and index functions of keys, the equality of values, and Clone of keys and values be code that may change state of the program, and panic. If they answer lawfully whenever they do not panic, map == map panics or says whether the two maps have the same keys with equal values, for maps of any two map types; it panics exactly if user code panics during it, and always answers if user code does. It compares values of the same key only, in the iteration order of the left map, each at most once, none after the first difference, and none at all if the lengths differ. Clone panics or gives a map with the clones of the entries in the same order and faithful lookups. If the functions answer arbitrarily, == and Clone and lookups in the clone never run into undefined behaviour, and a clone has as many entries as the original.", "quantifier": "all states of the program, all user functions with effects, all pairs of maps of any two map types made by any constructor, and all programs that changed values before", "why_tests_cant": "The point where user code panics is arbitrary, as is what it answers the second time; a clone keeps the lookup tables of the original whatever the clones of the keys are, so its memory safety depends on all answers of Clone.", "anchors": ["frozen-collections-core/src/maps/decl_macros.rs: partial_eq_trait_funcs", "frozen-collections-core/src/maps/*.rs, fz_maps/*.rs, inline_maps/*.rs: derive(Clone)", "frozen-collections-core/src/hash_tables/hash_table.rs: derive(Clone)"]}
{"id": "C96", "title": "Debug output is right up to the point where the sink or user code fails", "statement": "Let the sink that {:?} writes to, Debug of keys, values and elements, and the lookups that set operations make while they are formatted be code that may change state of the program, fail and panic. Formatting a map or a set performs this and nothing else: write a bracket, format the entries in the order of iteration with separators, write a bracket; it stops with the first step that fails or panics and passes that on. So the sink holds the text of the collection or, if the call failed or panicked, the beginning of it; and it does not fail unless one of the steps does. The same holds for the iterators of maps and sets, with the items that are left, and for union, intersection and difference, with their elements. Whatever lookups answer, formatting runs into no undefined behaviour and ends.", "quantifier": "all states of the program, all sinks, all Debug implementations with effects, plain and alternate mode, all maps and sets made by any constructor, all pairs of sets", "why_tests_cant": "Where a sink or an element fails is arbitrary; tests format small collections of integers into strings, which never fail.", "anchors": ["frozen-collections-core/src/maps/decl_macros.rs: debug_trait_funcs", "frozen-collections-core/src/sets/decl_macros.rs: debug_trait_funcs", "frozen-collections-core/src/maps/iterators.rs: Debug for Iter, Keys, Values", "frozen-collections-core/src/sets/iterators.rs: Debug for Iter, Union, Intersection, Difference"]}
{"id": "C97", "title": "Storing and restoring collections copes with code that fails, panics and has side effects", "statement": "Let the serializer, the deserializer, Serialize, Deserialize and Default of the types involved and the functions of keys be code that may change state of the program, return errors and panic. Serializing a map or set announces the number of items, hands over the items in the order of iteration and ends, and does nothing else; the first of these calls that fails or panics ends it and is passed on. Deserializing any of the eight types asks the source for a size and then for items until it has no more, and only then makes the hasher and the collection, from all the items; an error or a panic of the source is passed on without a collection being made of some of the items. If the functions of keys answer lawfully unless they panic, a collection that comes out is the right one for the items, and restoring what was stored gives a map with the same contents. Unless the source announces an absurd size, deserializing panics exactly if user code does. If the functions answer arbitrarily, there is no undefined behaviour, neither while deserializing nor when the result is used, dense scalar maps apart.", "quantifier": "all states of the program, all serializers and sources, all errors and panics at any call, all functions of keys with effects, all eight run-time types, all maps and sets made by any constructor", "why_tests_cant": "At which call a source or a trait function fails is arbitrary, and so are the state it leaves and the number of items; tests use one format that does not fail.", "anchors": ["frozen-collections-core/src/maps/decl_macros.rs: serialize_trait_funcs", "frozen-collections-core/src/sets/decl_macros.rs: serialize_trait_funcs", "frozen-collections-core/src/fz_maps/fz_hash_map.rs: visit_map", "frozen-collections-core/src/fz_maps/fz_ordered_map.rs: visit_map", "frozen-collections-core/src/fz_maps/fz_scalar_map.rs: visit_map", "frozen-collections-core/src/fz_maps/fz_string_map.rs: visit_map", "frozen-collections-core/src/fz_sets/fz_hash_set.rs: visit_seq"]}
{"id": "C98", "title": "Collecting an iterator copes with iterators that panic and have side effects", "statement": "Let into_iter, next and size_hint of an iterator, Default of the hasher, AsRef<str> of keys that strings are made from and the functions of keys be code that may change state of the program and panic. Collecting into any of the eight run-time types asks the iterator for items until it has no more, and only then makes the hasher and the collection, from all the items in the order they came; a panic is passed on without a collection being made of some of the items. String collections convert every key once, in order and before anything is hashed. If the iterator never ends and nothing panics, collecting does not end. If the functions of keys answer lawfully unless they panic, a collection that comes out is the right one for the items. As long as there is memory for them, collecting panics exactly if user code does. If the functions answer arbitrarily, there is no undefined behaviour, neither while collecting nor when the result is used, dense scalar maps apart. None of this depends on when the vector that gathers the items asks for a size hint or on what the hint says, except that an absurd hint may cause a panic.", "quantifier": "all states of the program, all iterators with effects and panics at any call, all moments at which room is made and size hints are asked for, all functions of keys with effects, all eight run-time types", "why_tests_cant": "At which call an iterator or a trait function panics is arbitrary, and so are the state it leaves, the number of items and the hints; tests collect from vectors and arrays.", "anchors": ["frozen-collections-core/src/fz_maps/fz_hash_map.rs: from_iter", "frozen-collections-core/src/fz_maps/fz_ordered_map.rs: from_iter", "frozen-collections-core/src/fz_maps/fz_scalar_map.rs: from_iter", "frozen-collections-core/src/fz_maps/fz_string_map.rs: from_iter", "frozen-collections-core/src/fz_sets/fz_hash_set.rs: from_iter", "frozen-collections-core/src/fz_sets/fz_ordered_set.rs: from_iter", "frozen-collections-core/src/fz_sets/fz_scalar_set.rs: from_iter", "frozen-collections-core/src/fz_sets/fz_string_set.rs: from_iter"]}
{"id": "C99", "title": "String lookups cope with queries whose conversion to a string panics, has side effects or is inconsistent", "statement": "The lookups of FzStringMap take any query type with AsRef<str>, which is code of the user, as is the hasher. Every query is converted once, and what is found has the text of that conversion as its key, whatever the user code does; a panic in the conversion is passed on. The references that get_disjoint_mut hands out are to different values even if the same query is converted to another text every time and the hasher answers arbitrarily; queries converted to the same text are refused before anything is hashed, and others are not. With a hasher that is lawful or panics, get_disjoint_mut and get_disjoint_unchecked_mut hand out, for every query, the value of the last entry given for the text of its conversion, and None only if there is no such entry. If the conversion gives the text of the query or panics, and the hasher is lawful or panics, lookups find the last entry given for that text or panic, and they panic exactly if user code does. No lookup runs into undefined behaviour.", "quantifier": "all states of the program, all query types with any conversion with effects, all hashers with effects, all string maps and values stored into them, all lists of queries", "why_tests_cant": "A conversion may answer differently at every call and panic at any; tests use str and String, whose conversion is constant.", "anchors": ["frozen-collections-core/src/fz_maps/fz_string_map.rs: get", "frozen-collections-core/src/fz_maps/fz_string_map.rs: get_mut", "frozen-collections-core/src/fz_maps/fz_string_map.rs: get_key_value", "frozen-collections-core/src/fz_maps/fz_string_map.rs: contains_key", "frozen-collections-core/src/fz_maps/fz_string_map.rs: get_disjoint_mut", "frozen-collections-core/src/utils/dedup.rs: has_duplicates"]}
