# Formal model of frozen-collections

The model is written in Lean 4 (`lean/Verif/`).  It follows the Rust source in `/repo`
(`frozen-collections-core/src`, abbreviated `core/` below) function by function.  The sandbox
cannot build the Rust code, so the link between the Rust text and the Lean definitions is by
reading: every model definition cites the file and lines it transcribes.

## Conventions of the model

* `usize` has 32 or 64 bits: definitions that depend on the width, and theorems about them, take an instance of `Target` (Basic.lean), so that
  theorems of the run-time and emission layers hold on both kinds of targets.  There are no global instances; `w64` and `w32` are the two
  targets.  Macros run on the host, which has 64 bits (on other hosts they do not compile, see `c57_hosts`): declarations of `Model/Macros`, `Model/Parsing`, `Model/Expand` and what
  depends on them are fixed at `w64` with `attribute [local instance] w64`, as are most examples.
* A computation that can panic or perform an unchecked access returns `Res α := Except Fault α`, where
  `Fault` is `panic` (Rust panic: bounds-checked index, `unwrap`, `expect`, checked arithmetic in debug
  builds) or `ub` (an out-of-bounds `get_unchecked`, i.e. undefined behaviour).
  Proving that a function returns `.ok _` is therefore a memory-safety and panic-freedom statement.
* `Vec`, boxed slices and arrays are `List`.  `&mut` functions return the new value.
  `get_mut` returns the *position* of the entry it hands out a reference to; writing through the
  reference is a separate step that replaces the value at that position.
* Keys `K` and query keys `Q` are arbitrary types.  Equality (`PartialEq`), equivalence
  (`Equivalent::equivalent`), order (`Ord::cmp`, `Comparable::compare`), hashing
  (`Hasher::hash_one`) and `Scalar::index` are function parameters.  What the Rust traits document as laws
  (equality is an equivalence, equal keys hash equally, order is total, query order is consistent
  with key order) are hypotheses of the theorems; each is stated in a named structure with a
  non-trivial instance next to the theorems.
* `sort_by` (stable) is `List.mergeSort`.  `sort_unstable_by` is an arbitrary function parameter
  assumed only to return a permutation that is sorted by slot number.
* `hashbrown` tables used as temporary storage are modelled by their documented contract
  (insert / contains / get / remove).  For the hash-based deduplication the lookup is an arbitrary
  function parameter that meets the contract "returns an entry satisfying the predicate, and returns
  one whenever an entry with the same hash satisfies it".
* A `Vec<u64>` cannot hold more than `isize::MAX` bytes, so theorems on sizes assume `length < sizeLimit` (2^60, or 2^28 on
  32-bit targets) or, where a table of slots is built, `length < tableLimit` (2^56, or 2^24).

## Trusted base

* Lean 4.33.0 kernel; Mathlib as installed.  Axioms: `propext`, `Classical.choice`, `Quot.sound` only
  (checked with `#print axioms`; see the end of this file for the list).  No `sorry`, no own axioms, no `native_decide`/`bv_decide`.
* The transcription of Rust into Lean (by reading).
* Rust's standard library and `hashbrown` (contracts above), `rustc`'s semantics of
  `get_unchecked`, pointers and arrays.
* `quote!`/`syn` token handling: the emitter computes a data structure (constructor name, literals, array lengths, `Model/Emit`); its rendering by the
  `quote!` templates is modelled as token trees (`Model/Tokens`, `declTokens`), with the caller's types and expressions as given tokens.
  Parsing of macro input is modelled on token trees; `syn`'s primitives (identifiers, punctuation, visibilities, terminated lists) are
  transcribed, its parsers for expressions, types and paths are arbitrary functions that return a suffix of their input (`Consumes`).
* `Model/Compile.lean`, `Model/ConstEval.lean` and the typing rules in `Props/MacroSpec.lean`: what `rustc` makes of the emitted
  data structure (how it reads integer literals, which array lengths it accepts, what evaluating the
  constructor call yields, which constructors are `const fn`).
* `Props/BorrowSpec.lean`: Stacked Borrows and Tree Borrows as published, without protectors, interior mutability and deallocation; used for C59 only.

## What is modelled

| files in `/repo/frozen-collections-core/src` | model |
|---|---|
| `utils/dedup.rs`, `utils/eytzinger.rs`, `utils/bitvec.rs` | `Model/Dedup`, `Model/Eytzinger` (over the natural numbers; `Model/EytzingerChecked` does every operation on `usize` as the machine does, and `c09_no_overflow`, `c10_no_overflow` show that it is the same), `Model/HashAnalyzer` |
| `analyzers/*.rs` | `Model/HashAnalyzer`, `Model/ScalarAnalyzer`, `Model/SliceAnalyzer` |
| `hash_tables/*.rs` | `Model/HashTable` |
| `hashers/*.rs` | `Model/Hashers` |
| `maps/*.rs`, `fz_maps/*.rs`, `inline_maps/*.rs` | `Model/Maps`, `Model/FzMaps`, `Model/InlineMaps`, `Model/MapImpl` |
| the same constructors, with trait functions that answer differently from call to call | `Model/Varying` |
| the search of every map type, with the calls of `Hash`, `Scalar::index`, `Equivalent` and `Comparable` it makes | `Model/Calls` |
| the reborrows of entries by `get_mut`, `find_mut` and `get_disjoint_unchecked_mut`, of every map type | `Model/Borrows` |
| the impls of the map and set traits for the collections of std and hashbrown (those collections themselves by their documentation) | `Model/StdImpls` |
| who can call the functions of the map types (`pub` or not, trait in scope), and with which query types | `Model/Api` |
| `Debug` of collections, iterators and set operations (the builders of `core::fmt` are a parameter; writing never fails) | `Model/DebugFmt` |
| The templates of the generator (`type_sig`, `ctor`, set wrappers, hash tables, hashers, slots) as tokens | `Model/Tokens` |
| The bounds of the `impl` blocks of emitted maps and sets, and of `Eq` for all maps; visibility of the functions of sets | `Model/Traits` |
| The analyzers, `using_hash`, `using_eq`, `FzHashMap::with_hasher`, `FzStringMap::with_hasher` with the work they do (recorded events, not time; the work inside hashbrown and of sorting is not counted) | `Model/Costs` |
| The eight procedural macros as functions from tokens to tokens: parsing, processing, emission, the suffix `i32` that undecided integer literals get, compile errors (parsing and printing of single expressions and types by `syn` are parameters) | `Model/Expand` |
| `derive(Scalar)` as a function from tokens to tokens (generics, where clauses, attributes, fields and the bodies of structs and unions are parsed by parameters) | `Model/Derive` |
| The public interface of `CollectionEmitter` for build scripts: configuration, identifiers, tokens (the Unicode classes of identifiers are a parameter; `proc_macro2::Ident::new` and `format_ident!` are modelled from their documentation) | `Model/Builder` |
| Module trees, visibility and re-exports of the facade, core and macro crates under each feature set (of `foldhash` and `core` only what is used) | `Model/Exports` |
| the type declarations of `hashers/`, `hash_tables/`, `maps/`, `inline_maps/`, `inline_sets/`, `fz_maps/`, `fz_sets/`, `maps/iterators.rs`, `sets/iterators.rs`: parameters and field types; the associated types of the `SetIteration` impls | `Model/Types` |
| `sets/iterators.rs`, `traits/set_ops.rs`, `partial_eq_trait_funcs` once more, on arbitrary implementations of `traits/set.rs`, `set_iteration.rs`, `set_query.rs`, `len.rs` | `Model/OwnSets` |
| `derive(Clone)` of the map, set, facade and hash table types | `Model/Clones` |
| lookups made by the set operations | `Model/Probes` |
| lookups and operations whose trait functions have effects and panic (constructors: `Model/EffectBuild`) | `Model/Effects` |
| serializers that fail, documents of a self-describing format, collections inside collections; the format itself is an assumption, serde's own code is not modelled | `Model/Formats` |
| constructors whose trait functions have effects and panic; `sort_by` and hashbrown only as far as they call these functions; unwinding itself is not modelled (the half-built vectors are dropped) | `Model/EffectBuild` |
| set iterators, comparisons and bit operators of sets whose lookups (and, for the operators, `Hash`, `Eq` and `Clone` of the elements) have effects and panic; hashbrown's `HashSet::insert` is a hash call, calls of the closure that hashes again, a search in dialog with `Eq`, and storing | `Model/EffectSets` |
| `==` of maps and `Clone` with user code that has effects and panics; how the memory of a half-finished clone is freed is not modelled | `Model/EffectMaps` |
| `Debug` written in the crate, with sinks and user code that fail, panic and have effects; the builders of `core::fmt` as in its source, what they write as a parameter; derived `Debug` and types that pass the call on to an iterator of std are not treated | `Model/EffectDebug` |
| `serialize`, `visit_map` and `visit_seq` with serializers, sources, `Default` of hashers and functions of keys that fail, panic and have effects; the entry point `deserialize`, which hands the visitor to the deserializer, is not modelled here | `Model/EffectSerde` |
| `from_iter` of the eight run-time types with iterators, `Default` of hashers and functions of keys that panic and have effects; when `Vec` makes room is left open; `AsRef<str>` of keys that string collections are made from may have effects too | `Model/EffectCollect`, `Model/EffectBuild` |
| lookups and `get_disjoint_mut` of `FzStringMap` with queries whose `AsRef<str>` panics, has effects or is inconsistent | `Model/EffectText` |
| traits/collection_magnitude.rs, hash_tables/hash_table.rs, maps/hash_map.rs with any magnitude | `Model/Magnitudes` |
| `Clone` and `count` in `maps/iterators.rs`, `sets/iterators.rs` | `Model/IterClones` |
| `impl` blocks for the standard collections in `traits/*.rs`: bounds | `Model/StdTraits` |
| declarations in `traits/*.rs`, trait objects | `Model/Objects` |
| `traits/len.rs`, `hashers/*.rs` on owned and borrowed keys | `Model/Len` |
| `maps/decl_macros.rs`, `maps/iterators.rs` (lookups, `Index`, iterators, equality, disjoint access) | `Model/MapImpl`, `Model/History`, `Model/Iterators` |
| `sets/*.rs`, `fz_sets/*.rs`, `inline_sets/*.rs` (contents, relations, operators, iterators) | `Model/Sets` |
| `traits/scalar.rs`, `macros/derive_scalar_macro.rs` | `Model/Scalar` |
| serde support in `maps/decl_macros.rs`, `sets/decl_macros.rs`, `fz_maps`, `fz_sets` | `Model/Serde` |
| `From<map>`, `From<[T; N]>`, `FromIterator` of the sets | `Model/Routes` |
| `emit/*.rs`, `macros/processor.rs` and the fz macros | `Model/Emit`, `Model/Literals`, `Model/Macros`, `Model/Compile`, `Model/ConstEval` |
| `macros/parsing/*.rs`, `macros/macro_api.rs`, the declarations in `emit/collection_emitter.rs` `postflight` | `Model/Parsing` |

Not modelled: `syn`'s parsers for expressions, types and paths, the
text of doc comments and attributes in generated code, `emit` used from build scripts
beyond the emitter itself, the concrete hash functions (any function is allowed), targets whose `usize` has 16 bits.

## The repository's own tests, run on the model

`Conformance/*` transcribes the unit tests of the repository and runs them on the model.  These are tests of the transcription, not proofs: they
check that the definitions give the answers the Rust code is known to give.

* `Conformance/Units`: slice, scalar and hash-code analyzers, `Scalar::index`, `derive(Scalar)`, bit vectors, deduplication, hashers, dense, sparse and hash maps.
* `Conformance/Iterators`: all tests of `maps/iterators.rs` and `sets/iterators.rs`.
* `Conformance/BuildScript`: the build script of `srcgen` and its test.
* `Conformance/Macros`: all tests of `macros/macro_api.rs`, `emit/collection_emitter.rs` and `emit/collection_entry.rs`: errors, chosen representations,
  literal suffixes, and the exact text of an expansion.

Left out: cases that depend on a random number generator, one of eight million entries, and the debug output of `syn` values.

## Plan per property

| id | modelled | proof |
|----|----------|-------|
| C01 | dedup, hash analyzer, hash table build and find, HashMap, FzHashMap | bucket invariant of the built table, refinement to last-match lookup |
| C02 | sort+dedup, Eytzinger layout and search, maps on top | search-tree invariant of layout, refinement |
| C03 | scalar analyzer, dense / sparse / hash maps, FzScalarMap | case split on analysis result, refinement (full-range inputs excluded, see C18) |
| C04 | slice analyzer, range hashers, FzStringMap | analyzer range validity + C01's table refinement |
| C05, C06 | entry arrays of all maps | permutation of the keep-last sub-list |
| C07 | `using_eq`, `using_hash`, `using_cmp`, `SortedAndDeduppedVec::new` | list induction, loop invariant for the hash variant |
| C08 | `has_duplicates` | induction |
| C09, C10 | `get_eytzinger_index`, `eytzinger_layout`, `eytzinger_search_by` | loop invariant of in-place permutation; arithmetic of perfect-tree ranks |
| C11, C13, C14 | `HashTable::new/find/find_mut` | table invariant |
| C12, C43 | `BitVec`, `analyze_hash_codes` | bitmap refines a finite set; loop invariants |
| C15 | integer `Scalar` impls on `BitVec w` / integers | bit-vector arithmetic for all widths |
| C16 | derive macro decision logic | induction on variants |
| C17, C18 | `analyze_scalar_keys` with explicit overflow mode | full statement refuted by a witness; proved outside the full range |
| C19 | `DenseScalarLookupMap::new` | pigeonhole on strictly increasing indices |
| C20, C21, C22 | slice analyzer, hashers | loop invariants |
| C23 | `has_duplicates`, `get_disjoint_(unchecked_)mut` | refuted for queries whose `Eq` is finer than equivalence; proved for compatible ones |
| C24 | operation histories | simulation by induction on the history |
| C25, C30 | `PartialEq` | counting argument |
| C26-C29, C31 | set iterators as state machines, relations, operators | induction on the iterator state, for any value that behaves as a set (`Props/Sets`) and for sets made by any two constructors in terms of the elements passed in (`Props/BuiltSets`) |
| C32 | set wrappers | from map theorems |
| C33 | `Index` | case split |
| C34, C35 | serialize/deserialize as entry sequences | refinement |
| C36 | `Default` instances | direct |
| C37, C38 | code generator and inline maps | refinement |
| C39 | non-literal macro path | refuted by witness, proved for distinct keys; exact condition for each kind |
| C40 | `inject_underscores` | induction on digits |
| C41, C42 | option and key classification logic | case analysis, induction over keys |
| C44 | iterators | induction |
| C45, C46 | scan map, panic freedom | from the above |
| C47 | `Deserialize` visitors with an explicit size hint | refuted by a witness; harmless exactly if the hint can be allocated |
| C48 | string macro path with declared key type | refuted for other types than `Box<str>` from four keys on; proved otherwise (exact condition) |
| C49 | literal suffixes in `handle_literal_scalar_keys` | refuted for unsuffixed literals; proved otherwise |
| C50 | all constructors, with no law assumed of any trait | bounds invariants of the representations, kept by stores, induction over the stores |
| C51 | constructors with one function parameter per trait call (`Model/Varying.lean`) | refuted for the dense map and `FzScalarMap`; bounds invariant for sparse map and hash table |
| C52 | `new_raw` of the inline types | refuted for four types, with the exact condition on the arguments; bounds invariant for the other two |
| C53 | slice analyzer | measured prefix/suffix are common to all keys; every adequate range yields a candidate that is not longer; induction over the search |
| C54 | sort-and-dedup and everything built on it | sorting and keep-last deduplication are a normal form: a sorted list without equal neighbours is determined by its elements |
| C55 | emitted items (`Model/ConstEval.lean`: which initializers are constant) | refuted for `static` maps with literal keys and a value that is not constant; proved otherwise; exact condition |
| C56 | token trees, parsers of all call forms, emitted declarations | soundness and completeness with respect to a grammar given as inductive relations |
| C57 | emitted maps looked up with other hash functions; `usize` literals and `Scalar` implementations of 32-bit targets | code that is right on the host compiles on a target of another width exactly if its `usize` literals fit; exact condition for hash maps, refuted where it fails; proved for integer literals except `isize`, exact condition and refutation for `isize` |
| C58 | the lookups again, recording each call of a user function (`Model/Calls.lean`) | proved: the recording search explains all four lookup functions, and its calls are bounded |
| C59 | `get_mut` and `get_disjoint_unchecked_mut` as sequences of reborrows and reads of the entries (`Model/Borrows.lean`), run on the borrow stacks and borrow trees of `Props/BorrowSpec.lean` | Tree Borrows: proved for all maps, queries and uses; Stacked Borrows: refuted for every map whenever two keys are present, proved when only the last is |
| C60 | the trait impls for the standard collections over their documented behaviour (`Model/StdImpls.lean`); programs of trait calls; collecting with duplicates | simulation by induction over programs; the two differences found are refuted with witnesses and characterised |
| C61 | visibility of the functions and bounds on query types per map type (`Model/Api.lean`), composed with the macro model | by cases over the emitted type and the analysis of the keys; exact conditions for `get_mut` and for the query types, with witnesses for the violations |
| C62 | the `Debug` impls of collections, iterators and set operations over arbitrary builders of `core::fmt` (`Model/DebugFmt.lean`) | the text is a fixed shape of the items still to come, at every reachable state (by the walking invariants of C26/C27/C44); iterators that show more are refuted with witnesses, `c62_into_keys_iff` says exactly what they show |
| C63 | the `quote!` templates of the generator as token trees (`Model/Tokens.lean`); a scanner that tells free names, crate names and members apart | every name of the output is classified, by composition of the templates; false for computed keys (`vec!`, `std::sync::LazyLock`): `c63_refuted`, exactly when in `c63_self_contained_iff` and `c63_macro_iff` |
| C64 | the same templates; inductive relations for types, hashers, map and set constructors and declarations, one rule per signature in the crate | for every well-typed constructor (C38) type and expression derive the same type, with the value that `Emitted.compile` gives; the relations are functional on tokens (`c64_unambiguous`, `c64_meaning`), given that the caller's types have balanced brackets and a pair of expressions splits in one way (`Props/ReadSpec`) |
| C65 | the bounds of the `impl Eq` blocks of all map types (`Model/Traits.lean`), equality of maps (C25) and sets (C30) | bounds give `V: Eq`, then C25; false for `InlineEytzingerSearchMap`: `c65_violated`, exactly when in `c65_emitted_iff` |
| C66 | the bounds of all `impl` blocks of the emitted types as functions of what the key and value types implement; visibility of the functions of sets | case analysis on the type chosen by the macro (`macro_type`), compared with needs that do not mention the representation; false for `Default`, `FromIterator`, `Deserialize`, `Eq` and `get` of sets: exactly when in `c66_building_iff`, `c66_map_eq_iff`, `c66_set_methods` |
| C67 | `FzScalarMap::new` for a comparison unrelated to the indices (model as for C01) | the sorted entries are those of the order given; the chosen representation depends on the indices only; if the order fits, the map satisfies the invariant of C01 for the order of the indices; otherwise the dense map misplaces an entry and the sparse one writes out of range: `c67_lookups_iff`, `c67_contains_iff`; false: `c67_violated` |
| C68 | `analyze_hash_codes` and `HashTable::new` (model as for C12) | the specification (`Props/SizeSpec`) counts crowded codes with sets of residues; the loop over sizes with its early exits returns the first size within tolerance: `c68_size_iff`, `c68_table`; when none is, the smallest: `c68_equal_codes`, `c68_not_fewest` |
| C69 | the analyzers again, recording the comparisons and the pieces hashed (`Model/Costs.lean`) | forgetting the record gives the functions of `Model/SliceAnalyzer`, `Model/HashAnalyzer`; bounds by induction over the loops; the record is complete: another hash or another comparison that agrees with the first one on everything recorded gives the same result and the same record (`Lemmas/CostCongr.lean`): `c69_slice_analysis`, `c69_string_map`, `c69_hash_codes` |
| C70 | `using_hash` and `using_eq` again, counting comparisons (`Model/Costs.lean`) | false: `c70_violated`; the count is exactly d·n − d(d−1)/2 for d superseded entries (`c70_count`), which is quadratic when half of the entries are (`c70_quadratic`) and 0 when there are none (`c70_few_partial`) |
| C71 | the macros from tokens to tokens (`Model/Expand.lean`: parser, `process`, emitter, `quote!` templates, compile errors), keys and values being pieces of code | composition of C56 (parser), C42/C37/C39 (what is emitted and how it behaves) and C64 (the only meaning of the tokens); `c71_scalars`, `c71_strings`, `c71_empty`, `c71_hashed`, `c71_ordered`, `c71_scalar_exprs`, `c71_string_exprs_small`/`_large`, `c71_malformed`, `c71_rejected`, `c71_error` |
| C72 | nothing new: the emitter, the macros, the analysers and the run-time constructors | `Props/StrategySpec.lean` states the choice as relations `ScalarStrategy`, `StringStrategy` between the finite set of different keys and a strategy, shown to be (up to the position of a part) functional; the analysers are characterised exactly (`scalar_choice`, `slice_choice`) and the result is followed to the constructor that is emitted (`c72_emit_*`, `c72_macro_*`) or built (`c72_fz_scalar_map`, `c72_fz_string_map_partial`). Three documented strategies are refuted for some collections |
| C73 | the derive macro from tokens to tokens (`Model/Derive.lean`: `DeriveInput::parse` of `syn`, the check of the variants, the `quote!` templates, compile errors) | `Props/DeriveSpec.lean` has a grammar of items and the meaning of the generated `impl`; the parser is sound and complete for the grammar (induction on the variants), the numbers of the arms are invariants of the loop, and `c73_in_use` composes with C03 and C72 |
| C74 | the builder methods of `CollectionEmitter`, `format_ident!` and the step to tokens (`Model/Builder.lean`) | `Props/BuilderSpec.lean` defines the settings by the last call of each method, consistency, names and the declaration that is asked for; `c74_last_call_wins` by induction on the calls; `c74_code` composes C37, C38, C41 and C64 for each emit function; `c74_outcome_partial` says exactly when there is code, an error or a panic. That unusable names are errors is refuted |
| C75 | nothing new; the seed (`get_seed`, core/emit/collection_emitter.rs l.221-229) is the field `seed` of the surroundings of a macro call and a parameter of the emit functions | `Props/StdSpec.lean` says which operations ignore positions and which observations count as the same; `c75_histories` runs both maps against the abstract dictionary and shows by induction on the operations that the abstract runs agree up to order; for generated code, the last literal of the tokens is the seed (`Lemmas/Seeds.lean`), which yields equivalences. Reproducibility of builds is refuted |
| C76 | nothing new | `Props/SpaceSpec.lean` counts the tokens of a piece of code and the cells of a collection, and says what compact code is (`CompactCode`: some of the given entries and one bounded table). From the bounds on the size search of `analyze_hash_codes`, the range condition of `analyze_scalar_keys`, and the printers of `Model/Tokens.lean`; `c76_macro` starts from arbitrary tokens, the only assumption on `syn` being that printing an expression that was read takes no more tokens than it was written with (`PrintsShort`) |
| C77 | the declarations of modules, items and re-exports of the three crates with their visibility and features | `Props/ExportSpec.lean` gives the rules for names and paths (`Binds`, `Leads`, `Means`) and a scanner for the absolute paths in tokens (`pathsIn`). A table of all names (`Lemmas/ExportTable.lean`) is shown to be closed under the rules, so it has every name there is, whatever the path or the module it is used from; names are never ambiguous in it. The paths in emitted code by induction over the templates, for all collections and all code of the caller. Functions that follow type arguments (`Type::<..>::new_raw`) are covered by C64 |
| C78 | the fields of all types of the library, as a small language of types (`Model/Types`); the iterator type of every `SetIteration` impl; the type of an emitted static | the language's rules for `Send`, `Sync`, `'static` as an inductive relation over an arbitrary assignment for the user's types (`Props/TypeSpec`); inversion of every rule, then an equivalence per type for all arguments |
| C79 | as C78 | subtyping is two more judgements of the same relation (`sub`, `sup`), invariance is both; equivalences per type, negation for the set operations and for the keys of mutable iterators |
| C80 | sets are any length, any membership test and any iterator (a state and a step); a call of `next` of the four operations and the checks are relations, since their loops need not end | steps are deterministic and follow a list; induction over the loops and over the calls; counterexamples with a set whose iterator starts over |
| C81 | the derived `Clone` of every collection, with clones of keys and values that may panic | the search functions are natural in the entries; case analysis over the representations; equality through C01 and C10 |
| C82 | every construction and emission on two targets (`Target`) of possibly different widths | lemmas that each checked operation computes the same below both limits; the simulation behind C05 for histories; exact condition for scalar keys, refuted otherwise |
| C83 | `Len` and `AsRef<str>` of the standard types, the length and range hashers on them | content of a value defined independently; `Len` counts it, `Borrow` keeps it; hence the hashers are lawful and C01 applies |
| C84 | the declarations of the traits; objects of `dyn MapQuery` as data with a table of functions | the rules of the Rust Reference as an inductive predicate; programs on slices of objects refine dictionaries with unknown key type, by C24 |
| C85 | the bounds of the `impl` blocks for the standard collections | the bounds of the collections' own functions as a separate predicate, compared for all combinations |
| C86 | the `Clone` impls of the iterators, `count`, programs on a pool of iterators (`Model/IterClones`) | simulation by a pool of lists, by induction on the program, from the walking invariants of C26, C27 and C44 |
| C87 | `HashTable` and `HashMap` over an arbitrary implementation of `CollectionMagnitude` | the table over numbers with its slots converted is the table built (induction over the filling of the slots); lawful conversions carry the known theorems over; unlawful ones: exact condition on the slots, witness of undefined behaviour |
| C88 | `process`, `postflight`, the constructors that are `const fn` | case split on the class of the keys; both directions, for `static` and for every form; witness where the documentation's "when possible" fails |
| C89 | `eytzinger_layout`, `HashTable::new`, the constructors and emitters already modelled | exact order per collection: ascending if and only if there are few keys; the order of the implicit search tree, or of descending remainders of the hash codes, otherwise; witness where ascending order fails |
| C90 | the set iterators, tests and operators with a record of the lookups they make (`Model/Probes`), equal to the plain functions after erasing the record | a schedule of the lookups still to be made is an invariant of `next`; induction over the calls |
| C91 | the lookups of all map types with trait functions that read and change the state of the program and may panic, and programs that catch panics (`Model/Effects`) | relations between a computation with effects and an outcome that are closed under sequencing carry over from the trait functions to the lookups and operations; the simulation by a dictionary (C24); for memory safety, every access is one that some pure function would make (C50) |
| C92 | serializers that may refuse any call, documents as trees, `deserialize` of the eight types with items that are decoded recursively (`Model/Formats`) | induction over the nesting of types: a map keeps its contents if its keys keep their equality and its values keep their contents; induction over the items for the errors. Scalar keys must not have the largest index (C18 says why) and the format must lend string keys (C34) |
| C93 | every constructor with trait functions that run in the state of the program and may panic, called where the code calls them; the stable sort and the table of hashbrown are arbitrary dialogs that ask such functions (`Model/EffectBuild`) | the constructor is related to the pure one of C01-C19 by a relation closed under sequencing (answers or panics; answers; leaves a mark or answers); for arbitrary answers a Hoare logic for safety with the bounds of the tables as postconditions |
| C94 | the four set iterators, the comparisons and the operators with lookups that run in the state of the program and may panic; `next` returns the iterator also when it panics, since what it did through `&mut self` remains (`Model/EffectSets`) | every iterator is shown to work off a list of elements with a test for each; about such lists, by induction over the calls: what is given is a part of what is wanted, and each panic loses at most one element; comparisons by the relations of C91; operators by induction over that list and the fuel, for every search that keeps hashbrown's contract |
| C95 | `==` of maps and the derived `Clone` of every map type with user code that runs in the state of the program and may panic (`Model/EffectMaps`) | `==` by the relations of C91 to the pure comparison (C25), for three readings of lawful code with effects; the comparisons made by running it with an equality that records its arguments; `Clone` likewise to the pure clone (C81); safety by showing that lookup tables depend on the number of entries only |
| C96 | `fmt` of the collections, borrowing iterators and set operations, on the builders of `core::fmt` transcribed with results and effects (`Model/EffectDebug`) | equality with a list of steps performed until one fails, by induction over the iteration; texts by a relation that says what a step leaves in the sink; set operations through the plans of C94 |
| C97 | `serialize`, `visit_map` and `visit_seq` with serializers and sources that have effects (`Model/EffectSerde`) | equivalence with relations that say which calls are made and what the first failure does, by induction over the items; contents, blame and memory safety through C93 |
| C98 | `from_iter` with iterators that have effects (`Model/EffectCollect`) | equivalence with a relation that says which calls are made and what the first panic does, by induction over the items, for any policy of making room; contents, blame and memory safety through C93 |
| C99 | lookups of `FzStringMap` with queries whose `AsRef<str>` has effects (`Model/EffectText`) | what a search returns has the key that was looked for, by induction over the bucket; `has_duplicates` on strings decides distinctness, so that the references differ; contents and blame through the relations of C91 |

## Where the code and the property disagree

The property is kept as stated, its negation is proved for a witness, and the part that holds is proved in a
theorem named `_partial`.

* **C18** Scalar keys that contain both the smallest and the largest index of a type as wide as `usize` (such as `0` and `u64::MAX`, or
  `0` and `u32::MAX` on a 32-bit target)
  make `max - min + 1` overflow: `FzScalarMap`/`FzScalarSet` construction panics in debug builds, and in release builds
  too for reasons shown in `c18_construction_can_fail`.
* **C23** `get_disjoint_mut` checks its queries with the query type's `Eq`. If that `Eq` is finer than
  `Equivalent`, two queries reach the same entry and two mutable references to one value come out.
* **C28** `Union::size_hint` may report a lower bound larger than the number of remaining items once iteration has begun.
* **C34** `FzStringMap`/`FzStringSet` deserialize keys as `&str`, which fails for deserializers that cannot lend
  strings from their input (readers, escaped JSON strings).
* **C39** Macros with computed keys use inline maps whose constructor panics on equal keys below a size threshold (ordered keys: always);
  above it the last entry wins.
* **C47** The deserializers call `Vec::with_capacity` with the announced length; a huge announcement panics.
* **C48** With four or more computed string keys and a declared key type other than `Box<str>`, the emitted constructor
  `FzStringMap::<K, V>::new` does not exist, so the call does not compile; with three keys it does.
* **C49** Integer literals without any suffix are emitted as `i32` literals although another key type has been declared.
* **C51** `DenseScalarLookupMap::new` (and the dense case of `FzScalarMap::new`) asks the first and the last key for their indices once to
  decide whether the range is contiguous and again to fill in `min` and `max`. A safe `Scalar::index` that answers differently the second
  time makes later lookups read out of bounds.
* **C52** The raw constructors of the inline types are safe functions that check nothing, yet the lookups rely on their arguments. They
  are meant for generated code (the modules are `#[doc(hidden)]`), but safe code can call them.
* **C55** If all keys are literals the handlers declare the values constant without looking at them. A `static` map with literal keys and a
  value such as `String::from("x")` is then emitted as `static M: T = ...` and does not compile; with one computed key it is wrapped in `LazyLock`
  and does.
* **C57** Tables are laid out with the hash function and the indices of the machine that generates the code. If `FixedState` (`foldhash`) computes
  other hashes on the target (as it may where there is no 64-bit multiplication), lookups in emitted hash collections miss keys
  (`c57_emit_hash`, `c57_emit_string`: exactly those whose slot differs; `c57_strings_refuted`: a map that finds none of its keys). The index of an
  `isize` literal is taken with 64 bits, so lookup tables of `isize` keys do not compile for 32-bit targets (`c57_isize_refuted`);
  `isize` collections of the other kinds work (`c57_isize_partial`).
* **C59** `get_disjoint_unchecked_mut` calls `get_mut` for one key after the other and keeps raw pointers to the values. Every such call borrows all
  entries mutably again (`self.entries.get_unchecked_mut(..)`, for inline maps already `&mut *self`), which under Stacked Borrows invalidates the
  pointers obtained before; turning them into references is then undefined behaviour (`c59_stacked_borrows_violated`: always, as soon as two keys are
  found; exactly `c59_stacked_borrows_iff`: scan, hash and inline maps fail as soon as any key follows one that is found). Under Tree Borrows the same code is fine (`c59_tree_borrows`). The project's tests skip this call under Miri (tests/common/map_testing.rs l.70).
* **C60** `get_disjoint_mut` with equal keys none of which is present: `HashMap` of std and hashbrown return `None`s, frozen maps and the impl for `BTreeMap`
  panic (`c60_absent_duplicates_violated`, exactly `c60_disjoint_iff`). When a key is written twice, `HashMap` keeps the first key with the last value, frozen maps
  keep the last key (`c60_collected_keys_violated`): visible in `get_key_value` and iteration for keys that are equal but not identical. Likewise `get` of a set
  (`c60_collected_elements_violated`, exactly `c60_collected_hash_set`); `BTreeSet` and frozen sets both keep the last element (`c60_collected_btree_set`).
* **C61** `get_mut` of sparse scalar maps is not `pub` (core/maps/decl_macros.rs l.613), so `m.get_mut(&k)` stops compiling when a key is added or removed such
  that the keys leave a gap (`c61_get_mut_violated`, exactly `c61_get_mut_iff`), unless `MapQuery` is imported. The bounds on query types depend on the representation,
  hence on the number of entries, the values of the keys and whether they are literals (`c61_query_violated`, exactly `c61_query_ints`, `c61_query_exprs`).
* **C62** `IntoKeys` and `IntoValues` derive `Debug`, so that `{:?}` of an iterator over keys also writes the values still inside, and conversely; `ValuesMut`
  writes the keys; `SymmetricDifference` writes the `Chain` it wraps (`c62_violated`, exactly `c62_into_keys_iff`). The iterators of std write their items only.
* **C63** All paths in generated code start with `::frozen_collections` except two: collections with computed keys are built from `vec![..]`, and statics with
  computed keys are `std::sync::LazyLock`s. Neither resolves in a `no_std` crate (the crate is advertised for them), and both can be captured by an item or
  macro of that name at the call site (`c63_refuted`). Expansions are self-contained exactly if all keys are literals of one kind (`c63_macro_iff`).
* **C65** `impl Eq for InlineEytzingerSearchMap` asks for `V: PartialEq` where all other map types ask for `V: Eq`
  (core/inline_maps/inline_eytzinger_search_map.rs l.155-160). So `fz_ordered_map!` with four or more computed keys and `f64` values is `Eq`, and with a NaN
  in it `m == m` is false (`c65_violated`).
* **C66** The documentation says that all representations have the same API surface. `Default`, `FromIterator` and `Deserialize` are implemented exactly
  from the fourth (for integers eighth) entry on if keys are computed, and never otherwise; `Eq` of ordered maps see C65; `get` of sets is private
  in `FzHashSet` (core/fz_sets/fz_hash_set.rs l.75), so `s.get(&x)` compiles for three computed elements and not for four (`c66_violated`).
* **C67** `Scalar` requires `Ord` but not that `Ord` be the order of the indices, and `#[derive(Scalar)]` numbers the variants by declaration whatever
  `Ord` the user wrote. `FzScalarMap::new` sorts by `Ord` and takes the first and last entries for those with the smallest and largest index
  (core/maps/dense_scalar_lookup_map.rs l.66-75, core/maps/sparse_scalar_lookup_map.rs l.54-76). For an enum `A, B, C` with `A < C < B`, looking up `B` gives
  the value of `C` (`c67_violated`); in reverse order nothing is found (`c67_reversed`); with gaps construction panics (`c67_sparse_panics`).
* **C70** `DeduppedVec::using_hash` collects the positions to drop in a `Vec` and searches it from the front for every entry
  (core/utils/dedup.rs l.50, l.68), where `using_eq` and `SortedAndDeduppedVec` use a `HashbrownSet`. `FzHashMap::new` on n entries with d duplicates
  makes exactly d·n − d(d−1)/2 comparisons (`c70_count`): quadratic when half of the keys are repeated (`c70_quadratic`).

- C72: the documentation lists strategies that are not used. "Ordered Scan" and "Binary Search" are never chosen (`c72_ordered_scan_refuted`): small ordered collections get the linear scan without early exit, larger ones Eytzinger search. "Length as Hash" is never chosen by the run-time string types, which hash whole keys where the macros would use the lengths (`c72_length_as_hash_refuted`). "Linear Scan" is never chosen by the run-time types (`c72_small_scan_refuted`).

- **C74**: `symbol_name` and `alias_name` take any text. Documentation says that the `emit_*` functions fail "if the emitter was misconfigured", but a name that is not an identifier makes them panic (`c74_bad_name_panics`), and a keyword is accepted and yields code that does not compile (`c74_keyword_accepted`). `c74_outcome_partial` says exactly when this happens. The example in the documentation gives keys that differ from their expressions (`map_entry("Hello", "hello", ..)`); with four such entries no key of the emitted map is found (`c74_keys_must_agree`). The build script of the repository has the same slip, `set_entry("Grey", parse_quote! { "Gray" })` (srcgen/includes/make_collections.rs l.31): its ordered set of nine elements is not in order and does not contain "Gray" (`Conformance/BuildScript`).

- **C75**: the seed of the hash functions in generated code is `const_random!(u64)`, chosen anew whenever the crate is compiled (core/emit/collection_emitter.rs l.226-229). Four string literals of the same length are replaced by different code in each build (`c75_violated`), and so are four hashed keys of a build script; `c75_macro_strings_iff`, `c75_emit_string_iff`, `c75_emit_hash_iff` say exactly when. What the code does is the same (C37, `c75_histories`).

- **C79**: the iterators that `union`, `intersection`, `difference` and `symmetric_difference` return have fields of type `<S as SetIteration<T>>::Iterator<'a>`, and the compiler treats an associated type as invariant in everything. So a union cannot be passed where a union over a shorter borrow is expected, though std's set operations can. `IterMut` and `ValuesMut` wrap `slice::IterMut<(K, V)>`, which makes them invariant in `K` although keys are only read (`c79_violated`, `c79_mutable_keys_violated`).
- **C80**: `SetIteration::Iterator` need only be an `Iterator`, but `Union`, `Intersection`, `Difference` and `SymmetricDifference` are `FusedIterator` whatever the sets are, and `Union::next` asks the iterator of the larger set again after it has answered `None`. With a set type whose iterator does not stay at its end, a union gives elements twice before its first `None` (`c80_union_violated`) and all four operations go on after their first `None` (`c80_fused_violated`). With iterators that stay at their end everything is right (`c80_union`, ...); without that, the other three operations are right up to their first `None`, and the union is if the iterator of the larger set stays at its end (`c80_union_once_partial`). Bounding the associated type by `FusedIterator` would do.
* **C82** The number of keys between the smallest and the largest one is computed in `usize`. A scalar map with the `u32` keys `0` and `u32::MAX`
  works on 64-bit targets and panics on 32-bit targets (`c82_violated`); `c82_fz_scalar_map_partial` shows that nothing else differs.
* **C84** The documentation calls `MapIteration` and `SetIteration` dyn compatible (frozen-collections/src/lib.rs, section Traits). They have associated types
  with a lifetime parameter, which excludes that (`c84_violated`); `c84_compatible_iff` says which traits are dyn compatible.
* **C85** `Set` for `HashSet`, all set traits for `BTreeSet` and `Map` for `BTreeMap` lack `?Sized` on the query type, so a `HashSet<String>` is no
  `Set<String, str>` although a `HashMap<String, V>` is a `Map<String, V, str>`; `MapQuery` for `hashbrown::HashMap` asks for a needless `Eq`
  (`c85_violated`, `c85_missing_iff`).
* **C87** the safe public trait `CollectionMagnitude` is trusted by `get_unchecked`: an implementation whose `MAX_CAPACITY` exceeds the largest value
  that converts (already by one: the end index of the last range equals the number of entries), so that `unwrap_or(CM::ZERO)` stores a zero, makes queries read
  a range such as `3..0` unchecked.  `c87_violated` shows it; `c87_safe_iff` and `c87_ordered_safe` give the conditions, `c87_lawful_partial` the claim for lawful magnitudes.
* **C88** "When possible, this happens automatically" (lib.rs, Performance Considerations): a static collection is constant data only if its keys are all
  integer literals or all string literals.  A key that is constant without being a literal (`-1`, a `const`, an enum variant) makes it a `LazyLock` that is
  built on first use (`c88_violated`); `c88_static_partial` gives the exact condition.
* **C89** ordered collections are not iterated in the order of their keys: the Eytzinger layout puts the root of the search tree first. `FzOrderedMap` from the keys 1, 2 yields 2 first (`c89_violated`); with two or more keys the order is never ascending (`c89_ordered_iff`), emitted collections keep it below four keys only (`c89_emit_ordered_iff`). Scalar collections are ascending if the keys fill their range or are close together and by descending remainder otherwise. The documentation says "a map with ordered keys" and does not promise an order.

Further observations made while modelling: string and integer literals mixed in one hashed or ordered call are not
rejected by the macro but by the compiler later; negative literals count as computed keys.
Of the map iterators only `Iter` has no `FusedIterator` impl. When no size meets the
tolerance, `analyze_hash_codes` falls back to the smallest size considered, not to the one with the fewest collisions, although it has tried that one too
(`c68_not_fewest`); two equal hash codes among fewer than 128 keys are enough for that (`c68_equal_codes`).

## Axioms

`#print axioms` was run on each of the 569 theorems listed in `MANIFEST.json`.  469 of them depend on
`propext`, `Classical.choice` and `Quot.sound`.  The others depend on fewer:

* no axioms: `c23_key_queries_compatible`, `c28_union_lower_bound_wrong`, `c28_union_refuted`
* `propext`: `c15_masks`, `c22_scalar_hasher`, `c34_error_propagates`, `c47_hint_irrelevant_partial`, `c49_literal_types_partial`, `c51_dense_varying_ub`, `c56_sound`, `c62_into_keys_iff`, `c62_violated`, `c78_named`, `c81_scan`, `c81_sets`, `c83_ranges`, `c84_violated`, `c85_missing_iff`, `c85_queries_partial`, `c85_supertraits`, `c85_violated`, `c90_difference`, `c90_recorded`, `c90_symmetric_difference`, `c92_map_document`, `c92_set_document`, `c96_plain`, `c99_conversion_panics`
* `propext`, `Classical.choice`: `c27_difference`, `c28_difference`, `c80_intersection`, `c80_intersection_once`
* `propext`, `Quot.sound`: `c08_has_duplicates`, `c08_no_duplicates_iff_distinct`, `c10_no_overflow`, `c15_index_is_position`, `c16_accepts_iff`, `c18_construction_can_fail`, `c18_construction_can_fail_32`, `c19_full_span_panics`, `c28_intersection_fits`, `c34_transient_string_set_fails`, `c34_transient_strings_fail`, `c40_groups`, `c44_map_into_iterators_exact`, `c44_map_iterators_exact`, `c44_map_mut_iterators_exact`, `c44_set_iterators_exact`, `c47_hint_iff`, `c47_hostile_hint_panics`, `c51_dense_iff`, `c51_fz_scalar_varying_ub`, `c52_dense_iff`, `c52_dense_raw_ub`, `c52_hash_nc_iff`, `c52_sparse_iff`, `c52_sparse_raw_ub`, `c54_hash_order_depends`, `c60_sets`, `c62_owning`, `c67_violated`, `c73_complete`, `c74_last_call_wins`, `c74_order`, `c75_order_depends`, `c76_emit_ordered`, `c76_fz_ordered_map`, `c78_collections`, `c78_iterators`, `c78_mutable_iterators`, `c78_set_iterator`, `c78_set_operations`, `c78_static`, `c79_collections_partial`, `c79_iterators_partial`, `c79_mutable_keys_violated`, `c79_set_operations`, `c79_violated`, `c81_fz_hash_map`, `c81_fz_scalar_map`, `c81_fz_string_map`, `c81_hash`, `c81_inline_map`, `c81_lookup`, `c81_ordered`, `c81_panics`, `c82_violated`, `c83_len`, `c84_compatible_iff`, `c84_query_partial`, `c87_violated`, `c92_wrong_kind`, `c94_blame`, `c95_clone`, `c95_clone_hostile_ordered`, `c95_clone_string`, `c98_collect`, `c98_one_outcome`, `c98_string_keys`, `c99_found`
