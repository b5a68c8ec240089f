import Verif.Model.SliceAnalyzer
import Verif.Model.ScalarAnalyzer
import Verif.Model.HashAnalyzer
import Verif.Model.Dedup
import Verif.Model.Hashers
import Verif.Model.Maps
import Verif.Model.FzMaps
import Verif.Model.Scalar
import Verif.Model.Iterators
import Verif.Model.Sets
import Verif.Model.Emit
import Verif.Model.DebugFmt
import Verif.Props.Emit

/-!
# The unit tests of the repository, run on the model

Every `example` is the transcription of a test of /repo, with the inputs and the expected results of that test.  They prove no property: they are
tests, and check that the model computes what the authors of the code say it computes.

Not transcribed are tests that depend on the concrete values of a random generator (core/analyzers/hash_code_analyzer.rs, cases 3 and 5), on
more data than the kernel evaluates (case 4 there), or on the text of `syn` values (core/emit/collection_entry.rs `test_debug`).
-/

namespace Frozen.Conformance

attribute [local instance] w64

open Frozen.Model Frozen.Props

/-- The bytes of an ASCII string. -/
def bytes (s : String) : Str := s.toList.map (fun c => UInt8.ofNat c.toNat)

/-- A hash function without collisions on the strings that occur (the tests use foldhash). -/
def demoHash (s : Str) : Nat := s.foldl (fun h c => h * 256 + c.toNat) 1

/-- `analyze_slice_keys` on the bytes of strings. -/
def analyzeStrs (ss : List String) : Res SliceAnalysis := analyzeSliceKeys (· == ·) demoHash (ss.map bytes)

/-! ## core/analyzers/slice_key_analyzer.rs -/

/-- `analyze_string_keys_test` (l.220-267), all nine cases. -/
example : analyzeStrs ["AAA", "ABB", "ACC", "ADD", "AEE", "AFF", "AGG", "AHH", "AII", "AJJ", "AKK", "ALL", "AMM", "ANN", "AOO", "APP",
    "AQQ", "ARR", "ASS", "ATT", "AUU"] = .ok (.left ⟨1, 2⟩) := by decide +kernel
example : analyzeStrs ["A00", "B00", "C00", "D00"] = .ok (.left ⟨0, 1⟩) := by decide +kernel
example : analyzeStrs ["A", "B", "C", "D", "E2"] = .ok (.left ⟨0, 1⟩) := by decide +kernel
example : analyzeStrs ["A", "B", "C", "D", "E2", ""] = .ok .general := by decide +kernel
example : analyzeStrs ["XA", "XB", "XC", "XD", "XE2"] = .ok (.left ⟨1, 2⟩) := by decide +kernel
example : analyzeStrs ["XXA", "XXB", "XXC", "XXD", "XXX", "XXXE"] = .ok (.right ⟨0, 1⟩) := by decide +kernel
example : analyzeStrs ["ABC", "DEFG", "HIJKL", "MNOPQR", "STUVWXY", "YZ"] = .ok .length := by decide +kernel
example : analyzeStrs ["ABC", "DEFG", "HIJKL", "MNOPQR", "STUVWX", "YZ", "D2", "D3", "D4"] = .ok (.left ⟨1, 2⟩) := by decide +kernel
example : analyzeStrs ["AAA", "1AA", "A1A", "AA1", "BBB", "1BB", "B1B", "BB1"] = .ok .general := by decide +kernel

/-- The keys of `out_of_range_bug` and `too_many_slices`: the decimal digits of `0..n`, each with a `1` behind. -/
def numbered (n : Nat) : List Str := (List.range n).map (fun i => (Nat.toDigits 10 i).map (fun c => UInt8.ofNat c.toNat) ++ [49])

/-- `out_of_range_bug` (l.270-281): no panic. -/
example : (analyzeSliceKeys (· == ·) demoHash (numbered 30)).toOption.isSome = true := by decide +kernel

/-- `too_many_slices` (l.284-296). -/
example : analyzeSliceKeys (· == ·) demoHash (numbered 300) = .ok .general := by decide +kernel

/-! ## core/analyzers/scalar_key_analyzer.rs, core/traits/scalar.rs -/

/-- `index` of an integer of a type, given by its name, on a 64-bit target. -/
def index64 (name : String) (x : Int) : Option Nat :=
  (scalarTypes64.find? (fun t => t.name == name)).map (fun t => t.index 64 (BitVec.ofInt t.width x))

/-- `index` of an integer of a type, given by its name, on a 32-bit target. -/
def index32 (name : String) (x : Int) : Option Nat :=
  (scalarTypes32.find? (fun t => t.name == name)).map (fun t => t.index 32 (BitVec.ofInt t.width x))

/-- The indices of keys of type `i32`. -/
def i32Indices (xs : List Int) : List Nat := xs.map (fun x => (index64 "i32" x).getD 0)

/-- `test_analyze_scalar_keys_empty`, `.._dense_range`, `.._sparse_range`, `.._general` (core/analyzers/scalar_key_analyzer.rs l.51-72), in debug and
release builds. -/
example : ∀ b : Build, analyzeScalarKeys b (i32Indices []) = .ok .general := by intro b; cases b <;> decide +kernel
example : ∀ b : Build, analyzeScalarKeys b (i32Indices [1, 2, 3, 4, 5]) = .ok .denseRange := by intro b; cases b <;> decide +kernel
example : ∀ b : Build, analyzeScalarKeys b (i32Indices [1, 3, 5, 7, 128]) = .ok .sparseRange := by intro b; cases b <;> decide +kernel
example : ∀ b : Build, analyzeScalarKeys b (i32Indices [1, 2, 4, 8, 129]) = .ok .general := by intro b; cases b <;> decide +kernel

/-- `test_unsigned_scalar`, `test_unsigned_scalar_64` (core/traits/scalar.rs l.94-105). -/
example : index64 "u8" 5 = some 5 ∧ index64 "u16" 10 = some 10 ∧ index64 "u32" 20 = some 20 ∧ index64 "usize" 30 = some 30 ∧
    index64 "u64" 40 = some 40 ∧
    index32 "u8" 5 = some 5 ∧ index32 "u16" 10 = some 10 ∧ index32 "u32" 20 = some 20 ∧ index32 "usize" 30 = some 30 := by decide +kernel

/-- `test_signed_scalar`, `test_signed_scalar_64` (core/traits/scalar.rs l.108-133). -/
example : index64 "i8" (-5) = some (0x80 - 5) ∧ index64 "i16" (-10) = some (0x8000 - 10) ∧ index64 "i32" (-20) = some (0x80000000 - 20) ∧
    index64 "i8" 5 = some (0x80 + 5) ∧ index64 "i16" 10 = some (0x8000 + 10) ∧ index64 "i32" 20 = some (0x80000000 + 20) ∧
    index64 "isize" (-30) = some (0x8000000000000000 - 30) ∧ index64 "i64" (-40) = some (0x8000000000000000 - 40) ∧
    index64 "isize" 30 = some (0x8000000000000000 + 30) ∧ index64 "i64" 40 = some (0x8000000000000000 + 40) := by decide +kernel

/-- `test_signed_scalar`, `test_signed_scalar_32` (core/traits/scalar.rs l.108-123), on a 32-bit target. -/
example : index32 "i8" (-5) = some (0x80 - 5) ∧ index32 "i16" (-10) = some (0x8000 - 10) ∧ index32 "i32" (-20) = some (0x80000000 - 20) ∧
    index32 "i8" 5 = some (0x80 + 5) ∧ index32 "i16" 10 = some (0x8000 + 10) ∧ index32 "i32" 20 = some (0x80000000 + 20) ∧
    index32 "isize" (-30) = some (0x80000000 - 30) ∧ index32 "isize" 30 = some (0x80000000 + 30) := by decide +kernel

/-- `test_unsigned_nz_scalar`, `test_unsigned_nz_scalar_64` (core/traits/scalar.rs l.136-147). -/
example : index64 "NonZeroU8" 5 = some 5 ∧ index64 "NonZeroU16" 10 = some 10 ∧ index64 "NonZeroU32" 20 = some 20 ∧
    index64 "NonZeroUsize" 30 = some 30 ∧ index64 "NonZeroU64" 40 = some 40 := by decide +kernel

/-- `test_signed_nz_scalar`, `test_signed_nz_scalar_32`, `test_signed_nz_scalar_64` (core/traits/scalar.rs l.150-175). -/
example : index64 "NonZeroI8" (-5) = some (0x80 - 5) ∧ index64 "NonZeroI16" (-10) = some (0x8000 - 10) ∧
    index64 "NonZeroI32" (-20) = some (0x80000000 - 20) ∧ index64 "NonZeroI8" 5 = some (0x80 + 5) ∧
    index64 "NonZeroI16" 10 = some (0x8000 + 10) ∧ index64 "NonZeroI32" 20 = some (0x80000000 + 20) ∧
    index32 "NonZeroIsize" (-30) = some (0x80000000 - 30) ∧ index32 "NonZeroIsize" 30 = some (0x80000000 + 30) ∧
    index64 "NonZeroIsize" (-30) = some (0x8000000000000000 - 30) ∧ index64 "NonZeroI64" (-40) = some (0x8000000000000000 - 40) ∧
    index64 "NonZeroIsize" 30 = some (0x8000000000000000 + 30) ∧ index64 "NonZeroI64" 40 = some (0x8000000000000000 + 40) := by decide +kernel

/-! ## core/macros/derive_scalar_macro.rs, frozen-collections/tests/derive_scalar_macro_tests.rs -/

/-- A variant without fields and discriminant. -/
def unitVariant (name : String) : EnumVariant := { ident := name, unit := true, discriminant := none }

/-- `basic` (l.67-78) and `test_derive_scalar` (derive_scalar_macro_tests.rs l.15-28). -/
example : ∃ arms, deriveScalar (.enum [unitVariant "Red", unitVariant "Green", unitVariant "Blue"]) = .ok arms ∧
    evalMatch arms "Red" = some 0 ∧ evalMatch arms "Green" = some 1 ∧ evalMatch arms "Blue" = some 2 := ⟨_, rfl, by decide⟩

/-- `only_with_enums` (l.81-91), `non_empty_enums` (l.94-100), `only_unit_variants` (l.103-116), `no_explicit_discriminants` (l.119-132). -/
example : deriveScalar .struct = .error "Scalar can only be used with enums" := rfl
example : deriveScalar (.enum []) = .error "Scalar can only be used with non-empty enums" := rfl
example : deriveScalar (.enum [unitVariant "Red", { ident := "Green", unit := false, discriminant := none }, unitVariant "Blue"]) =
    .error "Scalar can only be used with enums that only contain unit variants" := rfl
example : deriveScalar (.enum [unitVariant "Red", { ident := "Green", unit := true, discriminant := some 2 }, unitVariant "Blue"]) =
    .error "Scalar can only be used with enums that do not have explicit discriminants" := rfl

/-! ## core/analyzers/hash_code_analyzer.rs -/

/-- `analyze_hash_codes_test` (l.128-185): the first case, the second (which expects no collision of two random codes, whatever the size) for two
different low bits, and the fourth with 1000 instead of 8000000 consecutive codes. -/
example : analyzeHashCodes [] = .ok (0, 0) := by decide +kernel
example : analyzeHashCodes [6364136223846793005, 1442695040888963406] = .ok (2, 0) := by decide +kernel
example : analyzeHashCodes (List.range 1000) = .ok (1024, 0) := by decide +kernel

/-! ## core/utils/bitvec.rs -/

/-- Sets the bits `0..n`, one after the other and each of them twice, and reads each of them afterwards. -/
def setTwice : Nat → BitSet → Res (BitSet × Bool)
  | 0, b => .ok (b, true)
  | n + 1, b => do
    let (b, good) ← setTwice n b
    let b ← b.set n
    let b ← b.set n
    let got ← b.get n
    .ok (b, good && got)

/-- `test_bitvec` (l.41-57). -/
example : (BitSet.withCapacity 125).bits.length = 2 := by decide +kernel
example : (List.range 125).all (fun i => (BitSet.withCapacity 125).clearAll.get i == .ok false) = true := by decide +kernel
example : ((setTwice 125 (BitSet.withCapacity 125).clearAll).toOption.map (fun r => r.2)) = some true := by decide +kernel

/-- `get_panic` (l.61-64) and `set_panic` (l.68-71). -/
example : (BitSet.withCapacity 12).get 12 = .error (.panic "Out of bounds") := by decide +kernel
example : (BitSet.withCapacity 12).set 12 = .error (.panic "Out of bounds") := by decide +kernel

/-! ## core/utils/dedup.rs -/

/-- `DeduppedVec::using_eq` on pairs, comparing the first components. -/
def dedupFst (l : List (Nat × String)) : List (Nat × String) := usingEq l (fun x y => x.1 == y.1)

/-- The four `test_slow_dedup_by_.._keep_last_..` tests (l.194-227). -/
example : dedupFst [(1, "one"), (2, "two"), (3, "three")] = [(1, "one"), (2, "two"), (3, "three")] := by decide +kernel
example : dedupFst [(1, "one"), (2, "two"), (2, "two duplicate"), (3, "three"), (3, "three duplicate"), (3, "three last")] =
    [(1, "one"), (2, "two duplicate"), (3, "three last")] := by decide +kernel
example : dedupFst [] = [] := by decide +kernel
example : dedupFst [(1, "one"), (1, "one duplicate"), (1, "one last")] = [(1, "one last")] := by decide +kernel

/-- The four `test_find_duplicate_..` tests (l.230-251). -/
example : hasDuplicates (fun x y : Nat => x == y) [1, 2, 3] = .ok false := by decide +kernel
example : hasDuplicates (fun x y : Nat => x == y) [1, 2, 2, 3] = .ok true := by decide +kernel
example : hasDuplicates (fun x y : Nat => x == y) [] = .ok false := by decide +kernel
example : hasDuplicates (fun x y : Nat => x == y) [1, 1, 1] = .ok true := by decide +kernel

/-! ## core/hashers/*.rs, for every hash function of bytes or of slices -/

/-- The tests of core/hashers/left_range_hasher.rs (l.88-122) and core/hashers/inline_left_range_hasher.rs (l.77-105). -/
example (bh : List Nat → Nat) : leftRangeHash bh ⟨0, 3⟩ [1, 2, 3, 4] = .ok (bh [1, 2, 3]) ∧ leftRangeHash bh ⟨0, 3⟩ [1, 2] = .ok 0 ∧
    inlineLeftRangeHash 0 3 bh [1, 2, 3, 4] = .ok (bh [1, 2, 3]) ∧ inlineLeftRangeHash 0 3 bh [1, 2] = .ok 0 := ⟨rfl, rfl, rfl, rfl⟩
example (bh : Str → Nat) : leftRangeHash bh ⟨0, 3⟩ (bytes "abcd") = .ok (bh (bytes "abc")) ∧ leftRangeHash bh ⟨0, 3⟩ (bytes "ab") = .ok 0 ∧
    inlineLeftRangeHash 0 3 bh (bytes "abcd") = .ok (bh (bytes "abc")) ∧ inlineLeftRangeHash 0 3 bh (bytes "ab") = .ok 0 :=
  ⟨rfl, rfl, rfl, rfl⟩

/-- The tests of core/hashers/right_range_hasher.rs (l.93-133) and core/hashers/inline_right_range_hasher.rs (l.80-115). -/
example (bh : List Nat → Nat) : rightRangeHash bh ⟨1, 3⟩ [1, 2, 3, 4] = .ok (bh [2, 3]) ∧
    rightRangeHash bh ⟨1, 3⟩ [1, 2, 3, 4, 5, 6] = .ok (bh [4, 5]) ∧ rightRangeHash bh ⟨1, 3⟩ [1, 2] = .ok 0 ∧
    inlineRightRangeHash 1 3 bh [1, 2, 3, 4] = .ok (bh [2, 3]) ∧
    inlineRightRangeHash 1 3 bh [1, 2, 3, 4, 5, 6] = .ok (bh [4, 5]) ∧ inlineRightRangeHash 1 3 bh [1, 2] = .ok 0 :=
  ⟨rfl, rfl, rfl, rfl, rfl, rfl⟩
example (bh : Str → Nat) : rightRangeHash bh ⟨3, 5⟩ (bytes "abcdef") = .ok (bh (bytes "bc")) ∧
    rightRangeHash bh ⟨3, 5⟩ (bytes "abcdefghijklmn") = .ok (bh (bytes "jk")) ∧ rightRangeHash bh ⟨3, 5⟩ (bytes "a") = .ok 0 ∧
    inlineRightRangeHash 3 5 bh (bytes "abcdef") = .ok (bh (bytes "bc")) ∧
    inlineRightRangeHash 3 5 bh (bytes "abcdefghijklmn") = .ok (bh (bytes "jk")) ∧ inlineRightRangeHash 3 5 bh (bytes "a") = .ok 0 :=
  ⟨rfl, rfl, rfl, rfl, rfl, rfl⟩
example (bh : Str → Nat) : rightRangeHash bh ⟨1, 3⟩ (bytes "abcd") = .ok (bh (bytes "bc")) ∧
    rightRangeHash bh ⟨1, 3⟩ (bytes "abcdefghijklmn") = .ok (bh (bytes "lm")) ∧ rightRangeHash bh ⟨1, 3⟩ (bytes "a") = .ok 0 ∧
    inlineRightRangeHash 1 3 bh (bytes "abcd") = .ok (bh (bytes "bc")) ∧
    inlineRightRangeHash 1 3 bh (bytes "abcdefghijklmn") = .ok (bh (bytes "lm")) ∧ inlineRightRangeHash 1 3 bh (bytes "a") = .ok 0 :=
  ⟨rfl, rfl, rfl, rfl, rfl, rfl⟩

/-- The tests of core/hashers/length_hasher.rs (l.25-53), bridge_hasher.rs (l.46-51) and scalar_hasher.rs (l.25-30). -/
example : lengthHash (bytes "hello") = .ok 5 ∧ lengthHash (bytes "world") = .ok 5 ∧ lengthHash [1, 2, 3, 4] = .ok 4 ∧
    lengthHash (bytes "default") = .ok 7 := ⟨rfl, rfl, rfl, rfl⟩
example (bh : Str → Nat) : bridgeHash bh (bytes "test_string") = .ok (bh (bytes "test_string")) := rfl
example : scalarHash (fun x => (index64 "u64" x).getD 0) 42 = .ok 42 ∧ scalarHash (fun x => (index64 "u64" x).getD 0) 0 = .ok 0 := by
  decide +kernel

/-! ## core/maps/*.rs -/

/-- `test_sparse_lookup` (core/maps/sparse_scalar_lookup_map.rs l.204-218), in debug and release builds. -/
example : ∀ b : Build, (SparseMap.new b (fun x y : Nat => compare x y) id [(1, "a"), (10, "b"), (100, "c"), (1000, "d")]).toOption.map (fun m =>
    [1, 10, 100, 1000, 0, 2, 999, 1001].map (fun k => (SparseMap.get id m k).toOption)) =
      some [some (some "a"), some (some "b"), some (some "c"), some (some "d"), some none, some none, some none, some none] := by
  have h : sortedAndDedupped [(1, "a"), (10, "b"), (100, "c"), (1000, "d")] (fun x y : Nat × String => (fun x y : Nat => compare x y) x.1 y.1) =
    [(1, "a"), (10, "b"), (100, "c"), (1000, "d")] := by cbv
  unfold SparseMap.new
  rw [h]
  intro b; cases b <;> decide +kernel

/-- `error_in_new` (core/maps/dense_scalar_lookup_map.rs l.203-206), in debug and release builds. -/
example : ∀ b : Build, (DenseMap.new b (fun x y : Nat => compare x y) id [(1, 1), (2, 2), (4, 3)]).toOption.map (fun r => r.toBool) = some false := by
  intro b; cases b <;> cbv

/-- An insertion sort by slot, for `sort_unstable_by` (the kernel evaluates it quickly). -/
def insSort {T : Type} : List (Nat × T) → List (Nat × T)
  | [] => []
  | x :: xs => insert' x (insSort xs)
where
  /-- Insertion into a sorted list. -/
  insert' (x : Nat × T) : List (Nat × T) → List (Nat × T)
    | [] => [x]
    | y :: ys => if x.1 ≤ y.1 then x :: y :: ys else y :: insert' x ys

/-- `fails_when_not_in_magnitude` (core/maps/hash_map.rs l.247-261). -/
example : (HashMap.withHasher .small listFind insSort (fun x y : Nat => x == y) (fun x => .ok x)
    ((List.range 255).map (fun i => (i, i)))).toOption.map (fun r => r.toBool) = some true := by decide +kernel
example : (HashMap.withHasher .small listFind insSort (fun x y : Nat => x == y) (fun x => .ok x)
    ((List.range 256).map (fun i => (i, i)))).toOption.map (fun r => r.toBool) = some false := by decide +kernel

end Frozen.Conformance
