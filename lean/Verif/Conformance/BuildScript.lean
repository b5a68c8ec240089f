import Verif.Model.Builder
import Verif.Props.Emit
import Verif.Conformance.Units

/-!
# The build script of the repository, run on the model

srcgen/includes/make_collections.rs declares five static sets with the emitter, and srcgen/tests/build_script_test.rs checks their lengths and that
each contains one of its elements.  The checks hold in the model.  The script declares one element of four of the sets as
`set_entry("Grey", parse_quote! { "Gray" })`, so that key and code disagree: in the ordered set of nine elements the emitted array is not in order,
and that element, which the test does not look up, is not found.
-/

namespace Frozen.Conformance

attribute [local instance] w64

open Frozen.Model Frozen.Props

/-- The comparisons of `&'static str`; hashing is arbitrary and does not matter here. -/
def wordTraits : QueryTraits Str Str where
  equivalent a b := a == b
  compare a b := strCmp a b
  index _ := 0
  fixedState seed x := (seed + demoHash x) % 2 ^ 64
  bytes x := x
  fixedStateSlice seed x := (seed + demoHash x) % 2 ^ 64

/-- The emitter of the script (srcgen/includes/make_collections.rs l.13-18). -/
def scriptEmitter (name : String) : Emitter :=
  (CollectionEmitter.build [.punct '&' false, .punct '\'' true, .ident "static", .ident "str"]
    [.symbolName name, .staticInstance true, .constKeys true, .constValues true]).emitter

/-- `CollectionEntry::set_entry` with the value of the code for the key. -/
def wordEntry (key code : String) : CollectionEntry Str Str Unit := ⟨bytes key, bytes code, ()⟩

/-- Two entries (srcgen/includes/make_collections.rs l.8-11). -/
def smallWords : List (CollectionEntry Str Str Unit) := [wordEntry "Red" "Red", wordEntry "Green" "Green"]

/-- The nine entries that begin with the given prefix (srcgen/includes/make_collections.rs l.22-32, and l.54-122 for the prefixes). -/
def nineWords (p : String) : List (CollectionEntry Str Str Unit) :=
  [("Red", "Red"), ("Green", "Green"), ("Blue", "Blue"), ("Yellow", "Yellow"), ("Cyan", "Cyan"), ("Magenta", "Magenta"), ("White", "White"),
   ("Black", "Black"), ("Grey", "Gray")].map fun w => wordEntry (p ++ w.1) (p ++ w.2)

/-- The 72 entries (srcgen/includes/make_collections.rs l.43-123). -/
def manyWords : List (CollectionEntry Str Str Unit) :=
  ["", "1", "2", "3", "4", "5", "6", "7"].flatMap nineWords

/-- The length of the emitted set, and whether it contains the words. -/
def scriptAnswers (r : Res (Except String (Item (Emitted Str Unit)))) (qs : List String) : Option (Nat × List (Res Bool)) :=
  match r with
  | .ok (.ok item) =>
    match item.ctor.compile (F := Unit) (· == ·) strCmp (fun _ _ => none) with
    | some (.ok (.inl m)) => some ((InlineMap.impl wordTraits).len m, qs.map (fun q => (InlineMap.impl wordTraits).containsKey m (bytes q)))
    | _ => none
  | _ => none

/-- `SMALL_STATIC_ORDERED_SET` (srcgen/tests/build_script_test.rs l.9-11). -/
example : scriptAnswers ((scriptEmitter "SMALL_STATIC_ORDERED_SET").emitOrdered () strCmp smallWords) ["Red"] = some (2, [.ok true]) := by cbv

/-- `MEDIUM_STATIC_ORDERED_SET` (srcgen/tests/build_script_test.rs l.13-15); the last two answers show the slip in the script. -/
example : scriptAnswers ((scriptEmitter "MEDIUM_STATIC_ORDERED_SET").emitOrdered () strCmp (nineWords "")) ["Red", "Gray", "Grey"] =
    some (9, [.ok true, .ok false, .ok false]) := by cbv

set_option maxRecDepth 8000 in
/-- `LARGE_STATIC_ORDERED_SET` (srcgen/tests/build_script_test.rs l.17-19). -/
example : scriptAnswers ((scriptEmitter "LARGE_STATIC_ORDERED_SET").emitOrdered () strCmp manyWords) ["1Red"] = some (72, [.ok true]) := by cbv

/-- `SMALL_STATIC_HASH_SET` (srcgen/tests/build_script_test.rs l.21-22). -/
example : scriptAnswers ((scriptEmitter "SMALL_STATIC_HASH_SET").emitHash () listFind slotSort (· == ·)
    (fun seed x => (seed + demoHash x) % 2 ^ 64) 7 smallWords) ["Red"] = some (2, [.ok true]) := by cbv

/-- `MEDIUM_STATIC_HASH_SET` (srcgen/tests/build_script_test.rs l.24-25). -/
example : scriptAnswers ((scriptEmitter "MEDIUM_STATIC_HASH_SET").emitHash () listFind slotSort (· == ·)
    (fun seed x => (seed + demoHash x) % 2 ^ 64) 7 (nineWords "")) ["Red"] = some (9, [.ok true]) := by cbv

end Frozen.Conformance
