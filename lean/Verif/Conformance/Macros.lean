import Verif.Conformance.Units
import Verif.Model.Tokens
import Verif.Props.TokenSpec

/-!
# The tests of core/macros/macro_api.rs and core/emit/*.rs, run on the model

As in `Conformance/Units.lean` every `example` is the transcription of a test of /repo.  A small stand-in for the expression parser of `syn` suffices
for the expressions that occur in the tests.
-/

namespace Frozen.Conformance

attribute [local instance] w64

open Frozen.Model Frozen.Props

/-! ## The macro call of a test: tokens, the parser of expressions, and their meaning -/

/-- The expressions and types of the tests: all tokens up to a comma, colon or `>`. -/
def upToSeparator : List Tk → List Tk × List Tk
  | [] => ([], [])
  | .punct c j :: ts => if c = ',' ∨ c = ':' ∨ c = '>' then ([], .punct c j :: ts) else let r := upToSeparator ts; (.punct c j :: r.1, r.2)
  | t :: ts => let r := upToSeparator ts; (t :: r.1, r.2)

/-- The stand-in for `syn`. -/
def testSyn : SynParsers (List Tk) (List Tk) where
  expr ts := let r := upToSeparator ts; if r.1.isEmpty then .error "expected an expression" else .ok r
  ty ts := let r := upToSeparator ts; if r.1.isEmpty then .error "expected a type" else .ok r
  modPath _ := true

/-- The value of a decimal number. -/
def decimal (cs : List Char) : Nat := cs.foldl (fun n c => n * 10 + (c.toNat - 48)) 0

/-- A literal token: a string in quotes, digits with a suffix, or digits with a dot (a float). -/
def litOf (s : String) : Lit :=
  match s.toList with
  | '"' :: cs => .str (cs.dropLast.map (fun c => UInt8.ofNat c.toNat))
  | cs =>
    if cs.contains '.' then .other
    else .int (decimal (cs.takeWhile Char.isDigit)) (String.ofList (cs.dropWhile Char.isDigit))

/-- The meaning of the expressions: literals are literals, everything else is computed. -/
def testMean : ExprMeaning (List Tk) (List Tk) (List Tk) where
  shape ts :=
    match ts with
    | [.lit s] => .lit (litOf s)
    | _ => .other
  keyVal ts := ts
  valueVal ts := ts

/-- The environment of the macros; the hash function has no collisions on the keys that occur. -/
def testEnv : MacroEnv (List Tk) (List Tk) where
  unit := [.group .paren []]
  build := .debug
  find := listFind
  sortScalar _ := insSort
  fsScalar _ _ x := x.toNat
  sortStr := insSort
  fsStr _ x := demoHash x
  fsSlice _ x := demoHash x
  seed := 42

/-- Expressions separated by commas. -/
def commas : List (List Tk) → List Tk
  | [] => []
  | e :: es => e ++ .punct ',' false :: commas es

/-- `{ e, e, }` of literals. -/
def lits (ss : List String) : List Tk := [.group .brace (commas (ss.map (fun s => [.lit s])))]

/-- `x, e, e, …` in braces: computed keys `xs` in front of literals. -/
def mixed (xs ss : List String) : List Tk := [.group .brace (commas (xs.map (fun s => [.ident s]) ++ ss.map (fun s => [.lit s])))]

/-- `{ Foo(1), Foo(2), … }`. -/
def foos (ss : List String) : List Tk := [.group .brace (commas (ss.map (fun s => [.ident "Foo", .group .paren [.lit s]])))]

/-- A macro for sets, on tokens. -/
def setMacro (kind : MacroKind) (ts : List Tk) : Res (Except String (Vis × Item (Emitted (List Tk) (List Tk)))) :=
  fzMacroTokens testSyn testMean testEnv false kind ts

/-- The error message of a macro. -/
def errorOf {α : Type} : Res (Except String α) → Option String
  | .ok (.error msg) => some msg
  | _ => none

/-! ## Errors -/

/-- `missing_static_in_map` (l.134-140) and `missing_static_in_set` (l.189-195). -/
example : errorOf (fzMacroTokens testSyn testMean testEnv true .scalar
    [.ident "pub", .ident "Bar", .punct '<' false, .ident "i32", .punct ',' false, .ident "i43", .punct '>' true, .punct ',' false,
     .group .brace [.lit "1", .punct ':' false, .lit "2", .punct ',' false, .lit "2", .punct ':' false, .lit "3"]]) =
    some "expected `static`" := by decide +kernel
example : errorOf (setMacro .scalar
    (.ident "pub" :: .ident "Bar" :: .punct '<' false :: .ident "i32" :: .punct '>' true :: .punct ',' false :: lits ["1", "2"])) =
    some "expected `static`" := by decide +kernel

/-- `no_entries` (l.143-147), `invalid_suffix` (l.150-156), `incompatible_literal_types` (l.159-165), `invalid_literal` (l.168-186). -/
example : errorOf (setMacro .scalar [.group .brace []]) = some "no collection entries supplied" := by decide +kernel
example : errorOf (setMacro .scalar (lits ["123iXXX", "234iXXX"])) = some "unknown suffix iXXX for scalar value" := by decide +kernel
example : errorOf (setMacro .scalar (lits ["1i8", "2i16"])) = some "incompatible scalar literal type" := by decide +kernel
example : errorOf (setMacro .scalar (lits ["123.0", "234.0"])) = some "invalid literal, expecting a scalar or string value" := by decide +kernel
example : errorOf (setMacro .string (lits ["1", "2"])) = some "string macro cannot contain scalar keys" := by decide +kernel
example : errorOf (setMacro .scalar (lits ["\"1\"", "\"2\""])) = some "scalar macro cannot contain string keys" := by decide +kernel

/-- `magnitude` (l.198-217): the magnitude that the generator writes for that many entries. -/
example : [255, 256, 65535, 65536].map collectionMagnitude = [.small, .medium, .medium, .large] := by decide +kernel

/-! ## Which representation is chosen -/

/-- The identifiers in code. -/
def identsIn (ts : List Tk) : List String :=
  (namesIn .fresh ts).map fun u =>
    match u with
    | .free s => s
    | .rooted s => s
    | .member s => s

/-- Whether the code that the macro returns contains an identifier beginning with `name`, as `r.contains(":: name")` asks. -/
def emits (kind : MacroKind) (ts : List Tk) (name : String) : Bool :=
  match setMacro kind ts with
  | .ok (.ok (vis, item)) =>
    (identsIn (emittedTokens vis ⟨[.ident "_"], none⟩ ⟨id, id⟩ item)).any (fun s => name.toList.isPrefixOf s.toList)
  | _ => false

/-- `test_selected_string_set_implementation_types` (l.220-245). -/
example : emits .string (lits ["\"1\"", "\"2\"", "\"3\""]) "InlineScanSet" = true := by cbv
example : emits .string (lits ["\"1\"", "\"2\"", "\"3\"", "\"4\""]) "InlineHashSet" = true := by cbv
example : emits .string (lits ["\"1\"", "\"2\"", "\"3\"", "\"4\"", "\"5\"", "\"6\"", "\"7\""]) "BridgeHasher" = true := by cbv
example : emits .string (lits ["\"1\"", "\"22\"", "\"333\"", "\"4444\"", "\"55555\"", "\"666666\"", "\"7777777\""]) "LengthHasher" = true := by cbv
example : emits .string (lits ["\"1111\"", "\"1112\"", "\"1113\"", "\"1114\"", "\"1115\"", "\"1116\"", "\"1117\""]) "InlineLeftRangeHasher" = true := by cbv
example : emits .string (mixed ["x"] ["\"2\"", "\"3\""]) "InlineScanSet" = true := by cbv
example : emits .string (mixed ["x"] ["\"2\"", "\"3\"", "\"4\""]) "FzStringSet" = true := by cbv
example : emits .string (mixed ["x", "y", "z", "a", "b", "c", "d"] []) "FzStringSet" = true := by cbv

/-- `test_selected_scalar_set_implementation_types` (l.248-261). -/
example : emits .scalar (lits ["1", "2", "3"]) "InlineDenseScalarLookupSet" = true := by cbv
example : emits .scalar (lits ["1", "2", "3", "4", "6"]) "InlineSparseScalarLookupSet" = true := by cbv
example : emits .scalar (lits ["1", "2", "3", "4", "5", "60000", "70000"]) "InlineScanSet" = true := by cbv
example : emits .scalar (lits ["1", "2", "3", "4", "5", "60000", "70000", "80000"]) "InlineHashSet" = true := by cbv
example : emits .scalar (mixed ["x"] ["2", "3", "4", "5", "6", "7"]) "InlineScanSet" = true := by cbv
example : emits .scalar (mixed ["x"] ["2", "3", "4", "5", "6", "7", "8"]) "FzScalarSet" = true := by cbv

/-- `test_selected_ordered_set_implementation_types` (l.264-286). -/
example : emits .ordered (lits ["1", "2", "3"]) "InlineDenseScalarLookupSet" = true := by cbv
example : emits .ordered (lits ["1", "2", "3", "4", "6"]) "InlineSparseScalarLookupSet" = true := by cbv
example : emits .ordered (lits ["1", "2", "3", "4", "5", "60000", "70000"]) "InlineScanSet" = true := by cbv
example : emits .ordered (lits ["1", "2", "3", "4", "5", "60000", "70000", "80000"]) "InlineHashSet" = true := by cbv
example : emits .ordered (lits ["\"1\"", "\"2\"", "\"3\""]) "InlineScanSet" = true := by cbv
example : emits .ordered (lits ["\"1\"", "\"2\"", "\"3\"", "\"4\""]) "InlineHashSet" = true := by cbv
example : emits .ordered (foos ["1", "2", "3"]) "InlineScanSet" = true := by cbv
example : emits .ordered (foos ["1", "2", "3", "4"]) "InlineEytzingerSearchSet" = true := by cbv
example : emits .ordered (mixed ["x"] ["2", "3", "4", "5", "6", "7"]) "InlineScanSet" = true := by cbv
example : emits .ordered (mixed ["x"] ["2", "3", "4", "5", "6", "7", "8"]) "FzScalarSet" = true := by cbv
example : emits .ordered (mixed ["x"] ["\"2\"", "\"3\""]) "InlineScanSet" = true := by cbv
example : emits .ordered (mixed ["x"] ["\"2\"", "\"3\"", "\"4\""]) "FzStringSet" = true := by cbv

/-- `test_selected_hash_set_implementation_types` (l.289-311). -/
example : emits .hashed (lits ["1", "2", "3"]) "InlineDenseScalarLookupSet" = true := by cbv
example : emits .hashed (lits ["1", "2", "3", "4", "6"]) "InlineSparseScalarLookupSet" = true := by cbv
example : emits .hashed (lits ["1", "2", "3", "4", "5", "60000", "70000"]) "InlineScanSet" = true := by cbv
example : emits .hashed (lits ["1", "2", "3", "4", "5", "60000", "70000", "80000"]) "InlineHashSet" = true := by cbv
example : emits .hashed (lits ["\"1\"", "\"2\"", "\"3\""]) "InlineScanSet" = true := by cbv
example : emits .hashed (lits ["\"1\"", "\"2\"", "\"3\"", "\"4\""]) "InlineHashSet" = true := by cbv
example : emits .hashed (foos ["1", "2", "3"]) "InlineScanSet" = true := by cbv
example : emits .hashed (foos ["1", "2", "3", "4"]) "FzHashSet" = true := by cbv
example : emits .hashed (mixed ["x"] ["2", "3", "4", "5", "6", "7"]) "InlineScanSet" = true := by cbv
example : emits .hashed (mixed ["x"] ["2", "3", "4", "5", "6", "7", "8"]) "FzScalarSet" = true := by cbv
example : emits .hashed (mixed ["x"] ["\"2\"", "\"3\""]) "InlineScanSet" = true := by cbv
example : emits .hashed (mixed ["x"] ["\"2\"", "\"3\"", "\"4\""]) "FzStringSet" = true := by cbv

/-- `test_scalar_suffixes` (l.314-321): the suffix that the first key is emitted with. -/
example : assessKeys .scalar ([.int 1 "i8", .int 2 "", .int 3 "", .int 4 "", .int 5 "", .int 6 ""].map KeySyntax.lit) = .ok (.allLiteralScalars .i8) ∧
    emittedSuffix .i8 "i8" = "i8" := by decide +kernel
example : assessKeys .scalar ([.int 1 "", .int 2 "", .int 3 "", .int 4 "", .int 5 "", .int 6 ""].map KeySyntax.lit) =
      .ok (.allLiteralScalars .undecided) ∧ emittedSuffix .undecided "" = "i32" := by decide +kernel

/-! ## core/emit/collection_emitter.rs -/

/-- `CollectionEmitter::new(key_type)` (core/emit/collection_emitter.rs l.115-128). -/
def newEmitter : Emitter :=
  { hasValueType := false, symbolName := none, aliasName := none, constKeys := false, constValues := false, isMutable := false, isStatic := false }

/-- The error of `preflight`, if any. -/
def preflightError (em : Emitter) : Option String :=
  match em.preflight 10 with
  | .error msg => some msg
  | .ok _ => none

/-- The eight `test_preflight_..` tests (l.531-592). -/
example : preflightError { newEmitter with isStatic := true, isMutable := true } = some "mutable is not allowed for static collections" ∧
    preflightError { newEmitter with isStatic := true } = some "symbol_name is required for static collections" ∧
    preflightError { newEmitter with isMutable := true } = some "symbol_name is required for mutable collections" ∧
    preflightError { newEmitter with aliasName := some "Alias" } = some "alias_name cannot be used without symbol_name" ∧
    preflightError { newEmitter with symbolName := some "SYMBOL", isStatic := true } = none ∧
    preflightError { newEmitter with symbolName := some "SYMBOL", isMutable := true } = none ∧
    preflightError { newEmitter with symbolName := some "SYMBOL", aliasName := some "Alias" } = none ∧
    preflightError newEmitter = none := by decide +kernel

mutual
/-- `Display` of one token (`proc_macro2`, fallback.rs). -/
def showTk : Tk → String
  | .ident s => s
  | .punct c _ => String.ofList [c]
  | .lit s => s
  | .group .paren inner => "(" ++ showToks inner ++ ")"
  | .group .bracket inner => "[" ++ showToks inner ++ "]"
  | .group .brace inner => "{ " ++ showToks inner ++ (if inner.isEmpty then "}" else " }")
  | .group .none inner => showToks inner
/-- `Display` of a token stream: tokens separated by spaces, except behind joint punctuation. -/
def showToks : List Tk → String
  | [] => ""
  | [t] => showTk t
  | .punct c true :: ts => String.ofList [c] ++ showToks ts
  | t :: ts => showTk t ++ " " ++ showToks ts
end

/-- The text of the code that an emitter returns. -/
def textOf (keyType : String) : Res (Except String (Item (Emitted (List Tk) (List Tk)))) → Option String
  | .ok (.ok item) => some (showToks (emittedTokens .inherited ⟨[.ident keyType], none⟩ ⟨id, id⟩ item))
  | _ => none

/-- `test_no_alias_instance` (l.595-610): the whole text. -/
example : textOf "i32" ({ newEmitter with symbolName := some "SYMBOL" }.emitOrdered [.group .paren []] (fun x y : Nat => compare x y) []) =
    some ("let SYMBOL : :: frozen_collections :: inline_sets :: InlineScanSet :: < i32 , 0 > = " ++
      ":: frozen_collections :: inline_sets :: InlineScanSet :: < i32 , 0 > :: new " ++
      "(:: frozen_collections :: inline_maps :: InlineScanMap :: < i32 , () , 0 > :: new_raw ([])) ;") := by cbv

/-! ## core/emit/collection_entry.rs -/

/-- `test_map_entry`, `test_to_tokens`, `test_clone` (l.76-85, l.99-120). -/
example : (CollectionEntry.mk "key" [Tk.ident "key"] [Tk.ident "value"]).toTokens = ([.ident "key"], [.ident "value"]) := rfl
example : showToks (ExprToks.entry ⟨id, id⟩ (CollectionEntry.mk "key" [Tk.ident "key"] [Tk.ident "value"]).toTokens) = "(key , value)" := by cbv

end Frozen.Conformance
