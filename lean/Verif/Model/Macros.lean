import Verif.Model.Emit
import Verif.Model.Scalar

/-!
# Model of `core/macros/macro_api.rs` and `core/macros/processor.rs`: the `fz_*` macros

Here a macro call is given by its parsed form; `Model/Parsing.lean` models the parsing (core/macros/parsing/*.rs).  Key and value
expressions are represented by the run-time values they evaluate to; of a key expression its syntactic shape is kept too.
-/

namespace Frozen.Model

attribute [local instance] w64

variable {K V : Type}

/-! ## Syntax -/

/-- A literal token (`syn::Lit`): a string with its bytes, an integer with its value and suffix, or another kind (character, float,
boolean, byte string, ...).  Integer literals carry no sign. -/
inductive Lit where
  | str (value : Str)
  | int (value : Nat) (suffix : String)
  | other
deriving DecidableEq

/-- A key expression (`syn::Expr`): a literal, an invisible group (which `macro_rules` puts around expressions), or anything
else. -/
inductive KeySyntax where
  | lit (l : Lit)
  | group (inner : KeySyntax)
  | other
deriving DecidableEq

/-- `struct Entry` (core/macros/parsing/entry.rs l.5-8); `keyValue` is what the key expression evaluates to at run time. -/
structure MacroEntry (K V : Type) where
  key : KeySyntax
  keyValue : K
  value : Option V

/-- How the collection is declared: `{ … }`, `static NAME: Alias<…>, { … }`, `let [mut] name: Alias<…>, { … }`
(core/macros/parsing/map.rs l.12-44, set.rs l.12-44). -/
inductive MacroForm where
  | short
  | static (symbol alias : String)
  | let_ (mutable : Bool) (symbol alias : String)

/-- `enum MacroKind` (core/macros/processor.rs l.15-21). -/
inductive MacroKind where
  | scalar | string | hashed | ordered
deriving DecidableEq

/-- The emitter that `fz_map_macro` and `fz_set_macro` configure (core/macros/macro_api.rs l.83-103 and l.105-124; the constructors are
core/emit/collection_emitter.rs l.115-151).  `isMap` distinguishes the two. -/
def MacroForm.emitter (isMap : Bool) : MacroForm → Emitter
  | .short =>
    { hasValueType := isMap, symbolName := none, aliasName := none, constKeys := false, constValues := false,
      isMutable := false, isStatic := false }
  | .static symbol alias =>
    { hasValueType := isMap, symbolName := some symbol, aliasName := some alias, constKeys := false, constValues := false,
      isMutable := false, isStatic := true }
  | .let_ mutable symbol alias =>
    { hasValueType := isMap, symbolName := some symbol, aliasName := some alias, constKeys := false, constValues := false,
      isMutable := mutable, isStatic := false }

/-- `emitter.inferred_key_type` (core/macros/macro_api.rs l.88, l.110). -/
def MacroForm.inferredKeyType : MacroForm → Bool
  | .short => true
  | _ => false

/-! ## Key classification -/

/-- `enum ScalarType` (core/macros/processor.rs l.23-36). -/
inductive ScalarType where
  | i8 | i16 | i32 | i64 | isize | u8 | u16 | u32 | u64 | usize | undecided
deriving DecidableEq

/-- `enum DiscoveredKeyKind` (core/macros/processor.rs l.38-43). -/
inductive DiscoveredKeyKind where
  | literalScalar (t : ScalarType)
  | literalString
  | expression
deriving DecidableEq

/-- `enum EffectiveKeyKind` (core/macros/processor.rs l.45-52). -/
inductive EffectiveKeyKind where
  | allLiteralScalars (t : ScalarType)
  | literalAndExpressionScalars
  | allLiteralStrings
  | literalAndExpressionStrings
  | hashed
  | ordered
deriving DecidableEq

/-- `eval_literal_expr` (core/macros/processor.rs l.146-174). -/
def evalLiteralExpr : Lit → Except String DiscoveredKeyKind
  | .str _ => .ok .literalString
  | .int _ suffix =>
    if suffix = "i8" then .ok (.literalScalar .i8)
    else if suffix = "i16" then .ok (.literalScalar .i16)
    else if suffix = "i32" then .ok (.literalScalar .i32)
    else if suffix = "i64" then .ok (.literalScalar .i64)
    else if suffix = "isize" then .ok (.literalScalar .isize)
    else if suffix = "u8" then .ok (.literalScalar .u8)
    else if suffix = "u16" then .ok (.literalScalar .u16)
    else if suffix = "u32" then .ok (.literalScalar .u32)
    else if suffix = "u64" then .ok (.literalScalar .u64)
    else if suffix = "usize" then .ok (.literalScalar .usize)
    else if suffix = "" then .ok (.literalScalar .undecided)
    else .error ("unknown suffix " ++ suffix ++ " for scalar value")
  | .other => .error "invalid literal, expecting a scalar or string value"

/-- The `match &entry.key` (core/macros/processor.rs l.94-101). -/
def discoverKey : KeySyntax → Except String DiscoveredKeyKind
  | .lit l => evalLiteralExpr l
  | .group (.lit l) => evalLiteralExpr l
  | .group _ => .ok .expression
  | .other => .ok .expression

/-- The state of the loop of `assess_keys` (core/macros/processor.rs l.89-91). -/
structure AssessState where
  numStrings : Nat
  numScalars : Nat
  scalarType : ScalarType

/-- The check against the macro kind (core/macros/processor.rs l.103-110). -/
def kindMismatch (kind : MacroKind) (d : DiscoveredKeyKind) : Option String :=
  if kind = .scalar ∧ d = .literalString then some "scalar macro cannot contain string keys"
  else if kind = .string ∧ d ≠ .literalString ∧ d ≠ .expression then some "string macro cannot contain scalar keys"
  else none

/-- The `match discovered_key_kind` (core/macros/processor.rs l.112-125). -/
def AssessState.count (s : AssessState) : DiscoveredKeyKind → Except String AssessState
  | .literalScalar .undecided => .ok { s with numScalars := s.numScalars + 1 }
  | .literalScalar t =>
    if s.scalarType = .undecided then .ok { s with numScalars := s.numScalars + 1, scalarType := t }
    else if t ≠ s.scalarType then .error "incompatible scalar literal type"
    else .ok { s with numScalars := s.numScalars + 1 }
  | .literalString => .ok { s with numStrings := s.numStrings + 1 }
  | .expression => .ok s

/-- The loop of `assess_keys` (core/macros/processor.rs l.93-126). -/
def assessLoop (kind : MacroKind) : List KeySyntax → AssessState → Except String AssessState
  | [], s => .ok s
  | k :: ks, s => do
    let d ← discoverKey k
    match kindMismatch kind d with
    | some msg => .error msg
    | none => do
      let s ← s.count d
      assessLoop kind ks s

/-- The decision at the end of `assess_keys` (core/macros/processor.rs l.128-143). -/
def assessDecide (kind : MacroKind) (len : Nat) (s : AssessState) : EffectiveKeyKind :=
  if s.numScalars = len then .allLiteralScalars s.scalarType
  else if s.numScalars > 0 ∧ s.numStrings = 0 then .literalAndExpressionScalars
  else if s.numStrings = len then .allLiteralStrings
  else if s.numStrings > 0 then .literalAndExpressionStrings
  else match kind with
    | .scalar => .literalAndExpressionScalars
    | .string => .literalAndExpressionStrings
    | .hashed => .hashed
    | .ordered => .ordered

/-- `assess_keys` (core/macros/processor.rs l.88-144). -/
def assessKeys (kind : MacroKind) (keys : List KeySyntax) : Except String EffectiveKeyKind := do
  let s ← assessLoop kind keys { numStrings := 0, numScalars := 0, scalarType := .undecided }
  .ok (assessDecide kind keys.length s)

/-! ## Handling the entries -/

/-- The integer type that literal keys are parsed as, on a 64-bit host (core/macros/processor.rs l.69-79); undecided literals are
`i32`. -/
def ScalarType.ty : ScalarType → ScalarTy
  | .i8 => ⟨"i8", 8, true, 0x80, false⟩
  | .i16 => ⟨"i16", 16, true, 0x8000, false⟩
  | .i32 => ⟨"i32", 32, true, 0x80000000, false⟩
  | .i64 => ⟨"i64", 64, true, 0x8000000000000000, false⟩
  | .isize => ⟨"isize", 64, true, 0x8000000000000000, false⟩
  | .u8 => ⟨"u8", 8, false, 0, false⟩
  | .u16 => ⟨"u16", 16, false, 0, false⟩
  | .u32 => ⟨"u32", 32, false, 0, false⟩
  | .u64 => ⟨"u64", 64, false, 0, false⟩
  | .usize => ⟨"usize", 64, false, 0, false⟩
  | .undecided => ⟨"i32", 32, true, 0x80000000, false⟩

/-- `Ord::cmp` of an integer type. -/
def ScalarTy.cmp (t : ScalarTy) (x y : BitVec t.width) : Ordering :=
  if t.signed then compare x.toInt y.toInt else compare (x.toNat : Int) (y.toNat : Int)

/-- The largest value of an integer type. -/
def ScalarTy.maxValue (t : ScalarTy) : Nat := if t.signed then 2 ^ (t.width - 1) - 1 else 2 ^ t.width - 1

/-- The literal in a key expression, through one invisible group. -/
def keyLit : KeySyntax → Option Lit
  | .lit l => some l
  | .group (.lit l) => some l
  | _ => none

/-- `parse2::<LitInt>(key)` followed by `base10_parse::<K>()` (core/macros/processor.rs l.183-184): fails on a key that is no integer
literal and on a value that the type cannot hold. -/
def parseInt (t : ScalarTy) (k : KeySyntax) : Except String (BitVec t.width) :=
  match keyLit k with
  | some (.int n _) => if n ≤ t.maxValue then .ok (BitVec.ofNat t.width n) else .error "number too large to fit in target type"
  | _ => .error "expected integer literal"

/-- `parse2::<LitStr>(key)` and `value()` (core/macros/processor.rs l.211-214). -/
def parseStr (k : KeySyntax) : Except String Str :=
  match keyLit k with
  | some (.str s) => .ok s
  | _ => .error "expected string literal"

/-- `CollectionEntry::map_entry` or `set_entry` (core/emit/collection_entry.rs l.20-32; core/macros/processor.rs l.192-196); `unit` is the
expression `()`. -/
def MacroEntry.toCollection {B : Type} (unit : V) (e : MacroEntry K V) (key : B) : CollectionEntry B K V :=
  { key := key, keyExpr := e.keyValue, valueExpr := e.value.getD unit }

/-- The loops of the handlers with literal keys (core/macros/processor.rs l.181-197, l.210-218). -/
def literalEntries {B : Type} (unit : V) (parse : KeySyntax → Except String B) :
    List (MacroEntry K V) → Except String (List (CollectionEntry B K V))
  | [] => .ok []
  | e :: es => do
    let k ← parse e.key
    let rest ← literalEntries unit parse es
    .ok (e.toCollection unit k :: rest)

/-- The loops of the handlers with non-literal keys (core/macros/processor.rs l.228-234 and the three others). -/
def exprEntries (unit : V) (es : List (MacroEntry K V)) : List (CollectionEntry Unit K V) :=
  es.map (fun e => e.toCollection unit ())

/-- What the emitter takes from its surroundings: the build mode of the macro crate, the deduplication and sort functions, the
`FixedState` hash functions of the host and the seed.  The fields `sortScalar` and `fsScalar` are per integer type. -/
structure MacroEnv (K V : Type) where
  unit : V
  build : Build
  find : HbFind
  sortScalar : (t : ScalarTy) → Sorter (CollectionEntry (BitVec t.width) K V)
  fsScalar : (t : ScalarTy) → Nat → BitVec t.width → Nat
  sortStr : Sorter (CollectionEntry Str K V)
  fsStr : Nat → Str → Nat
  fsSlice : Nat → Str → Nat
  seed : Nat

/-- The result of a macro: a panic of the macro, an error reported at the call site, or the emitted item. -/
abbrev MacroResult (K V : Type) := Res (Except String (Item (Emitted K V)))

/-- `handle_literal_scalar_keys` (core/macros/processor.rs l.176-206).  With suffix `"i32"` the emitted key expression is the literal with
that suffix added, which has the same value. -/
def handleLiteralScalarKeys (env : MacroEnv K V) (em : Emitter) (t : ScalarTy) (entries : List (MacroEntry K V)) :
    MacroResult K V :=
  match literalEntries env.unit (parseInt t) entries with
  | .error msg => .ok (.error msg)
  | .ok es => { em with constKeys := true, constValues := true }.emitScalar env.unit env.build (env.sortScalar t) t.cmp (t.index 64) es

/-- `handle_literal_string_keys` (core/macros/processor.rs l.208-225). -/
def handleLiteralStringKeys (env : MacroEnv K V) (em : Emitter) (entries : List (MacroEntry K V)) : MacroResult K V :=
  match literalEntries env.unit parseStr entries with
  | .error msg => .ok (.error msg)
  | .ok es => { em with constKeys := true, constValues := true }.emitString env.unit env.sortStr env.fsStr env.fsSlice env.seed es

/-- The `match assess_keys(..)?` of `process` (core/macros/processor.rs l.68-85) with the four handlers for non-literal keys (l.227-291). -/
def handleKeys (env : MacroEnv K V) (em : Emitter) (entries : List (MacroEntry K V)) : EffectiveKeyKind → MacroResult K V
  | .allLiteralScalars t => handleLiteralScalarKeys env em t.ty entries
  | .literalAndExpressionScalars =>
    { em with constKeys := false, constValues := false }.emitScalarExpr (exprEntries env.unit entries)
  | .allLiteralStrings => handleLiteralStringKeys env em entries
  | .literalAndExpressionStrings =>
    { em with constKeys := false, constValues := false }.emitStringExpr (exprEntries env.unit entries)
  | .hashed => { em with constKeys := false, constValues := false }.emitHashExpr (exprEntries env.unit entries)
  | .ordered => { em with constKeys := false, constValues := false }.emitOrderedExpr (exprEntries env.unit entries)

/-- The case of no entries (core/macros/processor.rs l.56-66). -/
def processEmpty (env : MacroEnv K V) (em : Emitter) (inferredKeyType : Bool) : MacroResult K V :=
  if inferredKeyType then .ok (.error "no collection entries supplied")
  else { em with constKeys := true, constValues := true }.emitHash env.unit env.find (env.sortScalar ScalarType.i32.ty)
    (fun x y => x == y) (env.fsScalar ScalarType.i32.ty) env.seed []

/-- `process` (core/macros/processor.rs l.54-86). -/
def process (env : MacroEnv K V) (em : Emitter) (inferredKeyType : Bool) (kind : MacroKind)
    (entries : List (MacroEntry K V)) : MacroResult K V :=
  if entries.isEmpty then processEmpty env em inferredKeyType
  else match assessKeys kind (entries.map (fun e => e.key)) with
    | .error msg => .ok (.error msg)
    | .ok k => handleKeys env em entries k

/-- `fz_map_macro` and `fz_set_macro` (core/macros/macro_api.rs l.83-124) on a parsed macro call. -/
def fzMacro (env : MacroEnv K V) (isMap : Bool) (form : MacroForm) (kind : MacroKind) (entries : List (MacroEntry K V)) :
    MacroResult K V :=
  process env (form.emitter isMap) form.inferredKeyType kind entries

/-! ## Types of the emitted code -/

/-- The suffix of an integer literal key in the emitted code: `format!("{lit}{suffix}")` with suffix `"i32"` for undecided literals, the key as
written otherwise (core/macros/processor.rs l.69-79, l.186-190). -/
def emittedSuffix (t : ScalarType) (written : String) : String :=
  if t = .undecided then written ++ "i32" else written

/-- The key type that the emitted constructor of a string collection names: inferred (`_`), `Box<str>`, or any other
(core/macros/macro_api.rs l.83-124, core/emit/generator.rs l.85-107). -/
inductive StrKeyType where
  | inferred | boxStr | other
deriving DecidableEq

/-- Whether `FzStringMap::<K, V>::new` exists: it is defined in `impl<V> FzStringMap<Box<str>, V, DefaultBuildHasher>` only
(core/fz_maps/fz_string_map.rs l.47-53). -/
def FzStringMap.newExists : StrKeyType → Bool
  | .inferred => true
  | .boxStr => true
  | .other => false

/-- The `Fz*` constructors as seen by the code of a string collection: `FzStringMap::<K, V>::new(entries)`, where `bytesK` is
`AsRef<str>` of the key expressions. -/
def fzStringCtor (kt : StrKeyType) (sort : Sorter (Str × V)) (bhStr bhSlice : Str → Nat) (bytesK : K → Str) :
    FzKind → List (K × V) → Option (Res (FzStringMap V))
  | .string, es =>
    if FzStringMap.newExists kt then some (FzStringMap.withHasher sort bhStr bhSlice (es.map (fun e => (bytesK e.1, e.2)))) else none
  | _, _ => none

end Frozen.Model
