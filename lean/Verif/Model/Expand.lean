import Verif.Model.Tokens

/-!
# Model of the macros as functions from tokens to tokens

The pieces are those of `Model/Parsing` (core/macros/parsing), `Model/Macros` and `Model/Emit` (core/macros/processor.rs, core/emit) and
`Model/Tokens` (core/emit/generator.rs).  Here key and value expressions are what they are in the code: pieces of code, which the emitter copies.
-/

namespace Frozen.Model

attribute [local instance] w64

variable {E T : Type}

/-- `ToTokens` of `syn::Expr` and `syn::Type`. -/
structure SynPrinters (E T : Type) where
  expr : E → List Tk
  ty : T → List Tk

/-- `parse_str::<Expr>(&format!("{lit}i32"))` for the literal that `key` consists of, perhaps in an invisible group
(core/macros/processor.rs l.183-190).  Other keys do not get here. -/
def suffixI32 : List Tk → List Tk
  | [.lit s] => [.lit (s ++ "i32")]
  | [.group .none [.lit s]] => [.lit (s ++ "i32")]
  | ts => ts

/-- Whether `handle_literal_scalar_keys` is called with the suffix `"i32"` (core/macros/processor.rs l.79). -/
def needsSuffix (kind : MacroKind) (keys : List KeySyntax) : Bool :=
  match assessKeys kind keys with
  | .ok (.allLiteralScalars .undecided) => true
  | _ => false

/-- The meaning of expressions for the emitter: their syntactic shape and the code that is emitted for them (core/macros/processor.rs l.186-196,
l.211-217 and the handlers l.227-291). -/
def codeMeaning (shape : E → KeySyntax) (R : SynPrinters E T) (suffixed : Bool) : ExprMeaning E (List Tk) (List Tk) where
  shape := shape
  keyVal e := if suffixed then suffixI32 (R.expr e) else R.expr e
  valueVal := R.expr

/-- The types that the emitter is given: `_` in the short form (core/emit/collection_emitter.rs l.137-151), the declared ones in the long form
(core/macros/macro_api.rs l.91-93, l.113).  Sets have no value type. -/
def ParsedCall.genTypes (R : SynPrinters E T) (isMap : Bool) : ParsedCall E T → GenTypes
  | .short _ => { keyType := [.ident "_"], valueType := if isMap then some [.ident "_"] else none }
  | .long m => { keyType := R.ty m.keyType, valueType := m.valueType.map R.ty }

/-- Code is copied as it is. -/
def codeToks : ExprToks (List Tk) (List Tk) where
  key ts := ts
  value ts := ts

/-- `fz_map_macro` and `fz_set_macro` (core/macros/macro_api.rs l.83-124), from tokens to tokens.  The value expression of sets is `()`
(core/emit/collection_entry.rs l.26-32). -/
def expand (S : SynParsers E T) (R : SynPrinters E T) (shape : E → KeySyntax) (env : MacroEnv (List Tk) (List Tk)) (isMap : Bool)
    (kind : MacroKind) (ts : List Tk) : Res (Except String (List Tk)) :=
  match parse2 S isMap ts with
  | .error msg => .ok (.error msg)
  | .ok call =>
    let mean := codeMeaning shape R (needsSuffix kind (call.entries.map (fun e => shape e.key)))
    match fzMacro { env with unit := [.group .paren []] } isMap call.form kind (call.entries.map (fun e => e.toMacro mean)) with
    | .error f => .error f
    | .ok (.error msg) => .ok (.error msg)
    | .ok (.ok item) => .ok (.ok (emittedTokens call.vis (call.genTypes R isMap) codeToks item))

/-- `syn::Error::to_compile_error`: `::core::compile_error! { "msg" }`. -/
def compileError (msg : String) : List Tk :=
  absPath ["core", "compile_error"] ++ [.punct '!' false, .group .brace [.lit ("\"" ++ msg ++ "\"")]]

/-- The procedural macros (frozen-collections-macros/src/lib.rs l.19-81).  A panic of the macro is reported by the compiler. -/
def procMacro (S : SynParsers E T) (R : SynPrinters E T) (shape : E → KeySyntax) (env : MacroEnv (List Tk) (List Tk)) (isMap : Bool)
    (kind : MacroKind) (ts : List Tk) : Res (List Tk) :=
  match expand S R shape env isMap kind ts with
  | .error f => .error f
  | .ok (.error msg) => .ok (compileError msg)
  | .ok (.ok out) => .ok out

end Frozen.Model
