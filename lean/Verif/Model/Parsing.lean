import Verif.Model.Macros

/-!
# Model of `core/macros/parsing/*.rs` and of `core/macros/macro_api.rs`: from the tokens of a macro call to the expansion

`syn`'s parsers for expressions, types and module paths are parameters (`SynParsers`).  The other primitives of `syn` that the code uses are
transcribed here (trusted): `Ident`, punctuation, `braced!`, `parse_terminated`, `Visibility`, `parse2`.  Simplified: outside of expressions and
types these do not look into invisible groups (`syn` does), which only macros that pass on such fragments produce.
-/

namespace Frozen.Model

attribute [local instance] w64

variable {E T K V : Type}

/-- `proc_macro2::Delimiter`. -/
inductive Delim where
  | paren | brace | bracket | none
deriving DecidableEq

/-- A token tree (`proc_macro2::TokenTree`); keywords are identifiers. -/
inductive Tk where
  | ident (s : String)
  | punct (c : Char) (joint : Bool)
  | lit (s : String)
  | group (d : Delim) (inner : List Tk)

/-- A parser: the parsed value and the remaining input, or an error. -/
abbrev TkParser (α : Type) := List Tk → Except String (α × List Tk)

/-- The parsers of `syn` that are not modelled: `Expr::parse`, `Type::parse`, and whether a token list is a module path
(`Path::parse_mod_style`). -/
structure SynParsers (E T : Type) where
  expr : TkParser E
  ty : TkParser T
  modPath : List Tk → Bool

/-- The words that `syn` does not accept as an `Ident`. -/
def keywords : List String :=
  ["_", "abstract", "as", "async", "await", "become", "box", "break", "const", "continue", "crate", "do", "dyn", "else", "enum", "extern",
   "false", "final", "fn", "for", "if", "impl", "in", "let", "loop", "macro", "match", "mod", "move", "mut", "override", "priv", "pub", "ref",
   "return", "Self", "self", "static", "struct", "super", "trait", "true", "try", "type", "typeof", "unsafe", "unsized", "use", "virtual",
   "where", "while", "yield"]

/-- `input.parse::<Ident>()`. -/
def parseIdent : TkParser String
  | .ident s :: ts => if s ∈ keywords then .error "expected identifier, found keyword" else .ok (s, ts)
  | _ => .error "expected identifier"

/-- `input.parse::<Token![c]>()` for a single character `c`. -/
def parsePunct (c : Char) : TkParser Unit
  | .punct c' _ :: ts => if c' = c then .ok ((), ts) else .error ("expected `" ++ c.toString ++ "`")
  | _ => .error ("expected `" ++ c.toString ++ "`")

/-- `input.peek(Token![word])`. -/
def peekWord (word : String) : List Tk → Bool
  | .ident s :: _ => s == word
  | _ => false

/-- `braced!(content in input)`: the content and the remaining input. -/
def parseBraces : TkParser (List Tk)
  | .group .brace inner :: ts => .ok (inner, ts)
  | _ => .error "expected curly braces"

/-- `syn::Visibility`. -/
inductive Vis where
  | inherited
  | pub
  | restricted (inner : List Tk)

/-- `visibility != Visibility::Inherited`. -/
def Vis.explicit : Vis → Bool
  | .inherited => false
  | _ => true

/-- `Visibility::parse` of `syn`.  Simplified: an invisible group that is not empty is not looked into; a `pub(in …)` with tokens behind the
path is an error at once rather than at the end of parsing. -/
def parseVisibility (S : SynParsers E T) : TkParser Vis
  | .group .none [] :: ts => .ok (.inherited, ts)
  | .ident s :: ts =>
    if s = "pub" then
      match ts with
      | .group .paren [.ident w] :: rest =>
        if w = "crate" ∨ w = "self" ∨ w = "super" then .ok (.restricted [.ident w], rest)
        else if w = "in" then .error "expected path"
        else .ok (.pub, ts)
      | .group .paren (.ident w :: path) :: rest =>
        if w = "in" then if S.modPath path then .ok (.restricted (.ident w :: path), rest) else .error "expected path"
        else .ok (.pub, ts)
      | _ => .ok (.pub, ts)
    else .ok (.inherited, .ident s :: ts)
  | ts => .ok (.inherited, ts)

/-- `struct Entry` (core/macros/parsing/entry.rs l.5-8). -/
structure ParsedEntry (E : Type) where
  key : E
  value : Option E

/-- `Entry::parse` (core/macros/parsing/entry.rs l.10-18) for maps, `SetEntry::parse` (long_form_set.rs l.48-54) followed by the conversion to
`Entry` (payload.rs l.23) for sets. -/
def parseEntry (S : SynParsers E T) (isMap : Bool) (ts : List Tk) : Except String (ParsedEntry E × List Tk) := do
  let (key, ts) ← S.expr ts
  if isMap then
    let (_, ts) ← parsePunct ':' ts
    let (value, ts) ← S.expr ts
    .ok (⟨key, some value⟩, ts)
  else .ok (⟨key, none⟩, ts)

/-- The loop of `parse_terminated(.., Token![,])` of `syn`: entries separated by commas up to the end of the input, a comma at the end being
allowed.  `fuel` bounds the number of rounds; as every round but the last consumes a comma, the length of the input suffices. -/
def parseTerminated (S : SynParsers E T) (isMap : Bool) : Nat → List Tk → Except String (List (ParsedEntry E))
  | 0, _ => .error "unreachable"
  | fuel + 1, ts =>
    if ts.isEmpty then .ok []
    else do
      let (e, ts) ← parseEntry S isMap ts
      if ts.isEmpty then .ok [e]
      else
        let (_, ts) ← parsePunct ',' ts
        let es ← parseTerminated S isMap fuel ts
        .ok (e :: es)

/-- `parse_map_payload` and `parse_set_payload` (core/macros/parsing/payload.rs l.14-36). -/
def parsePayload (S : SynParsers E T) (isMap : Bool) (ts : List Tk) : Except String (List (ParsedEntry E) × List Tk) := do
  let (content, ts) ← parseBraces ts
  let es ← parseTerminated S isMap (content.length + 1) content
  .ok (es, ts)

/-- `struct LongFormMap` and `struct LongFormSet` (core/macros/parsing/long_form_map.rs l.6-17, long_form_set.rs l.6-15); a set has no value type,
its `value_type` is here the `keyType`. -/
structure LongForm (E T : Type) where
  varName : String
  typeName : String
  keyType : T
  valueType : Option T
  entries : List (ParsedEntry E)
  visibility : Vis
  isStatic : Bool
  isMutable : Bool

/-- The key type and, for maps, the value type (core/macros/parsing/long_form_map.rs l.28-30, long_form_set.rs l.26). -/
def parseTypeArgs (S : SynParsers E T) (isMap : Bool) (ts : List Tk) : Except String ((T × Option T) × List Tk) := do
  let (kt, ts) ← S.ty ts
  if isMap then
    let (_, ts) ← parsePunct ',' ts
    let (vt, ts) ← S.ty ts
    .ok ((kt, some vt), ts)
  else .ok ((kt, none), ts)

/-- `LongFormMap::parse` (core/macros/parsing/long_form_map.rs l.19-47) and `LongFormSet::parse` (long_form_set.rs l.17-42); the last three
fields, which the callers override, are parameters. -/
def parseLongForm (S : SynParsers E T) (isMap : Bool) (visibility : Vis) (isStatic isMutable : Bool) (ts : List Tk) :
    Except String (LongForm E T × List Tk) := do
  let (varName, ts) ← parseIdent ts
  let (_, ts) ← parsePunct ':' ts
  let (typeName, ts) ← parseIdent ts
  let (_, ts) ← parsePunct '<' ts
  let (types, ts) ← parseTypeArgs S isMap ts
  let (_, ts) ← parsePunct '>' ts
  let (_, ts) ← parsePunct ',' ts
  let (entries, ts) ← parsePayload S isMap ts
  .ok ({ varName := varName, typeName := typeName, keyType := types.1, valueType := types.2, entries := entries,
         visibility := visibility, isStatic := isStatic, isMutable := isMutable }, ts)

/-- `enum Map` and `enum Set` (core/macros/parsing/map.rs l.6-10, set.rs l.6-10). -/
inductive ParsedCall (E T : Type) where
  | short (entries : List (ParsedEntry E))
  | long (form : LongForm E T)

/-- `Map::parse` and `Set::parse` (core/macros/parsing/map.rs l.12-44, set.rs l.12-44). -/
def parseCall (S : SynParsers E T) (isMap : Bool) (ts : List Tk) : Except String (ParsedCall E T × List Tk) := do
  let (visibility, ts) ← parseVisibility S ts
  if visibility.explicit && !peekWord "static" ts then .error "expected `static`"
  else if peekWord "static" ts then
    let (m, ts) ← parseLongForm S isMap visibility true false (ts.drop 1)
    .ok (.long m, ts)
  else if peekWord "let" ts then
    if peekWord "mut" (ts.drop 1) then
      let (m, ts) ← parseLongForm S isMap visibility false true (ts.drop 2)
      .ok (.long m, ts)
    else
      let (m, ts) ← parseLongForm S isMap visibility false false (ts.drop 1)
      .ok (.long m, ts)
  else
    let (es, ts) ← parsePayload S isMap ts
    .ok (.short es, ts)

/-- `parse2::<Map>(args)` and `parse2::<Set>(args)`: the whole input has to be consumed. -/
def parse2 (S : SynParsers E T) (isMap : Bool) (ts : List Tk) : Except String (ParsedCall E T) := do
  let (call, rest) ← parseCall S isMap ts
  if rest.isEmpty then .ok call else .error "unexpected token"

/-- What an expression means to the rest of the model: its shape as a key, and its value as a key and as a value. -/
structure ExprMeaning (E K V : Type) where
  shape : E → KeySyntax
  keyVal : E → K
  valueVal : E → V

/-- A parsed entry as `process` sees it. -/
def ParsedEntry.toMacro (mean : ExprMeaning E K V) (e : ParsedEntry E) : MacroEntry K V :=
  { key := mean.shape e.key, keyValue := mean.keyVal e.key, value := e.value.map mean.valueVal }

/-- The configuration of the emitter for a parsed call (core/macros/macro_api.rs l.83-103 and l.105-124), as a `MacroForm`.  A parsed call is never
both static and mutable. -/
def ParsedCall.form : ParsedCall E T → MacroForm
  | .short _ => .short
  | .long m => if m.isStatic then .static m.varName m.typeName else .let_ m.isMutable m.varName m.typeName

/-- The `payload` of a parsed call. -/
def ParsedCall.entries : ParsedCall E T → List (ParsedEntry E)
  | .short es => es
  | .long m => m.entries

/-- `.visibility(map.visibility)` (core/macros/macro_api.rs l.98, l.119); the default is `Visibility::Inherited`. -/
def ParsedCall.vis : ParsedCall E T → Vis
  | .short _ => .inherited
  | .long m => m.visibility

/-- `fz_map_macro` and `fz_set_macro` (core/macros/macro_api.rs l.83-124), from tokens: the visibility that the emitter holds and the
emitted item. -/
def fzMacroTokens (S : SynParsers E T) (mean : ExprMeaning E K V) (env : MacroEnv K V) (isMap : Bool) (kind : MacroKind) (ts : List Tk) :
    Res (Except String (Vis × Item (Emitted K V))) :=
  match parse2 S isMap ts with
  | .error msg => .ok (.error msg)
  | .ok call =>
    match fzMacro env isMap call.form kind (call.entries.map (fun e => e.toMacro mean)) with
    | .error f => .error f
    | .ok (.error msg) => .ok (.error msg)
    | .ok (.ok item) => .ok (.ok (call.vis, item))

/-! ## The emitted declaration -/

/-- `ToTokens for Visibility`. -/
def Vis.tokens : Vis → List Tk
  | .inherited => []
  | .pub => [.ident "pub"]
  | .restricted inner => [.ident "pub", .group .paren inner]

/-- `std::sync::LazyLock`. -/
def lazyLockPath : List Tk :=
  [.ident "std", .punct ':' true, .punct ':' false, .ident "sync", .punct ':' true, .punct ':' false, .ident "LazyLock"]

/-- The tokens that `postflight` puts around the type and the constructor (core/emit/collection_emitter.rs l.475-521); `sig` and `ctor` are the tokens of
`output.type_sig` and `output.ctor`. -/
def declTokens {α : Type} (vis : Vis) (sig : List Tk) (ctor : α → List Tk) : Item α → List Tk
  | .staticConst symbol (some al) out =>
    vis.tokens ++ [.ident "type", .ident al, .punct '=' false] ++ sig ++ [.punct ';' false] ++
    vis.tokens ++ [.ident "static", .ident symbol, .punct ':' false, .ident al, .punct '=' false] ++ ctor out ++ [.punct ';' false]
  | .staticConst symbol none out =>
    vis.tokens ++ [.ident "static", .ident symbol, .punct ':' false] ++ sig ++ [.punct '=' false] ++ ctor out ++ [.punct ';' false]
  | .staticLazy symbol (some al) out =>
    vis.tokens ++ [.ident "type", .ident al, .punct '=' false] ++ sig ++ [.punct ';' false] ++
    vis.tokens ++ [.ident "static", .ident symbol, .punct ':' false] ++ lazyLockPath ++ [.punct '<' false, .ident al, .punct '>' false, .punct '=' false] ++
    lazyLockPath ++ [.punct ':' true, .punct ':' false, .ident "new", .group .paren ([.punct '|' true, .punct '|' false, .group .brace (ctor out)]),
      .punct ';' false]
  | .staticLazy symbol none out =>
    vis.tokens ++ [.ident "static", .ident symbol, .punct ':' false] ++ lazyLockPath ++ [.punct '<' false] ++ sig ++ [.punct '>' false, .punct '=' false] ++
    lazyLockPath ++ [.punct ':' true, .punct ':' false, .ident "new", .group .paren ([.punct '|' true, .punct '|' false, .group .brace (ctor out)]),
      .punct ';' false]
  | .letStmt mutable symbol (some al) out =>
    [.ident "type", .ident al, .punct '=' false] ++ sig ++ [.punct ';' false] ++
    [.ident "let"] ++ (if mutable then [.ident "mut"] else []) ++ [.ident symbol, .punct ':' false, .ident al, .punct '=' false] ++ ctor out ++ [.punct ';' false]
  | .letStmt mutable symbol none out =>
    [.ident "let"] ++ (if mutable then [.ident "mut"] else []) ++ [.ident symbol, .punct ':' false] ++ sig ++ [.punct '=' false] ++ ctor out ++ [.punct ';' false]
  | .expr out => ctor out

end Frozen.Model
