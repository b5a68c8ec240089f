import Verif.Model.Expand
import Verif.Model.Scalar

/-!
# Model of `core/macros/derive_scalar_macro.rs` at the level of tokens

`Model/Scalar.lean` describes `derive(Scalar)` on a parsed item (`deriveScalar`).  Here are the parsing of the item by `syn` and the `quote!` templates.
`syn`'s parsers of generics, where clauses, fields, attributes and the bodies of structs and unions are parameters; the rest of
`DeriveInput::parse` is transcribed (trusted).
-/

namespace Frozen.Model

variable {E T G : Type}

/-- The parsers of `syn` for pieces of items that are not modelled, and the printers of generics (`ImplGenerics`, `TypeGenerics`).  The
where clause is given by its tokens, none if there is no clause. -/
structure SynItems (E T G : Type) extends SynParsers E T where
  isMeta : List Tk → Bool
  namedFields : List Tk → Bool
  unnamedFields : List Tk → Bool
  generics : TkParser G
  whereClause : TkParser (List Tk)
  structBody : TkParser (List Tk)
  unionBody : TkParser (List Tk)
  implGenerics : G → List Tk
  tyGenerics : G → List Tk

/-- `Attribute::parse_outer` of `syn`: `#[..]` as long as there is a `#`.  Returns the remaining input. -/
def parseAttrs (S : SynItems E T G) : List Tk → Except String (List Tk)
  | .punct c j :: .group .bracket inner :: ts =>
    if c = '#' then if S.isMeta inner then parseAttrs S ts else .error "malformed attribute"
    else .ok (.punct c j :: .group .bracket inner :: ts)
  | .punct c j :: ts => if c = '#' then .error "expected square brackets" else .ok (.punct c j :: ts)
  | ts => .ok ts

/-- The fields of a variant (`Variant::parse` of `syn`): whether there are none, and the remaining input. -/
def parseVariantFields (S : SynItems E T G) : TkParser Bool
  | .group .brace inner :: ts => if S.namedFields inner then .ok (false, ts) else .error "malformed fields"
  | .group .paren inner :: ts => if S.unnamedFields inner then .ok (false, ts) else .error "malformed fields"
  | ts => .ok (true, ts)

/-- `input.peek(Token![c])`. -/
def peekPunct (c : Char) : List Tk → Bool
  | .punct c' _ :: _ => c' == c
  | _ => false

/-- The discriminant of a variant (`Variant::parse` of `syn`): of the expression only its presence is kept, the value stands for any. -/
def parseDiscriminant (S : SynItems E T G) (ts : List Tk) : Except String (Option Int × List Tk) :=
  if peekPunct '=' ts then do
    let (_, ts) ← S.expr (ts.drop 1)
    .ok (some 0, ts)
  else .ok (none, ts)

/-- `Variant::parse` of `syn`. -/
def parseVariant (S : SynItems E T G) (ts : List Tk) : Except String (EnumVariant × List Tk) := do
  let ts ← parseAttrs S ts
  let (_, ts) ← parseVisibility S.toSynParsers ts
  let (ident, ts) ← parseIdent ts
  let (unit, ts) ← parseVariantFields S ts
  let (discriminant, ts) ← parseDiscriminant S ts
  .ok ({ ident := ident, unit := unit, discriminant := discriminant }, ts)

/-- The loop of `content.parse_terminated(Variant::parse, Token![,])`; `fuel` as in `parseTerminated`. -/
def parseVariants (S : SynItems E T G) : Nat → List Tk → Except String (List EnumVariant)
  | 0, _ => .error "unreachable"
  | fuel + 1, ts =>
    if ts.isEmpty then .ok []
    else do
      let (v, ts) ← parseVariant S ts
      if ts.isEmpty then .ok [v]
      else
        let (_, ts) ← parsePunct ',' ts
        let vs ← parseVariants S fuel ts
        .ok (v :: vs)

/-- The fields of `syn::DeriveInput` that the macro uses. -/
structure DeriveInput (G : Type) where
  ident : String
  generics : G
  whereClause : List Tk
  data : DeriveData

/-- The body of an enum (`data_enum` of `syn`). -/
def parseEnumBody (S : SynItems E T G) (ts : List Tk) : Except String ((List Tk × List EnumVariant) × List Tk) := do
  let (wh, ts) ← S.whereClause ts
  let (content, ts) ← parseBraces ts
  let vs ← parseVariants S (content.length + 1) content
  .ok ((wh, vs), ts)

/-- `DeriveInput::parse` of `syn`. -/
def parseItem (S : SynItems E T G) (ts : List Tk) : Except String (DeriveInput G × List Tk) := do
  let ts ← parseAttrs S ts
  let (_, ts) ← parseVisibility S.toSynParsers ts
  if peekWord "struct" ts then do
    let (ident, ts) ← parseIdent (ts.drop 1)
    let (g, ts) ← S.generics ts
    let (wh, ts) ← S.structBody ts
    .ok ({ ident := ident, generics := g, whereClause := wh, data := .struct }, ts)
  else if peekWord "enum" ts then do
    let (ident, ts) ← parseIdent (ts.drop 1)
    let (g, ts) ← S.generics ts
    let (body, ts) ← parseEnumBody S ts
    .ok ({ ident := ident, generics := g, whereClause := body.1, data := .enum body.2 }, ts)
  else if peekWord "union" ts then do
    let (ident, ts) ← parseIdent (ts.drop 1)
    let (g, ts) ← S.generics ts
    let (wh, ts) ← S.unionBody ts
    .ok ({ ident := ident, generics := g, whereClause := wh, data := .union }, ts)
  else .error "expected one of: `struct`, `enum`, `union`"

/-- `syn::parse2::<DeriveInput>(args)` (core/macros/derive_scalar_macro.rs l.14). -/
def parseDeriveInput (S : SynItems E T G) (ts : List Tk) : Except String (DeriveInput G) := do
  let (input, rest) ← parseItem S ts
  if rest.isEmpty then .ok input else .error "unexpected token"

/-- `#name::#ident => #index` (core/macros/derive_scalar_macro.rs l.47). -/
def armTokens (name : String) (arm : String × Nat) : List Tk :=
  .ident name :: (colon2 ++ [.ident arm.1, .punct '=' true, .punct '>' false, numTk (usizeTok arm.2)])

/-- The implementation (core/macros/derive_scalar_macro.rs l.50-59). -/
def implTokens (name : String) (implGenerics tyGenerics whereClause : List Tk) (arms : List (String × Nat)) : List Tk :=
  [.punct '#' false, .group .bracket [.ident "automatically_derived"], .ident "impl"] ++ implGenerics ++
  absPath ["frozen_collections", "Scalar"] ++ [.ident "for", .ident name] ++ tyGenerics ++ whereClause ++
  [.group .brace [.ident "fn", .ident "index", .group .paren [.punct '&' false, .ident "self"], .punct '-' true, .punct '>' false, .ident "usize",
    .group .brace [.ident "match", .ident "self", .group .brace (commaSep (arms.map (armTokens name)))]]]

/-- `derive_scalar_macro` (core/macros/derive_scalar_macro.rs l.13-60), from tokens to tokens. -/
def deriveScalarTokens (S : SynItems E T G) (ts : List Tk) : Except String (List Tk) := do
  let input ← parseDeriveInput S ts
  let arms ← deriveScalar input.data
  .ok (implTokens input.ident (S.implGenerics input.generics) (S.tyGenerics input.generics) input.whereClause arms)

/-- The derive macro (frozen-collections-macros/src/lib.rs l.83-89). -/
def deriveMacro (S : SynItems E T G) (ts : List Tk) : List Tk :=
  match deriveScalarTokens S ts with
  | .error msg => compileError msg
  | .ok out => out

end Frozen.Model
