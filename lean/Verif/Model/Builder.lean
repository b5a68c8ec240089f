import Verif.Model.Tokens
import Verif.Model.Expand

/-!
# Model of the public interface for build scripts: `CollectionEmitter` (core/emit/collection_emitter.rs)

`Model/Emit.lean` describes the `emit_*` functions as functions to a data structure.  Here is the rest of what a build script sees: the methods that
configure the emitter, and the step from the data structure to tokens with the creation of identifiers.
-/

namespace Frozen.Model

variable {B : Type}

/-! ## Identifiers -/

/-- The character classes of the crate `unicode_ident`, a dependency of `proc_macro2`: `XID_Start` and `XID_Continue`. -/
structure XidTables where
  start : Char → Bool
  cont : Char → Bool

/-- `proc_macro2::Ident::new` outside of procedural macros (a dependency; not part of /repo): panics unless the text is that of an identifier.
Keywords are accepted. -/
def validateIdent (X : XidTables) (cs : List Char) : Res Unit :=
  match cs with
  | [] => .error (.panic "Ident is not allowed to be empty; use Option<Ident>")
  | c :: rest =>
    if cs.all Char.isDigit then .error (.panic "Ident cannot be a number; use Literal instead")
    else if (c == '_' || X.start c) && rest.all X.cont then .ok ()
    else .error (.panic "not a valid Ident")

/-- The names that `proc_macro2::Ident::new_raw` does not accept. -/
def notRaw : List String := ["_", "super", "self", "Self", "crate"]

/-- `format_ident!("{}", name)` (a macro of the crate `quote`, used in core/emit/collection_emitter.rs l.480, l.483, l.494, l.505, l.509): a prefix
`r#` makes a raw identifier. -/
def formatIdent (X : XidTables) (name : String) : Res Tk :=
  match name.toList with
  | 'r' :: '#' :: rest => do
    validateIdent X rest
    if String.ofList rest ∈ notRaw then .error (.panic "cannot be a raw identifier") else .ok (.ident name)
  | cs => do
    validateIdent X cs
    .ok (.ident name)

/-! ## The builder -/

/-- `struct CollectionEmitter` (core/emit/collection_emitter.rs l.82-98) without the two fields that only macros set; types are tokens. -/
structure CollectionEmitter where
  keyType : List Tk
  valueType : Option (List Tk)
  symbolName : Option String
  aliasName : Option String
  constKeys : Bool
  constValues : Bool
  visibility : Vis
  isMutable : Bool
  isStatic : Bool

/-- `CollectionEmitter::new` (core/emit/collection_emitter.rs l.115-133). -/
def CollectionEmitter.new (keyType : List Tk) : CollectionEmitter where
  keyType := keyType
  valueType := none
  symbolName := none
  aliasName := none
  constKeys := false
  constValues := false
  visibility := .inherited
  isMutable := false
  isStatic := false

/-- A call of one of the methods that configure the emitter. -/
inductive BuilderCall where
  | valueType (ty : List Tk)
  | symbolName (name : String)
  | aliasName (name : String)
  | constKeys (b : Bool)
  | constValues (b : Bool)
  | visibility (v : Vis)
  | staticInstance (b : Bool)
  | mutable (b : Bool)

/-- The methods `value_type` (core/emit/collection_emitter.rs l.157-160), `symbol_name` (l.167-170), `alias_name` (l.178-181), `const_keys`
(l.185-188), `const_values` (l.192-195), `visibility` (l.202-205), `static_instance` (l.209-212) and `mutable` (l.216-219). -/
def CollectionEmitter.apply (e : CollectionEmitter) : BuilderCall → CollectionEmitter
  | .valueType ty => { e with valueType := some ty }
  | .symbolName name => { e with symbolName := some name }
  | .aliasName name => { e with aliasName := some name }
  | .constKeys b => { e with constKeys := b }
  | .constValues b => { e with constValues := b }
  | .visibility v => { e with visibility := v }
  | .staticInstance b => { e with isStatic := b }
  | .mutable b => { e with isMutable := b }

/-- `CollectionEmitter::new(key).a(..).b(..)…`: a chain of method calls. -/
def CollectionEmitter.build (keyType : List Tk) (calls : List BuilderCall) : CollectionEmitter :=
  calls.foldl CollectionEmitter.apply (CollectionEmitter.new keyType)

/-- The part of the configuration on which the choice of the code depends. -/
def CollectionEmitter.emitter (e : CollectionEmitter) : Emitter where
  hasValueType := e.valueType.isSome
  symbolName := e.symbolName
  aliasName := e.aliasName
  constKeys := e.constKeys
  constValues := e.constValues
  isMutable := e.isMutable
  isStatic := e.isStatic

/-- `Generator::new(&self.key_type, self.value_type.as_ref(), len)` (core/emit/collection_emitter.rs l.469). -/
def CollectionEmitter.types (e : CollectionEmitter) : GenTypes where
  keyType := e.keyType
  valueType := e.valueType

/-! ## Emission -/

/-- `format_ident!` for the alias, if there is one. -/
def formatAlias (X : XidTables) : Option String → Res Unit
  | none => .ok ()
  | some a => do
    let _ ← formatIdent X a
    .ok ()

/-- The identifiers that `postflight` creates (core/emit/collection_emitter.rs l.480-509): first the name of the symbol, then that of the alias. -/
def formatNames (X : XidTables) {α : Type} : Item α → Res Unit
  | .staticConst s a _ => do
    let _ ← formatIdent X s
    formatAlias X a
  | .staticLazy s a _ => do
    let _ ← formatIdent X s
    formatAlias X a
  | .letStmt _ s a _ => do
    let _ ← formatIdent X s
    formatAlias X a
  | .expr _ => .ok ()

/-- `Ok(self.postflight(output))` (core/emit/collection_emitter.rs l.474-522), to tokens. -/
def CollectionEmitter.toCode (X : XidTables) (e : CollectionEmitter) (r : Res (Except String (Item (Emitted (List Tk) (List Tk))))) :
    Res (Except String (List Tk)) :=
  match r with
  | .error f => .error f
  | .ok (.error msg) => .ok (.error msg)
  | .ok (.ok item) => do
    formatNames X item
    .ok (.ok (emittedTokens e.visibility e.types codeToks item))

/-- The expression `()` (`parse_quote! { () }`, core/emit/collection_emitter.rs l.454). -/
def unitExpr : List Tk := [.group .paren []]

/-- `emit_hash_collection` (core/emit/collection_emitter.rs l.238-262).  The seed is a number chosen when the crate is compiled (l.226-229). -/
def CollectionEmitter.emitHash [Target] (X : XidTables) (e : CollectionEmitter) (find : HbFind) (sort : Sorter (CollectionEntry B (List Tk) (List Tk)))
    (eqB : B → B → Bool) (fixedState : Nat → B → Nat) (seed : Nat) (entries : List (CollectionEntry B (List Tk) (List Tk))) :
    Res (Except String (List Tk)) :=
  e.toCode X (e.emitter.emitHash unitExpr find sort eqB fixedState seed entries)

/-- `emit_ordered_collection` (core/emit/collection_emitter.rs l.272-288). -/
def CollectionEmitter.emitOrdered [Target] (X : XidTables) (e : CollectionEmitter) (cmpB : B → B → Ordering)
    (entries : List (CollectionEntry B (List Tk) (List Tk))) : Res (Except String (List Tk)) :=
  e.toCode X (e.emitter.emitOrdered unitExpr cmpB entries)

/-- `emit_scalar_collection` (core/emit/collection_emitter.rs l.297-326). -/
def CollectionEmitter.emitScalar [Target] (X : XidTables) (e : CollectionEmitter) (b : Build) (sort : Sorter (CollectionEntry B (List Tk) (List Tk)))
    (cmpB : B → B → Ordering) (index : B → Nat) (entries : List (CollectionEntry B (List Tk) (List Tk))) : Res (Except String (List Tk)) :=
  e.toCode X (e.emitter.emitScalar unitExpr b sort cmpB index entries)

/-- `emit_string_collection` (core/emit/collection_emitter.rs l.335-401). -/
def CollectionEmitter.emitString [Target] (X : XidTables) (e : CollectionEmitter) (sort : Sorter (CollectionEntry Str (List Tk) (List Tk)))
    (fsStr fsSlice : Nat → Str → Nat) (seed : Nat) (entries : List (CollectionEntry Str (List Tk) (List Tk))) : Res (Except String (List Tk)) :=
  e.toCode X (e.emitter.emitString unitExpr sort fsStr fsSlice seed entries)

/-- `CollectionEntry::map_entry` (core/emit/collection_entry.rs l.20-22). -/
def CollectionEntry.mapEntry (key : B) (keyExpr valueExpr : List Tk) : CollectionEntry B (List Tk) (List Tk) where
  key := key
  keyExpr := keyExpr
  valueExpr := valueExpr

/-- `CollectionEntry::set_entry` (core/emit/collection_entry.rs l.25-31): the value is `()`. -/
def CollectionEntry.setEntry (key : B) (keyExpr : List Tk) : CollectionEntry B (List Tk) (List Tk) where
  key := key
  keyExpr := keyExpr
  valueExpr := unitExpr

end Frozen.Model
