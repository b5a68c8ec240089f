import Verif.Props.ExpandSpec
import Verif.Props.MapSpec
import Verif.Model.Builder

/-!
# What a build script may expect of a `CollectionEmitter`
-/

namespace Frozen.Props

open Frozen.Spec Frozen.Model

variable {B F : Type}

/-! ## Names -/

/-- The facts about the Unicode tables that matter here: digits do not start an identifier, `#` occurs in none, and ASCII letters can stand
everywhere. -/
structure XidOk (X : XidTables) : Prop where
  digit : ∀ c : Char, c.isDigit = true → X.start c = false
  hash : X.cont '#' = false
  letter : ∀ c : Char, c.isAlpha = true → X.start c = true ∧ X.cont c = true

/-- The text of an identifier (perhaps a keyword). -/
def IdentText (X : XidTables) (cs : List Char) : Prop :=
  ∃ c rest, cs = c :: rest ∧ (c = '_' ∨ X.start c = true) ∧ ∀ d ∈ rest, X.cont d = true

/-- A name that can stand where Rust expects an identifier (or a keyword): an identifier, or `r#` and an identifier that is not one of the five that
cannot be raw. -/
def IsName (X : XidTables) (s : String) : Prop :=
  IdentText X s.toList ∨
    ∃ t, s = "r#" ++ t ∧ IdentText X t.toList ∧ t ≠ "_" ∧ t ≠ "super" ∧ t ≠ "self" ∧ t ≠ "Self" ∧ t ≠ "crate"

/-- The strict keywords of Rust (2024 edition). -/
def keywords : List String :=
  ["as", "break", "const", "continue", "crate", "else", "enum", "extern", "false", "fn", "for", "if", "impl", "in", "let", "loop", "match", "mod",
    "move", "mut", "pub", "ref", "return", "self", "Self", "static", "struct", "super", "trait", "true", "type", "unsafe", "use", "where", "while",
    "async", "await", "dyn"]

/-! ## Configuration -/

/-- The argument of the last of the calls that `f` picks. -/
def lastSet {α : Type} (f : BuilderCall → Option α) : List BuilderCall → Option α
  | [] => none
  | c :: cs =>
    match lastSet f cs with
    | some x => some x
    | none => f c

/-- The value type, if there is one: then the collection is a map. -/
def askedValueType : List BuilderCall → Option (List Tk) := lastSet fun | .valueType t => some t | _ => none

/-- The name of the collection. -/
def askedName : List BuilderCall → Option String := lastSet fun | .symbolName s => some s | _ => none

/-- The name of the alias for the type. -/
def askedAlias : List BuilderCall → Option String := lastSet fun | .aliasName s => some s | _ => none

/-- Are the keys said to be constants? -/
def askedConstKeys (calls : List BuilderCall) : Bool := (lastSet (fun | .constKeys b => some b | _ => none) calls).getD false

/-- Are the values said to be constants? -/
def askedConstValues (calls : List BuilderCall) : Bool := (lastSet (fun | .constValues b => some b | _ => none) calls).getD false

/-- The visibility; private by default. -/
def askedVis (calls : List BuilderCall) : Vis := (lastSet (fun | .visibility v => some v | _ => none) calls).getD .inherited

/-- Is the collection a static? -/
def askedStatic (calls : List BuilderCall) : Bool := (lastSet (fun | .staticInstance b => some b | _ => none) calls).getD false

/-- Is the collection mutable? -/
def askedMutable (calls : List BuilderCall) : Bool := (lastSet (fun | .mutable b => some b | _ => none) calls).getD false

/-- Which method is called. -/
def methodOf : BuilderCall → String
  | .valueType _ => "value_type"
  | .symbolName _ => "symbol_name"
  | .aliasName _ => "alias_name"
  | .constKeys _ => "const_keys"
  | .constValues _ => "const_values"
  | .visibility _ => "visibility"
  | .staticInstance _ => "static_instance"
  | .mutable _ => "mutable"

/-- The calls make sense together: a static is not mutable, and only something with a name is a static, is mutable or has an alias. -/
def Consistent (calls : List BuilderCall) : Prop :=
  ¬ (askedStatic calls = true ∧ askedMutable calls = true) ∧
  (askedName calls = none → askedStatic calls = false ∧ askedMutable calls = false ∧ askedAlias calls = none)

/-- The given names are names. -/
def GoodNames (X : XidTables) (calls : List BuilderCall) : Prop :=
  (∀ s, askedName calls = some s → IsName X s) ∧ ∀ s, askedAlias calls = some s → IsName X s

/-- What the calls ask for. -/
def askedDecl (calls : List BuilderCall) : DeclKind :=
  match askedName calls with
  | none => .expression
  | some name =>
    if askedStatic calls then
      if askedConstKeys calls && askedConstValues calls then .constant name (askedAlias calls) else .onFirstUse name (askedAlias calls)
    else .local_ (askedMutable calls) name (askedAlias calls)

/-- The types that the calls ask for. -/
def askedTypes (keyType : List Tk) (calls : List BuilderCall) : GenTypes where
  keyType := keyType
  valueType := askedValueType calls

/-- The entries of the collection: code for a key with code for its value, which is `()` in a set. -/
def askedEntries (calls : List BuilderCall) (entries : List (CollectionEntry B (List Tk) (List Tk))) : List (List Tk × List Tk) :=
  entries.map (fun e => (e.keyExpr, if (askedValueType calls).isSome then e.valueExpr else [.group .paren []]))

/-- What the build script has to provide: types, and expressions of these types. -/
structure ScriptTyped (c : Caller) (keyType : List Tk) (calls : List BuilderCall) (es : List (List Tk × List Tk)) : Prop where
  keyTy : c.userTy keyType
  valTy : ∀ ts, askedValueType calls = some ts → c.userTy ts
  keys : ∀ e ∈ es, c.keyTy e.1 (.user keyType)
  values : ∀ e ∈ es, c.valTy e.2 (GenTypes.valueRTy (askedTypes keyType calls))

/-! ## Emission -/

/-- `Emission X key calls q eqK mt es r`: `r` is the outcome of an `emit_*` method, called for entries that stand for `es`, on the emitter that the
calls configure.  `eqK` is equality of the keys as the emitted program sees it and `mt` says which keys a query matches.  The side conditions are the
contracts of the traits, and that the keys given to the emitter agree with the code given for them. -/
inductive Emission [Target] (X : XidTables) (key : List Tk) (calls : List BuilderCall) {Q : Type} (q : QueryTraits Q (List Tk)) :
    (List Tk → List Tk → Bool) → (Q → List Tk → Bool) → List (List Tk × List Tk) → Res (Except String (List Tk)) → Prop
  | hash {B : Type} {find : HbFind} (hfind : HbFindOk find) {sort : Sorter (CollectionEntry B (List Tk) (List Tk))} (hsort : SorterOk sort)
      {eqB : B → B → Bool} (heB : LawfulEq' eqB) {eqK : List Tk → List Tk → Bool} (he : LawfulEq' eqK) (hq : LawfulQuery eqK q.equivalent)
      {fixedState : Nat → B → Nat} {seed : Nat} (hseed : seed < 2 ^ 64) (hB : ∀ a b, eqB a b = true → fixedState seed a = fixedState seed b)
      {hk : List Tk → Nat} (hh : LawfulHash eqK q.equivalent hk (q.fixedState seed)) {entries : List (CollectionEntry B (List Tk) (List Tk))}
      (hag : ∀ x ∈ entries, ∀ y ∈ entries, eqB x.key y.key = eqK x.keyExpr y.keyExpr)
      (hhash : ∀ x ∈ entries, hk x.keyExpr = fixedState seed x.key) (hn : entries.length < sizeLimit) :
      Emission X key calls q eqK q.equivalent (askedEntries calls entries)
        ((CollectionEmitter.build key calls).emitHash X find sort eqB fixedState seed entries)
  | ordered {B : Type} {cmpB : B → B → Ordering} (hB : LawfulCmp cmpB) {cmp : List Tk → List Tk → Ordering} (hc : LawfulCmp cmp)
      (hq : LawfulQueryCmp cmp q.compare) (heqv : q.equivalent = fun x k => q.compare x k == .eq)
      {entries : List (CollectionEntry B (List Tk) (List Tk))}
      (hag : ∀ x ∈ entries, ∀ y ∈ entries, cmpB x.key y.key = cmp x.keyExpr y.keyExpr) (hn : entries.length < sizeLimit) :
      Emission X key calls q (fun a b => cmp a b == .eq) (fun x k => q.compare x k == .eq) (askedEntries calls entries)
        ((CollectionEmitter.build key calls).emitOrdered X cmpB entries)
  | scalar {B : Type} (b : Build) {sort : Sorter (CollectionEntry B (List Tk) (List Tk))} (hsort : SorterOk sort) {cmpB : B → B → Ordering}
      {index : B → Nat} (hB : LawfulScalar cmpB index) {cmp : List Tk → List Tk → Ordering} {indexK : List Tk → Nat}
      (hk : LawfulScalar cmp indexK) (heqv : q.equivalent = scalarMatch indexK q.index) {entries : List (CollectionEntry B (List Tk) (List Tk))}
      (hag : ∀ x ∈ entries, indexK x.keyExpr = index x.key) (hn : entries.length < tableLimit)
      (hspan : ∀ x ∈ entries, ∀ y ∈ entries, index x.key - index y.key < usizeMax) :
      Emission X key calls q (fun a b => cmp a b == .eq) (scalarMatch indexK q.index) (askedEntries calls entries)
        ((CollectionEmitter.build key calls).emitScalar X b sort cmpB index entries)
  | string {sort : Sorter (CollectionEntry Str (List Tk) (List Tk))} (hsort : SorterOk sort) {fsStr fsSlice : Nat → Str → Nat} {seed : Nat}
      (hseed : seed < 2 ^ 64) {bytesK : List Tk → Str} (heqv : q.equivalent = fun x k => q.bytes x == bytesK k)
      (hstr : ∀ x, q.fixedState seed x = fsStr seed (q.bytes x)) (hslice : q.fixedStateSlice seed = fsSlice seed)
      {entries : List (CollectionEntry Str (List Tk) (List Tk))} (hag : ∀ x ∈ entries, bytesK x.keyExpr = x.key)
      (hn : entries.length < sizeLimit) (hkl : ∀ x ∈ entries, x.key.length ≤ usizeMax) :
      Emission X key calls q (fun a b => bytesK a == bytesK b) q.equivalent (askedEntries calls entries)
        ((CollectionEmitter.build key calls).emitString X sort fsStr fsSlice seed entries)

end Frozen.Props
