import Verif.Props.ReadSpec
import Verif.Props.ParseSpec
import Verif.Props.MacroSpec
import Verif.Model.Expand

/-!
# What the expansion of a macro call should be

Keys and values of the collections considered here are pieces of code: what the program computes with them is described by the functions that take
code to values.
-/

namespace Frozen.Props

open Frozen.Model

variable {E T F : Type}

/-- The caller's program as far as a macro call depends on it: which code is a type, and which an expression of a type. -/
structure Caller where
  userTy : List Tk → Prop
  keyTy : List Tk → RTy → Prop
  valTy : List Tk → RTy → Prop

/-- What the grammar of Rust guarantees: types have balanced brackets, and a pair of expressions can be read in only one way. -/
structure Caller.Sane (c : Caller) : Prop where
  types : ∀ ts, c.userTy ts → TypeLike ts
  pairs : ∀ {k v k' v' : List Tk} {X Y X' Y' : RTy}, c.keyTy k X → c.valTy v Y → c.keyTy k' X' → c.valTy v' Y' →
    k ++ .punct ',' false :: v = k' ++ .punct ',' false :: v' → k = k'

/-- The program in terms of `Declares`: an expression stands for its value. -/
def Caller.prog (c : Caller) (eqK : List Tk → List Tk → Bool) (cmp : List Tk → List Tk → Ordering)
    (fz : FzKind → List (List Tk × List Tk) → Option (Res F)) : Prog (List Tk) (List Tk) F where
  userTy := c.userTy
  keyExpr ts X k := c.keyTy ts X ∧ k = ts
  valExpr ts X v := c.valTy ts X ∧ v = ts
  eqK := eqK
  cmp := cmp
  fz := fz

/-- The types of the declaration that a call asks for: inferred in the short form, those that are written in the long form. -/
inductive AsksTypes (R : SynPrinters E T) : Bool → ParsedCall E T → GenTypes → Prop
  | shortMap (es : List (ParsedEntry E)) : AsksTypes R true (.short es) ⟨[.ident "_"], some [.ident "_"]⟩
  | shortSet (es : List (ParsedEntry E)) : AsksTypes R false (.short es) ⟨[.ident "_"], none⟩
  | longMap {m : LongForm E T} {vt : T} (h : m.valueType = some vt) : AsksTypes R true (.long m) ⟨R.ty m.keyType, some (R.ty vt)⟩
  | longSet {m : LongForm E T} (h : m.valueType = none) : AsksTypes R false (.long m) ⟨R.ty m.keyType, none⟩

/-- What the caller has to write: types, and expressions of these types. -/
structure CallTyped (c : Caller) (g : GenTypes) (es : List (MacroEntry (List Tk) (List Tk))) : Prop where
  keyTy : c.userTy g.keyType
  valTy : ∀ ts, g.valueType = some ts → c.userTy ts
  keys : ∀ e ∈ es, c.keyTy e.keyValue (.user g.keyType)
  values : ∀ e ∈ es, ∀ v, e.value = some v → c.valTy v (GenTypes.valueRTy g)
  unit : g.valueType = none → c.valTy [.group .paren []] .unit

/-- What kind of declaration a call asks for; a static is a constant or initialised on first use. -/
def requested (constant : Bool) : MacroForm → DeclKind
  | .short => .expression
  | .static name al => if constant then .constant name (some al) else .onFirstUse name (some al)
  | .let_ mutable name al => .local_ mutable name (some al)

/-- The code has one meaning: it declares `d`, and the outcome of its evaluation is `r`. -/
def OnlyMeans [Target] (P : Prog (List Tk) (List Tk) F) (isMap : Bool) (vis : Vis) (out : List Tk) (d : DeclKind)
    (r : Res (InlineMap (List Tk) (List Tk) ⊕ F)) : Prop :=
  ∀ d' r', Declares P isMap vis.tokens out d' r' ↔ d' = d ∧ r' = r

/-- The code is a literal with the text `s`, perhaps in an invisible group. -/
inductive LitCode : List Tk → String → Prop
  | bare (s : String) : LitCode [.lit s] s
  | grouped (s : String) : LitCode [.group .none [.lit s]] s

/-- The code that stands for a written key: the key as it is written, or the literal that it is with the suffix `i32`. -/
inductive KeyCode : Bool → List Tk → List Tk → Prop
  | asWritten (ts : List Tk) : KeyCode false ts ts
  | suffixed {ts : List Tk} {s : String} (h : LitCode ts s) : KeyCode true ts [.lit (s ++ "i32")]

/-- The entries that a call lists. -/
def listed : ParsedCall E T → List (ParsedEntry E)
  | .short es => es
  | .long m => m.entries

/-- What a call asks for, values being code: values and keys are the code that is written, except that keys may get a suffix. -/
def AsksCode (R : SynPrinters E T) (shape : E → KeySyntax) (addI32 : Bool) (call : ParsedCall E T) (v : Vis) (form : MacroForm)
    (args : List (MacroEntry (List Tk) (List Tk))) : Prop :=
  ∃ mean : ExprMeaning E (List Tk) (List Tk), mean.shape = shape ∧ mean.valueVal = R.expr ∧
    (∀ e ∈ listed call, KeyCode addI32 (R.expr e.key) (mean.keyVal e.key)) ∧ Asks mean call v form args

/-- The tokens are read as a call that asks for the visibility `v`, the form `form`, the entries `args` and the types `g`; `i32` is added to the keys
if all of them are integer literals without suffix. -/
def ReadsCall (S : SynParsers E T) (R : SynPrinters E T) (shape : E → KeySyntax) (isMap : Bool) (kind : MacroKind) (ts : List Tk) (v : Vis)
    (form : MacroForm) (args : List (MacroEntry (List Tk) (List Tk))) (g : GenTypes) : Prop :=
  ∃ call addI32, CallToks S.modPath (ReadsAs S.expr [',', ':']) (ReadsAs S.ty [',', '>']) isMap ts call ∧
    AsksCode R shape addI32 call v form args ∧ (addI32 = true ↔ AllInts kind (args.map (fun e => e.key)) .undecided) ∧
    AsksTypes R isMap call g

/-- A macro call whose types and expressions are those of the program `c`. -/
structure WrittenCall [Target] (S : SynParsers E T) (R : SynPrinters E T) (shape : E → KeySyntax) (isMap : Bool) (kind : MacroKind) (c : Caller)
    (ts : List Tk) (v : Vis) (form : MacroForm) (args : List (MacroEntry (List Tk) (List Tk))) (g : GenTypes) : Prop where
  reads : ReadsCall S R shape isMap kind ts v form args g
  sane : c.Sane
  typed : CallTyped c g args
  size : args.length < tableLimit
  strs : ∀ e ∈ args, ∀ v, KeyIs e.key (.str v) → v.length ≤ usizeMax

/-- What the host of the macro guarantees: sorting sorts, and the seed is a `u64`. -/
structure EnvOk {K V : Type} (env : MacroEnv K V) : Prop where
  scalars : ∀ t, SorterOk (env.sortScalar t)
  strs : SorterOk env.sortStr
  seed : env.seed < 2 ^ 64

/-- `()`. -/
def unitCode : List Tk := [.group .paren []]

/-- The code that makes the compiler stop with the message `msg`: `::core::compile_error! { "msg" }`. -/
def stopCode (msg : String) : List Tk :=
  rootPath ["core", "compile_error"] ++ [.punct '!' false, .group .brace [.lit ("\"" ++ msg ++ "\"")]]

attribute [local instance] w64 in
/-- The macro call expands to code whose only meaning is the declaration `d` with the outcome `r`. -/
def ExpandsTo (S : SynParsers E T) (R : SynPrinters E T) (shape : E → KeySyntax) (env : MacroEnv (List Tk) (List Tk)) (isMap : Bool)
    (kind : MacroKind) (ts : List Tk) (P : Prog (List Tk) (List Tk) F) (v : Vis) (d : DeclKind)
    (r : Res (InlineMap (List Tk) (List Tk) ⊕ F)) : Prop :=
  ∃ out, procMacro S R shape env isMap kind ts = .ok out ∧ OnlyMeans P isMap v out d r

end Frozen.Props
