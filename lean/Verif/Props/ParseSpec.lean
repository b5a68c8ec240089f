import Verif.Model.Parsing

/-!
# The grammar of macro calls, stated independently of the parser

`Re ts e` says that the tokens `ts` are the expression `e`, `Rt ts t` that they are the type `t`.
-/

namespace Frozen.Props

open Frozen.Model

variable {E T : Type}

/-- The words that the Rust reference reserves (section 2.1, Keywords; strict and reserved keywords of the editions up to 2021), and `_`. -/
def reservedWords : List String :=
  ["as", "break", "const", "continue", "crate", "else", "enum", "extern", "false", "fn", "for", "if", "impl", "in", "let", "loop", "match",
   "mod", "move", "mut", "pub", "ref", "return", "self", "Self", "static", "struct", "super", "trait", "true", "type", "unsafe", "use", "where",
   "while"] ++ ["async", "await", "dyn"] ++
  ["abstract", "become", "box", "do", "final", "macro", "override", "priv", "typeof", "unsized", "virtual", "yield"] ++ ["try"] ++ ["_"]

/-- The token is the punctuation character `c`. -/
def IsPunct (c : Char) (t : Tk) : Prop := ∃ joint, t = .punct c joint

/-- An entry: `key : value` in a map, `value` in a set. -/
inductive EntryToks (Re : List Tk → E → Prop) : Bool → List Tk → ParsedEntry E → Prop
  | map {k v : List Tk} {key value : E} {c : Tk} (hk : Re k key) (hc : IsPunct ':' c) (hv : Re v value) :
      EntryToks Re true (k ++ c :: v) ⟨key, some value⟩
  | set {k : List Tk} {key : E} (hk : Re k key) : EntryToks Re false k ⟨key, none⟩

/-- Entries separated by commas, with an optional comma at the end. -/
inductive ListToks (Re : List Tk → E → Prop) (isMap : Bool) : List Tk → List (ParsedEntry E) → Prop
  | nil : ListToks Re isMap [] []
  | one {ts : List Tk} {e : ParsedEntry E} (he : EntryToks Re isMap ts e) : ListToks Re isMap ts [e]
  | cons {ts us : List Tk} {c : Tk} {e : ParsedEntry E} {es : List (ParsedEntry E)} (he : EntryToks Re isMap ts e) (hc : IsPunct ',' c)
      (hes : ListToks Re isMap us es) : ListToks Re isMap (ts ++ c :: us) (e :: es)

/-- The type arguments: `K, V` for a map, `T` for a set. -/
inductive TypeToks (Rt : List Tk → T → Prop) : Bool → List Tk → T → Option T → Prop
  | map {k v : List Tk} {kt vt : T} {c : Tk} (hk : Rt k kt) (hc : IsPunct ',' c) (hv : Rt v vt) : TypeToks Rt true (k ++ c :: v) kt (some vt)
  | set {k : List Tk} {kt : T} (hk : Rt k kt) : TypeToks Rt false k kt none

/-- `name: Alias<types>, { entries }`. -/
inductive LongToks (Re : List Tk → E → Prop) (Rt : List Tk → T → Prop) (isMap : Bool) :
    List Tk → String → String → T → Option T → List (ParsedEntry E) → Prop
  | mk {name al : String} {colon lt gt comma : Tk} {types inner : List Tk} {kt : T} {vt : Option T} {es : List (ParsedEntry E)}
      (hname : name ∉ reservedWords) (hal : al ∉ reservedWords) (hcolon : IsPunct ':' colon) (hlt : IsPunct '<' lt) (ht : TypeToks Rt isMap types kt vt)
      (hgt : IsPunct '>' gt) (hcomma : IsPunct ',' comma) (hes : ListToks Re isMap inner es) :
      LongToks Re Rt isMap (.ident name :: colon :: .ident al :: lt :: (types ++ [gt, comma, .group .brace inner])) name al kt vt es

/-- A visibility: nothing, an empty invisible group (from an empty `$vis` of a `macro_rules` macro), `pub`, `pub(crate)` and the like, or
`pub(in path)`. -/
inductive VisToks (path : List Tk → Bool) : List Tk → Vis → Prop
  | none : VisToks path [] .inherited
  | empty : VisToks path [.group .none []] .inherited
  | pub : VisToks path [.ident "pub"] .pub
  | word {w : String} (hw : w = "crate" ∨ w = "self" ∨ w = "super") : VisToks path [.ident "pub", .group .paren [.ident w]] (.restricted [.ident w])
  | inPath {p : List Tk} (hne : p ≠ []) (hp : path p = true) :
      VisToks path [.ident "pub", .group .paren (.ident "in" :: p)] (.restricted (.ident "in" :: p))

/-- A macro call: `{ … }`, `let name: Alias<…>, { … }`, `let mut name: Alias<…>, { … }` or `vis static NAME: Alias<…>, { … }`. -/
inductive CallToks (path : List Tk → Bool) (Re : List Tk → E → Prop) (Rt : List Tk → T → Prop) (isMap : Bool) :
    List Tk → ParsedCall E T → Prop
  | short {v inner : List Tk} {es : List (ParsedEntry E)} (hv : VisToks path v .inherited) (hes : ListToks Re isMap inner es) :
      CallToks path Re Rt isMap (v ++ [.group .brace inner]) (.short es)
  | let_ {v ts : List Tk} {name al : String} {kt : T} {vt : Option T} {es : List (ParsedEntry E)} (mutable : Bool)
      (hv : VisToks path v .inherited) (hl : LongToks Re Rt isMap ts name al kt vt es) :
      CallToks path Re Rt isMap (v ++ .ident "let" :: ((if mutable then [.ident "mut"] else []) ++ ts))
        (.long { varName := name, typeName := al, keyType := kt, valueType := vt, entries := es, visibility := .inherited, isStatic := false,
                 isMutable := mutable })
  | static {v ts : List Tk} {vis : Vis} {name al : String} {kt : T} {vt : Option T} {es : List (ParsedEntry E)}
      (hv : VisToks path v vis) (hl : LongToks Re Rt isMap ts name al kt vt es) :
      CallToks path Re Rt isMap (v ++ .ident "static" :: ts)
        (.long { varName := name, typeName := al, keyType := kt, valueType := vt, entries := es, visibility := vis, isStatic := true,
                 isMutable := false })

/-- What a call asks for: the visibility, the form of the declaration, and for each written entry the shape and the value of its key expression and
the value of its value expression, if it has one. -/
inductive Asks (mean : ExprMeaning E K V) : ParsedCall E T → Vis → MacroForm → List (MacroEntry K V) → Prop
  | short (es : List (ParsedEntry E)) :
      Asks mean (.short es) .inherited .short (es.map (fun e => ⟨mean.shape e.key, mean.keyVal e.key, e.value.map mean.valueVal⟩))
  | static {m : LongForm E T} (hs : m.isStatic = true) :
      Asks mean (.long m) m.visibility (.static m.varName m.typeName)
        (m.entries.map (fun e => ⟨mean.shape e.key, mean.keyVal e.key, e.value.map mean.valueVal⟩))
  | let_ {m : LongForm E T} (hs : m.isStatic = false) :
      Asks mean (.long m) m.visibility (.let_ m.isMutable m.varName m.typeName)
        (m.entries.map (fun e => ⟨mean.shape e.key, mean.keyVal e.key, e.value.map mean.valueVal⟩))

/-- The tokens are read as `a` in front of everything that starts with one of the characters `ends`, and at the end of the input. -/
def ReadsAs {α : Type} (p : TkParser α) (ends : List Char) (ts : List Tk) (a : α) : Prop :=
  ts ≠ [] ∧ ∀ rest : List Tk, (rest = [] ∨ ∃ c ∈ ends, ∃ t r, IsPunct c t ∧ rest = t :: r) → p (ts ++ rest) = .ok (a, rest)

/-- The tokens are read as `a` in front of some input. -/
def ReadsAsIn {α : Type} (p : TkParser α) (ts : List Tk) (a : α) : Prop :=
  ts ≠ [] ∧ ∃ rest : List Tk, p (ts ++ rest) = .ok (a, rest)

/-- The parser consumes a non-empty piece of its input. -/
def Consumes {α : Type} (p : TkParser α) : Prop := ∀ ts a rest, p ts = .ok (a, rest) → ∃ used, used ≠ [] ∧ ts = used ++ rest

end Frozen.Props
