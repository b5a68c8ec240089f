import Verif.Props.ParseSpec
import Verif.Props.MacroSpec
import Verif.Model.Derive

/-!
# Items and implementations, stated independently of the derive macro

First the grammar of the items that a derive macro is applied to, then the meaning of an implementation of `Scalar`.
-/

namespace Frozen.Props

open Frozen.Model

variable {E T G : Type}

/-! ## The items a derive macro is applied to -/

/-- A variant of an enum as it is declared. -/
structure DeclVariant where
  name : String
  hasFields : Bool
  hasDiscriminant : Bool
deriving DecidableEq

/-- What is declared. -/
inductive ItemKind where
  | struct
  | union
  | enum (variants : List DeclVariant)

/-- A declared type. -/
structure DeclItem (G : Type) where
  name : String
  generics : G
  whereClause : List Tk
  kind : ItemKind

/-- Any number of attributes. -/
inductive AttrToks (isMeta : List Tk → Bool) : List Tk → Prop
  | nil : AttrToks isMeta []
  | cons {h : Tk} {inner ts : List Tk} (hh : IsPunct '#' h) (hm : isMeta inner = true) (hs : AttrToks isMeta ts) :
      AttrToks isMeta (h :: .group .bracket inner :: ts)

/-- The fields of a variant; the flag says whether there are any. -/
inductive FieldToks (named unnamed : List Tk → Bool) : List Tk → Bool → Prop
  | unit : FieldToks named unnamed [] false
  | named {inner : List Tk} (h : named inner = true) : FieldToks named unnamed [.group .brace inner] true
  | tuple {inner : List Tk} (h : unnamed inner = true) : FieldToks named unnamed [.group .paren inner] true

/-- The discriminant of a variant, in front of `rest`; the flag says whether there is one. -/
inductive DiscToks (expr : TkParser E) (rest : List Tk) : List Tk → Bool → Prop
  | none : DiscToks expr rest [] false
  | some {eq : Tk} {ts : List Tk} {e : E} (heq : IsPunct '=' eq) (h : expr (ts ++ rest) = .ok (e, rest)) : DiscToks expr rest (eq :: ts) true

/-- A variant in front of `rest`: attributes, a visibility (which `syn` allows here), the name, fields, a discriminant. -/
inductive VariantToks (S : SynItems E T G) (rest : List Tk) : List Tk → DeclVariant → Prop
  | mk {a v f d : List Tk} {vis : Vis} {name : String} {hasFields hasDisc : Bool} (ha : AttrToks S.isMeta a) (hv : VisToks S.modPath v vis)
      (hname : name ∉ reservedWords) (hf : FieldToks S.namedFields S.unnamedFields f hasFields) (hd : DiscToks S.expr rest d hasDisc) :
      VariantToks S rest (a ++ v ++ .ident name :: (f ++ d)) ⟨name, hasFields, hasDisc⟩

/-- Variants separated by commas, with an optional comma at the end. -/
inductive VariantsToks (S : SynItems E T G) : List Tk → List DeclVariant → Prop
  | nil : VariantsToks S [] []
  | one {ts : List Tk} {v : DeclVariant} (h : VariantToks S [] ts v) : VariantsToks S ts [v]
  | cons {ts us : List Tk} {c : Tk} {v : DeclVariant} {vs : List DeclVariant} (h : VariantToks S (c :: us) ts v) (hc : IsPunct ',' c)
      (hs : VariantsToks S us vs) : VariantsToks S (ts ++ c :: us) (v :: vs)

/-- An item: `#[..] pub enum Name<..> where .. { variants }`, a struct or a union. -/
inductive ItemToks (S : SynItems E T G) : List Tk → DeclItem G → Prop
  | enum {a v gen wh inner w : List Tk} {vis : Vis} {name : String} {g : G} {vs : List DeclVariant} (ha : AttrToks S.isMeta a)
      (hv : VisToks S.modPath v vis) (hname : name ∉ reservedWords)
      (hg : S.generics (gen ++ (wh ++ [.group .brace inner])) = .ok (g, wh ++ [.group .brace inner]))
      (hw : S.whereClause (wh ++ [.group .brace inner]) = .ok (w, [.group .brace inner])) (hvs : VariantsToks S inner vs) :
      ItemToks S (a ++ v ++ .ident "enum" :: .ident name :: (gen ++ (wh ++ [.group .brace inner]))) ⟨name, g, w, .enum vs⟩
  | struct {a v gen body w : List Tk} {vis : Vis} {name : String} {g : G} (ha : AttrToks S.isMeta a) (hv : VisToks S.modPath v vis)
      (hname : name ∉ reservedWords) (hg : S.generics (gen ++ body) = .ok (g, body)) (hb : S.structBody body = .ok (w, [])) :
      ItemToks S (a ++ v ++ .ident "struct" :: .ident name :: (gen ++ body)) ⟨name, g, w, .struct⟩
  | union {a v gen body w : List Tk} {vis : Vis} {name : String} {g : G} (ha : AttrToks S.isMeta a) (hv : VisToks S.modPath v vis)
      (hname : name ∉ reservedWords) (hg : S.generics (gen ++ body) = .ok (g, body)) (hb : S.unionBody body = .ok (w, [])) :
      ItemToks S (a ++ v ++ .ident "union" :: .ident name :: (gen ++ body)) ⟨name, g, w, .union⟩

/-- The parser returns a suffix of its input. -/
def Suffix {α : Type} (p : TkParser α) : Prop := ∀ ts a rest, p ts = .ok (a, rest) → ∃ used, ts = used ++ rest

/-- What is assumed of the parsers that are not modelled. -/
structure ItemParsers (S : SynItems E T G) : Prop where
  expr : Suffix S.expr
  generics : Suffix S.generics
  whereClause : Suffix S.whereClause

/-! ## What the generated code means -/

/-- `Name::Variant => number`, a number of type `usize`. -/
inductive ArmMeans [Target] (name : String) : List Tk → String × Nat → Prop
  | mk {v : String} {t : Tok} {n : Nat} (h : UsizeLit t n) :
      ArmMeans name [.ident name, .punct ':' true, .punct ':' false, .ident v, .punct '=' true, .punct '>' false, .lit (String.ofList t)] (v, n)

/-- `a, b, c` or `a, b, c,`. -/
inductive Arms [Target] (name : String) : List Tk → List (String × Nat) → Prop
  | nil : Arms name [] []
  | last {t : List Tk} {a : String × Nat} (h : ArmMeans name t a) : Arms name t [a]
  | cons {t ts : List Tk} {a : String × Nat} {as : List (String × Nat)} (h : ArmMeans name t a) (hs : Arms name ts as) :
      Arms name (t ++ .punct ',' false :: ts) (a :: as)

/-- `impl<params> ::frozen_collections::Scalar for Name<args> where .. { fn index(&self) -> usize { match self { arms } } }`, marked as
`#[automatically_derived]`, which does not change what it means. -/
inductive IndexImpl [Target] (params : List Tk) (name : String) (args wh : List Tk) : List Tk → List (String × Nat) → Prop
  | mk {body : List Tk} {arms : List (String × Nat)} (h : Arms name body arms) :
      IndexImpl params name args wh
        (.punct '#' false :: .group .bracket [.ident "automatically_derived"] :: .ident "impl" :: (params ++
          [.punct ':' true, .punct ':' false, .ident "frozen_collections", .punct ':' true, .punct ':' false, .ident "Scalar", .ident "for",
           .ident name] ++ args ++ wh ++
          [.group .brace [.ident "fn", .ident "index", .group .paren [.punct '&' false, .ident "self"], .punct '-' true, .punct '>' false,
            .ident "usize", .group .brace [.ident "match", .ident "self", .group .brace body]]])) arms

/-- The `match` takes the first arm that names the variant. -/
inductive Takes : List (String × Nat) → String → Nat → Prop
  | here {v : String} {n : Nat} {arms : List (String × Nat)} : Takes ((v, n) :: arms) v n
  | later {v w : String} {n k : Nat} {arms : List (String × Nat)} (hne : w ≠ v) (h : Takes arms v n) : Takes ((w, k) :: arms) v n

/-- `::core::compile_error!{ "msg" }`. -/
def ReportsError (ts : List Tk) (msg : String) : Prop :=
  ts = [.punct ':' true, .punct ':' false, .ident "core", .punct ':' true, .punct ':' false, .ident "compile_error", .punct '!' false,
    .group .brace [.lit ("\"" ++ msg ++ "\"")]]

/-- An enum for which an index can be derived: there are variants, and none has fields or a discriminant. -/
def Derivable (vs : List DeclVariant) : Prop := vs ≠ [] ∧ ∀ v ∈ vs, v.hasFields = false ∧ v.hasDiscriminant = false

/-- Why an index cannot be derived: according to the first variant that does not fit. -/
inductive Refused : ItemKind → String → Prop
  | struct : Refused .struct "Scalar can only be used with enums"
  | union : Refused .union "Scalar can only be used with enums"
  | empty : Refused (.enum []) "Scalar can only be used with non-empty enums"
  | fields {pre post : List DeclVariant} {v : DeclVariant} (hp : ∀ u ∈ pre, u.hasFields = false ∧ u.hasDiscriminant = false)
      (hv : v.hasFields = true) :
      Refused (.enum (pre ++ v :: post)) "Scalar can only be used with enums that only contain unit variants"
  | discriminant {pre post : List DeclVariant} {v : DeclVariant} (hp : ∀ u ∈ pre, u.hasFields = false ∧ u.hasDiscriminant = false)
      (hv : v.hasFields = false) (hd : v.hasDiscriminant = true) :
      Refused (.enum (pre ++ v :: post)) "Scalar can only be used with enums that do not have explicit discriminants"

end Frozen.Props
