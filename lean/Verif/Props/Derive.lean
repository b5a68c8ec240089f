import Verif.Lemmas.Derive
import Verif.Props.Maps
import Verif.Props.Strategy
import Verif.Props.ScalarTrait

/-! # C73: `derive(Scalar)`, from the tokens of an item to the behaviour of maps keyed by it

C16 is about the arms of the `match` for a list of variants that has been parsed already. Here the input is the token stream that the
compiler hands to the derive macro and the output is the token stream the compiler gets back; what both mean is said in `DeriveSpec`. -/

namespace Frozen.Props

open Spec Model

variable {E T G : Type} {S : SynItems E T G}

/-- **C73**, reading an item. An item is read as what it declares. -/
theorem c73_parse {ts : List Tk} {d : DeclItem G} (h : ItemToks S ts d) : parseDeriveInput S ts = .ok (inputOf d) :=
  parseDeriveInput_ok h

/-- **C73**, reading an item. Tokens declare at most one item. -/
theorem c73_item_unique {ts : List Tk} {d d' : DeclItem G} (h : ItemToks S ts d) (h' : ItemToks S ts d') : d = d' := by
  have he := (parseDeriveInput_ok h).symm.trans (parseDeriveInput_ok h')
  have he := Except.ok.inj he
  obtain ⟨n, g, w, k⟩ := d
  obtain ⟨n', g', w', k'⟩ := d'
  simp only [inputOf, DeriveInput.mk.injEq] at he
  obtain ⟨rfl, rfl, rfl, hk⟩ := he
  have : k = k' := by
    cases k <;> cases k' <;> simp only [dataOf, DeriveData.enum.injEq, reduceCtorEq] at hk ⊢
    rename_i vs vs'
    congr 1
    refine List.map_injective_iff.2 ?_ hk
    rintro ⟨a, f, d⟩ ⟨a', f', d'⟩ he
    simp only [variantOf, EnumVariant.mk.injEq] at he
    obtain ⟨rfl, h1, h2⟩ := he
    cases f <;> cases f' <;> cases d <;> cases d' <;> simp_all
  rw [this]

/-- **C73**, accepted enums. The output implements the trait for the declared type, with its generics and its `where` clause, by a `match`
that gives every variant its position in the declaration, and that has no arm for anything else. -/
theorem c73_enum [Target] {ts : List Tk} {name : String} {g : G} {w : List Tk} {vs : List DeclVariant} (h : ItemToks S ts ⟨name, g, w, .enum vs⟩)
    (hd : Derivable vs) (hn : (vs.map (fun v => v.name)).Nodup) (hlen : vs.length ≤ usizeMax) :
    ∃ arms, IndexImpl (S.implGenerics g) name (S.tyGenerics g) w (deriveMacro S ts) arms ∧
      arms.map Prod.fst = vs.map (fun v => v.name) ∧
      ∀ (v : String) (n : Nat), Takes arms v n ↔ (vs.map (fun v => v.name))[n]? = some v := by
  refine ⟨(vs.map (fun v => v.name)).zipIdx, ?_, by simp, fun v n => ?_⟩
  · have : deriveMacro S ts = implTokens name (S.implGenerics g) (S.tyGenerics g) w ((vs.map (fun v => v.name)).zipIdx) := by
      simp only [deriveMacro, deriveScalarTokens, parseDeriveInput_ok h, inputOf, dataOf, deriveScalar_plain hd, bind, Except.bind]
    rw [this]
    refine implTokens_means (fun a ha => ?_)
    obtain ⟨-, h2, -⟩ := List.mem_zipIdx ha
    simp only [List.length_map] at h2
    omega
  · rw [takes_zipIdx hn]
    simp

/-- **C73**. The output has only one meaning: what the tokens in a place say about the type fixes the arms. -/
theorem c73_unambiguous [Target] {pars args w ts : List Tk} {name : String} {arms arms' : List (String × Nat)}
    (h : IndexImpl pars name args w ts arms) (h' : IndexImpl pars name args w ts arms') : arms = arms' := by
  obtain ⟨body, h1, h2⟩ := indexImpl_inv h
  obtain ⟨body', h1', h2'⟩ := indexImpl_inv h'
  rw [h1] at h1'
  simp only [List.cons.injEq, true_and, List.append_cancel_left_eq, List.append_assoc, Tk.group.injEq, and_true, List.cons_append,
    List.nil_append] at h1'
  subst h1'
  exact arms_unique h2 h2'

/-- **C73**, refused items. An item for which no index can be derived is reported for the reason that holds. -/
theorem c73_refused {ts : List Tk} {d : DeclItem G} (h : ItemToks S ts d) {msg : String} (hr : Refused d.kind msg) :
    ReportsError (deriveMacro S ts) msg := by
  obtain ⟨n, g, w, k⟩ := d
  simp only at hr
  have : deriveMacro S ts = compileError msg := by
    simp only [deriveMacro, deriveScalarTokens, parseDeriveInput_ok h, inputOf, deriveScalar_refused hr, bind, Except.bind]
  rw [this]
  rfl

/-- **C73**, refused items. There is no third case, and the two exclude each other. -/
theorem c73_complete (k : ItemKind) :
    ((∃ vs, k = .enum vs ∧ Derivable vs) ∨ ∃ msg, Refused k msg) ∧ ¬ ((∃ vs, k = .enum vs ∧ Derivable vs) ∧ ∃ msg, Refused k msg) := by
  refine ⟨derivable_or_refused k, ?_⟩
  rintro ⟨⟨vs, rfl, hd⟩, msg, hr⟩
  have h1 := deriveScalar_plain hd
  have h2 := deriveScalar_refused hr
  rw [dataOf, h1] at h2
  cases h2

/-- **C73**, malformed input. Tokens that declare no item give an error and no code. -/
theorem c73_malformed (hS : ItemParsers S) {ts : List Tk} (h : ¬ ∃ d, ItemToks S ts d) : ∃ msg, ReportsError (deriveMacro S ts) msg := by
  cases hp : parseDeriveInput S ts with
  | ok i =>
    obtain ⟨d, hd, -⟩ := parseDeriveInput_inv hS hp
    exact absurd ⟨d, hd⟩ h
  | error msg =>
    refine ⟨msg, ?_⟩
    have : deriveMacro S ts = compileError msg := by
      simp only [deriveMacro, deriveScalarTokens, hp, bind, Except.bind]
    rw [this]
    rfl

/-- **C73**, no code without acceptance. Whatever the macro is given, it returns an implementation only for an item that is an enum with
variants that have neither fields nor discriminants, and then for that enum. -/
theorem c73_only_enums (hS : ItemParsers S) {ts : List Tk} (h : ¬ ∃ msg, ReportsError (deriveMacro S ts) msg) :
    ∃ (name : String) (g : G) (w : List Tk) (vs : List DeclVariant), ItemToks S ts ⟨name, g, w, .enum vs⟩ ∧ Derivable vs := by
  by_cases hi : ∃ d, ItemToks S ts d
  · obtain ⟨⟨name, g, w, k⟩, hd⟩ := hi
    rcases derivable_or_refused k with ⟨vs, rfl, hv⟩ | ⟨msg, hr⟩
    · exact ⟨name, g, w, vs, hd, hv⟩
    · exact absurd ⟨msg, c73_refused hd hr⟩ h
  · exact absurd (c73_malformed hS hi) h

/-- **C73**, in use. Take any enum the macro accepts and the function that its output defines. The function makes the variants scalar keys
(in the order of the declaration, which is the one of `derive(PartialOrd, Ord)`), every list of entries with such keys can be made into a map,
its lookups are those of the entries, and a map with an entry for every variant is an array indexed by the variant. -/
theorem c73_in_use [Target] (b : Build) {V : Type} {sort : Sorter (Fin n × V)} (hsort : SorterOk sort)
    {ts : List Tk} {name : String} {g : G} {w : List Tk} {vs : List DeclVariant}
    (h : ItemToks S ts ⟨name, g, w, .enum vs⟩) (hd : Derivable vs) (hn : (vs.map (fun v => v.name)).Nodup) (hlen : vs.length ≤ usizeMax)
    (hvs : vs.length = n) {arms : List (String × Nat)}
    (himpl : IndexImpl (S.implGenerics g) name (S.tyGenerics g) w (deriveMacro S ts) arms) {index : Fin n → Nat}
    (hindex : ∀ i : Fin n, ∀ v, (vs.map (fun v => v.name))[i.val]? = some v → Takes arms v (index i))
    (es : List (Fin n × V)) (hes : es.length < tableLimit) :
    LawfulScalar (fun i j : Fin n => compare i.val j.val) index ∧
    ∃ m, FzScalarMap.new b sort (fun i j : Fin n => compare i.val j.val) index es = .ok m ∧
      Lookups (FzScalarMap.impl index (fun i j => decide (i = j))) m (fun i j => decide (i = j)) es ∧
      ((∀ i : Fin n, ∃ e ∈ es, e.1 = i) → ScalarMapUses m .denseLookup) := by
  subst hvs
  obtain ⟨arms', h1, -, h2⟩ := c73_enum h hd hn hlen
  have ha := c73_unambiguous himpl h1
  subst ha
  have hi : ∀ i, index i = i.val := by
    intro i
    have hv : (vs.map (fun v => v.name))[i.val]? = some vs[i].name := by simp
    have := (h2 _ _).1 (hindex i _ hv)
    have hlt : index i < (vs.map (fun v => v.name)).length := by
      by_contra hc
      rw [List.getElem?_eq_none (by omega)] at this
      cases this
    exact (List.getElem?_inj hlt hn).1 (this.trans hv.symm)
  have hlaw : LawfulScalar (fun i j : Fin vs.length => compare i.val j.val) index := by
    have : index = fun i => i.val := funext hi
    subst this
    constructor
    · intro i j; rfl
    · intro i
      have := i.isLt
      omega
  refine ⟨hlaw, ?_⟩
  have hspan : ∀ x ∈ es, ∀ y ∈ es, index x.1 - index y.1 < usizeMax := by
    intro x _ y _
    rw [hi, hi]
    have := x.1.isLt
    omega
  obtain ⟨m, hm, hl⟩ := c03_fz_scalar_map b hsort hlaw index es hes hspan
  have heq : scalarMatch index index = fun i j : Fin vs.length => decide (i = j) := by
    funext i j
    rw [Bool.eq_iff_iff]
    simp [scalarMatch, hi, Fin.ext_iff]
  rw [heq] at hl
  refine ⟨m, hm, hl, fun hall => ?_⟩
  have hpos : 0 < vs.length := List.length_pos_iff.2 hd.1
  obtain ⟨e0, he0, -⟩ := hall ⟨0, hpos⟩
  obtain ⟨s, hu, hs⟩ := c72_fz_scalar_map hlaw (List.ne_nil_of_mem he0) hes hm
  have hfill : Filled (es.map (fun e => index e.1)).toFinset := by
    intro x hx y hy c _ hc
    simp only [List.mem_toFinset, List.mem_map] at hx hy ⊢
    obtain ⟨e, he, rfl⟩ := hy
    rw [hi] at hc
    obtain ⟨e', he', hee⟩ := hall ⟨c, lt_of_le_of_lt hc e.1.isLt⟩
    exact ⟨e', he', by rw [hi, hee]⟩
  cases hs with
  | dense _ => exact hu
  | sparse h _ => exact absurd hfill h
  | scan h _ _ => exact absurd hfill h
  | hash h _ _ => exact absurd hfill h

/-! ## Examples -/

/-- Parsers for items whose expressions are single literals and that have neither generics nor `where` clauses. -/
def itemSyn : SynItems Tk Tk Unit where
  expr := fun ts => match ts with
    | .lit s :: rest => .ok (.lit s, rest)
    | _ => .error "expected an expression"
  ty := fun ts => match ts with
    | .ident s :: rest => .ok (.ident s, rest)
    | _ => .error "expected a type"
  modPath := fun ts => !ts.isEmpty
  isMeta := fun ts => !ts.isEmpty
  namedFields := fun _ => true
  unnamedFields := fun _ => true
  generics := fun ts => .ok ((), ts)
  whereClause := fun ts => .ok ([], ts)
  structBody := fun ts => match ts with
    | [.group .brace _] => .ok ([], [])
    | _ => .error "expected fields"
  unionBody := fun ts => match ts with
    | [.group .brace _] => .ok ([], [])
    | _ => .error "expected fields"
  implGenerics := fun _ => []
  tyGenerics := fun _ => []

/-- The parsers meet the assumptions. -/
theorem itemSyn_ok : ItemParsers itemSyn := by
  constructor
  · intro ts a rest h
    simp only [itemSyn] at h
    split at h
    · cases h; exact ⟨[_], rfl⟩
    · cases h
  · intro ts a rest h
    cases h; exact ⟨[], rfl⟩
  · intro ts a rest h
    cases h; exact ⟨[], rfl⟩

/-- `#[repr(..)] pub enum Color { Red, Green, Blue, }` -/
def colorTokens : List Tk :=
  [.punct '#' false, .group .bracket [.ident "repr"], .ident "pub", .ident "enum", .ident "Color",
   .group .brace [.ident "Red", .punct ',' false, .ident "Green", .punct ',' false, .ident "Blue", .punct ',' false]]

/-- `enum Code { Ok, Bad = 7 }` -/
def codeTokens : List Tk :=
  [.ident "enum", .ident "Code", .group .brace [.ident "Ok", .punct ',' false, .ident "Bad", .punct '=' false, .lit "7"]]

theorem plainVariant {rest : List Tk} {name : String} (h : name ∉ reservedWords) : VariantToks itemSyn rest [.ident name] ⟨name, false, false⟩ :=
  VariantToks.mk (S := itemSyn) (rest := rest) (a := []) (v := []) (f := []) (d := []) .nil .none h .unit .none

/-- The declaration of `Color` is read as three variants. -/
theorem color_item : ItemToks itemSyn colorTokens
    ⟨"Color", (), [], .enum [⟨"Red", false, false⟩, ⟨"Green", false, false⟩, ⟨"Blue", false, false⟩]⟩ := by
  have h3 : VariantsToks itemSyn [.ident "Blue", .punct ',' false] [⟨"Blue", false, false⟩] :=
    .cons (ts := [.ident "Blue"]) (us := []) (plainVariant (by decide)) ⟨false, rfl⟩ .nil
  have h2 := VariantsToks.cons (ts := [.ident "Green"]) (plainVariant (name := "Green") (by decide)) ⟨false, rfl⟩ h3
  have h1 := VariantsToks.cons (ts := [.ident "Red"]) (plainVariant (name := "Red") (by decide)) ⟨false, rfl⟩ h2
  exact ItemToks.enum (a := [.punct '#' false, .group .bracket [.ident "repr"]]) (v := [.ident "pub"]) (gen := []) (wh := [])
    (.cons ⟨false, rfl⟩ rfl .nil) .pub (by decide) rfl rfl h1

/-- What is generated for `Color`. -/
example : deriveMacro itemSyn colorTokens =
    [.punct '#' false, .group .bracket [.ident "automatically_derived"], .ident "impl",
     .punct ':' true, .punct ':' false, .ident "frozen_collections", .punct ':' true, .punct ':' false, .ident "Scalar", .ident "for",
     .ident "Color",
     .group .brace [.ident "fn", .ident "index", .group .paren [.punct '&' false, .ident "self"], .punct '-' true, .punct '>' false,
       .ident "usize", .group .brace [.ident "match", .ident "self", .group .brace
         [.ident "Color", .punct ':' true, .punct ':' false, .ident "Red", .punct '=' true, .punct '>' false, .lit "0usize", .punct ',' false,
          .ident "Color", .punct ':' true, .punct ':' false, .ident "Green", .punct '=' true, .punct '>' false, .lit "1usize", .punct ',' false,
          .ident "Color", .punct ':' true, .punct ':' false, .ident "Blue", .punct '=' true, .punct '>' false, .lit "2usize"]]]] := by
  cbv

attribute [local instance] w64 in
/-- The hypotheses of `c73_enum` hold of `Color`: `Green` gets 1 and nothing else. -/
example : ∃ arms, IndexImpl [] "Color" [] [] (deriveMacro itemSyn colorTokens) arms ∧ ∀ n, Takes arms "Green" n ↔ n = 1 := by
  obtain ⟨arms, h1, -, h2⟩ := c73_enum color_item ⟨by simp, by simp⟩ (by decide) (by decide)
  refine ⟨arms, h1, fun n => ?_⟩
  rw [h2]
  match n with
  | 0 => simp
  | 1 => simp
  | 2 => simp
  | n + 3 => simp

/-- A discriminant is refused. -/
example : ReportsError (deriveMacro itemSyn codeTokens) "Scalar can only be used with enums that do not have explicit discriminants" := by
  have h2 : VariantsToks itemSyn [.ident "Bad", .punct '=' false, .lit "7"] [⟨"Bad", false, true⟩] :=
    .one (VariantToks.mk (S := itemSyn) (a := []) (v := []) (f := []) (d := [.punct '=' false, .lit "7"]) .nil .none (by decide) .unit
      (.some ⟨false, rfl⟩ rfl))
  have h1 := VariantsToks.cons (ts := [.ident "Ok"]) (plainVariant (name := "Ok") (by decide)) ⟨false, rfl⟩ h2
  have h : ItemToks itemSyn codeTokens _ := ItemToks.enum (a := []) (v := []) (gen := []) (wh := []) .nil .none (by decide) rfl rfl h1
  exact c73_refused h (.discriminant (pre := [⟨"Ok", false, false⟩]) (by simp) rfl rfl)

/-- A struct is refused. -/
example : ReportsError (deriveMacro itemSyn [.ident "struct", .ident "P", .group .brace []]) "Scalar can only be used with enums" :=
  c73_refused (d := ⟨"P", (), [], .struct⟩) (ItemToks.struct (a := []) (v := []) (gen := []) .nil .none (by decide) rfl rfl) .struct

/-- Tokens that are not an item: `fn f`. -/
example : ∃ msg, ReportsError (deriveMacro itemSyn [.ident "fn", .ident "f"]) msg := by
  refine c73_malformed itemSyn_ok ?_
  rintro ⟨d, hd⟩
  have := c73_parse hd
  cases this

attribute [local instance] w64 in
/-- A map from colours: `index` is what the generated code computes; with one entry per colour the map is an array. -/
example (index : Fin 3 → Nat) (arms : List (String × Nat)) (himpl : IndexImpl [] "Color" [] [] (deriveMacro itemSyn colorTokens) arms)
    (hindex : ∀ i : Fin 3, ∀ v, ["Red", "Green", "Blue"][i.val]? = some v → Takes arms v (index i)) :
    ∃ m, FzScalarMap.new .release slotSort (fun i j : Fin 3 => compare i.val j.val) index [(0, "r"), (1, "g"), (2, "b")] = .ok m ∧
      ScalarMapUses m .denseLookup := by
  obtain ⟨-, m, h1, -, h3⟩ := c73_in_use .release slotSort_ok color_item ⟨by simp, by simp⟩ (by decide) (by decide) rfl himpl hindex
    [((0 : Fin 3), "r"), (1, "g"), (2, "b")] (by decide)
  exact ⟨m, h1, h3 (by decide)⟩

end Frozen.Props
