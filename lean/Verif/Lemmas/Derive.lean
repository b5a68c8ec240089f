import Verif.Props.DeriveSpec
import Verif.Lemmas.Parsing
import Verif.Lemmas.MacroLits
import Verif.Lemmas.Scalar

/-! # Helper lemmas on the derive macro at the level of tokens (C73) -/

namespace Frozen.Model

open Frozen.Props

variable {E T G : Type} {S : SynItems E T G}

/-! ## Parsing -/

/-- The input does not start with punctuation. -/
def NoPunct : List Tk → Prop
  | .punct _ _ :: _ => False
  | _ => True

theorem parseAttrs_ok {a rest : List Tk} (h : AttrToks S.isMeta a) (hr : NoPunct rest) : parseAttrs S (a ++ rest) = .ok rest := by
  induction h with
  | nil =>
    cases rest with
    | nil => simp [parseAttrs]
    | cons t ts =>
      cases t with
      | punct c j => exact hr.elim
      | ident s => simp [parseAttrs]
      | lit s => simp [parseAttrs]
      | group d i => simp [parseAttrs]
  | cons hh hm hs ih =>
    obtain ⟨j, rfl⟩ := hh
    simp only [List.cons_append, parseAttrs, hm, if_true]
    exact ih

theorem parseAttrs_inv : ∀ {ts rest : List Tk}, parseAttrs S ts = .ok rest →
    ∃ a, ts = a ++ rest ∧ AttrToks S.isMeta a := by
  intro ts
  induction ts using parseAttrs.induct (S := S) with
  | case1 j inner ts hm ih =>
    intro rest h
    simp only [parseAttrs, hm, if_true] at h
    obtain ⟨a, rfl, ha⟩ := ih h
    exact ⟨.punct '#' j :: .group .bracket inner :: a, rfl, .cons ⟨j, rfl⟩ hm ha⟩
  | case2 j inner ts hm =>
    intro rest h
    simp [parseAttrs, hm] at h
  | case3 c j inner ts hc =>
    intro rest h
    simp only [parseAttrs, hc, if_false] at h
    cases h
    exact ⟨[], rfl, .nil⟩
  | case4 j ts hne =>
    intro rest h
    unfold parseAttrs at h
    split at h
    · rename_i c' j' inner ts' he
      cases he
      exact (hne _ _ rfl).elim
    · rename_i he
      cases he
      simp at h
    · rename_i h1 h2 h3
      exact (h3 _ _ _ rfl).elim
  | case5 c j ts hne hc =>
    intro rest h
    unfold parseAttrs at h
    split at h
    · rename_i c' j' inner ts' he
      cases he
      exact (hne _ _ rfl).elim
    · rename_i he
      cases he
      rw [if_neg hc] at h
      cases h
      exact ⟨[], rfl, .nil⟩
    · rename_i h1 h2 h3
      exact (h3 _ _ _ rfl).elim
  | case6 ts h1 h2 =>
    intro rest h
    unfold parseAttrs at h
    split at h
    · exact (h1 _ _ _ _ rfl).elim
    · exact (h2 _ _ _ rfl).elim
    · cases h
      exact ⟨[], rfl, .nil⟩

theorem visToks_noPunct {path : List Tk → Bool} {v : List Tk} {vis : Vis} (h : VisToks path v vis) (s : String) (rest : List Tk) :
    NoPunct (v ++ .ident s :: rest) := by
  cases h <;> simp [NoPunct]

theorem parseVisibility_ident {v : List Tk} {vis : Vis} {S : SynParsers E T} (h : VisToks S.modPath v vis) {s : String} (hs : s ≠ "pub")
    (rest : List Tk) : parseVisibility S (v ++ .ident s :: rest) = .ok (vis, .ident s :: rest) := by
  cases h with
  | none => simp [parseVisibility, hs]
  | empty => simp [parseVisibility]
  | pub => simp [parseVisibility]
  | word hw => simp [parseVisibility, hw]
  | @inPath p hne hp =>
    cases p with
    | nil => exact (hne rfl).elim
    | cons t p =>
      simp only [List.cons_append, List.nil_append, parseVisibility, if_true, hp]

/-- The model's record of a declared variant. -/
def variantOf (v : DeclVariant) : EnumVariant :=
  { ident := v.name, unit := !v.hasFields, discriminant := if v.hasDiscriminant then some 0 else none }

/-- The end of a variant: of the input or a comma. -/
def VariantEnd (rest : List Tk) : Prop := rest = [] ∨ ∃ c us, IsPunct ',' c ∧ rest = c :: us

theorem parseDiscriminant_ok {d rest : List Tk} {b : Bool} (h : DiscToks S.expr rest d b) (hr : VariantEnd rest) :
    parseDiscriminant S (d ++ rest) = .ok (if b then some 0 else none, rest) := by
  cases h with
  | none =>
    rcases hr with rfl | ⟨c, us, ⟨j, rfl⟩, rfl⟩ <;> simp [parseDiscriminant, peekPunct]
  | some heq h =>
    obtain ⟨j, rfl⟩ := heq
    simp [parseDiscriminant, peekPunct, h, bind, Except.bind]

theorem parseDiscriminant_inv (hS : ItemParsers S) {ts rest : List Tk} {o : Option Int} (h : parseDiscriminant S ts = .ok (o, rest)) :
    ∃ d b, ts = d ++ rest ∧ DiscToks S.expr rest d b ∧ o = if b then some 0 else none := by
  unfold parseDiscriminant at h
  split at h
  · rename_i hp
    cases ts with
    | nil => simp [peekPunct] at hp
    | cons t ts =>
      cases t with
      | punct c j =>
        simp only [peekPunct, beq_iff_eq] at hp
        subst hp
        simp only [List.drop_succ_cons, List.drop_zero, bind, Except.bind] at h
        cases he : S.expr ts with
        | error e => rw [he] at h; cases h
        | ok p =>
          rw [he] at h
          obtain ⟨e, r⟩ := p
          cases h
          obtain ⟨used, rfl⟩ := hS.expr _ _ _ he
          exact ⟨_ :: used, true, rfl, .some ⟨j, rfl⟩ he, rfl⟩
      | ident s => simp [peekPunct] at hp
      | lit s => simp [peekPunct] at hp
      | group d i => simp [peekPunct] at hp
  · cases h
    exact ⟨[], false, rfl, .none, rfl⟩

/-- The input starts with neither braces nor parentheses. -/
theorem parseVariantFields_ok {f d rest : List Tk} {b b' : Bool} (h : FieldToks S.namedFields S.unnamedFields f b)
    (hd : DiscToks S.expr rest d b') (hr : VariantEnd rest) : parseVariantFields S (f ++ (d ++ rest)) = .ok (!b, d ++ rest) := by
  cases h with
  | unit =>
    cases hd with
    | none => rcases hr with rfl | ⟨c, us, ⟨j, rfl⟩, rfl⟩ <;> simp [parseVariantFields]
    | some heq h =>
      obtain ⟨j, rfl⟩ := heq
      simp [parseVariantFields]
  | named h => simp [parseVariantFields, h]
  | tuple h => simp [parseVariantFields, h]

theorem parseVariantFields_inv {ts rest : List Tk} {u : Bool} (h : parseVariantFields S ts = .ok (u, rest)) :
    ∃ f b, ts = f ++ rest ∧ FieldToks S.namedFields S.unnamedFields f b ∧ u = !b := by
  unfold parseVariantFields at h
  split at h
  · rename_i inner r
    split at h
    · rename_i hn
      cases h
      exact ⟨[.group .brace inner], true, rfl, .named hn, rfl⟩
    · cases h
  · rename_i inner r
    split at h
    · rename_i hn
      cases h
      exact ⟨[.group .paren inner], true, rfl, .tuple hn, rfl⟩
    · cases h
  · cases h
    exact ⟨[], false, rfl, .unit, rfl⟩

theorem keywords_pub {s : String} (h : s ∉ reservedWords) : s ≠ "pub" := by
  rintro rfl
  exact h (by decide)

theorem parseVariant_ok {ts rest : List Tk} {v : DeclVariant} (h : VariantToks S rest ts v) (hr : VariantEnd rest) :
    parseVariant S (ts ++ rest) = .ok (variantOf v, rest) := by
  cases h with
  | @mk a v f d vis name hasFields hasDisc ha hv hname hf hd =>
    unfold parseVariant
    rw [show (a ++ v ++ .ident name :: (f ++ d)) ++ rest = a ++ (v ++ .ident name :: (f ++ (d ++ rest))) by simp,
      parseAttrs_ok ha (visToks_noPunct hv _ _)]
    simp only [bind, Except.bind]
    rw [parseVisibility_ident (S := S.toSynParsers) hv (keywords_pub hname)]
    simp only [parseIdent_ok hname, parseVariantFields_ok hf hd hr, parseDiscriminant_ok hd hr]
    rfl

theorem parseVariant_inv (hS : ItemParsers S) {ts rest : List Tk} {w : EnumVariant} (h : parseVariant S ts = .ok (w, rest)) :
    ∃ used v, ts = used ++ rest ∧ used ≠ [] ∧ VariantToks S rest used v ∧ w = variantOf v := by
  unfold parseVariant at h
  simp only [bind, Except.bind] at h
  cases h1 : parseAttrs S ts with
  | error e => rw [h1] at h; cases h
  | ok t1 =>
    rw [h1] at h
    simp only at h
    cases h2 : parseVisibility S.toSynParsers t1 with
    | error e => rw [h2] at h; cases h
    | ok p2 =>
      rw [h2] at h
      obtain ⟨vis, t2⟩ := p2
      simp only at h
      cases h3 : parseIdent t2 with
      | error e => rw [h3] at h; cases h
      | ok p3 =>
        rw [h3] at h
        obtain ⟨name, t3⟩ := p3
        simp only at h
        cases h4 : parseVariantFields S t3 with
        | error e => rw [h4] at h; cases h
        | ok p4 =>
          rw [h4] at h
          obtain ⟨u, t4⟩ := p4
          simp only at h
          cases h5 : parseDiscriminant S t4 with
          | error e => rw [h5] at h; cases h
          | ok p5 =>
            rw [h5] at h
            obtain ⟨o, t5⟩ := p5
            simp only at h
            cases h
            obtain ⟨a, rfl, ha⟩ := parseAttrs_inv h1
            obtain ⟨v, rfl, hv⟩ := parseVisibility_inv h2
            obtain ⟨hname, rfl⟩ := parseIdent_inv h3
            obtain ⟨f, b, rfl, hf, rfl⟩ := parseVariantFields_inv h4
            obtain ⟨d, b', rfl, hd, rfl⟩ := parseDiscriminant_inv hS h5
            exact ⟨a ++ v ++ .ident name :: (f ++ d), ⟨name, b, b'⟩, by simp, by simp, .mk ha hv hname hf hd, rfl⟩

theorem variantToks_ne_nil {ts rest : List Tk} {v : DeclVariant} (h : VariantToks S rest ts v) : ts ≠ [] := by
  cases h
  simp

theorem parseVariants_ok {ts : List Tk} {vs : List DeclVariant} (h : VariantsToks S ts vs) :
    ∀ fuel, ts.length < fuel → parseVariants S fuel ts = .ok (vs.map variantOf) := by
  induction h with
  | nil =>
    intro fuel hf
    cases fuel with
    | zero => simp at hf
    | succ n => simp [parseVariants]
  | @one ts v h =>
    intro fuel hf
    cases fuel with
    | zero => omega
    | succ n =>
      have hp := parseVariant_ok h (.inl rfl)
      rw [List.append_nil] at hp
      rw [parseVariants, if_neg (by simpa using variantToks_ne_nil h), hp]
      simp [bind, Except.bind]
  | @cons ts us c v vs h hc hs ih =>
    intro fuel hf
    cases fuel with
    | zero => omega
    | succ n =>
      have hp := parseVariant_ok h (.inr ⟨c, us, hc, rfl⟩)
      rw [parseVariants, if_neg (by simp), hp]
      have hl : us.length < n := by
        simp only [List.length_append, List.length_cons] at hf
        omega
      simp [bind, Except.bind, parsePunct_ok hc, ih n hl]

theorem parseVariants_inv (hS : ItemParsers S) : ∀ (fuel : Nat) {ts : List Tk} {ws : List EnumVariant}, parseVariants S fuel ts = .ok ws →
    ∃ vs, VariantsToks S ts vs ∧ ws = vs.map variantOf := by
  intro fuel
  induction fuel with
  | zero => intro ts ws h; cases h
  | succ n ih =>
    intro ts ws h
    rw [parseVariants] at h
    split at h
    · rename_i he
      cases h
      rw [List.isEmpty_iff.1 he]
      exact ⟨[], .nil, rfl⟩
    · simp only [bind, Except.bind] at h
      cases h1 : parseVariant S ts with
      | error e => rw [h1] at h; cases h
      | ok p =>
        rw [h1] at h
        obtain ⟨w, rest⟩ := p
        simp only at h
        obtain ⟨used, v, rfl, hne, hv, rfl⟩ := parseVariant_inv hS h1
        split at h
        · rename_i he
          cases h
          have hrest : rest = [] := List.isEmpty_iff.1 he
          subst hrest
          rw [List.append_nil]
          exact ⟨[v], .one hv, rfl⟩
        · cases h2 : parsePunct ',' rest with
          | error e => rw [h2] at h; cases h
          | ok p =>
            rw [h2] at h
            obtain ⟨u, us⟩ := p
            simp only at h
            obtain ⟨c, hc, rfl⟩ := parsePunct_inv h2
            cases h3 : parseVariants S n us with
            | error e => rw [h3] at h; cases h
            | ok ws' =>
              rw [h3] at h
              simp only at h
              cases h
              obtain ⟨vs, hvs, rfl⟩ := ih h3
              exact ⟨v :: vs, .cons hv hc hvs, rfl⟩

/-- The model's record of a declared item. -/
def dataOf : ItemKind → DeriveData
  | .struct => .struct
  | .union => .union
  | .enum vs => .enum (vs.map variantOf)

/-- The model's record of a declared item. -/
def inputOf (d : DeclItem G) : DeriveInput G :=
  { ident := d.name, generics := d.generics, whereClause := d.whereClause, data := dataOf d.kind }

theorem parseBraces_ok (inner ts : List Tk) : parseBraces (.group .brace inner :: ts) = .ok (inner, ts) := rfl

theorem parseBraces_inv {ts inner rest : List Tk} (h : parseBraces ts = .ok (inner, rest)) : ts = .group .brace inner :: rest := by
  unfold parseBraces at h
  split at h
  · cases h; rfl
  · cases h

theorem parseItem_ok {ts : List Tk} {d : DeclItem G} (h : ItemToks S ts d) : parseItem S ts = .ok (inputOf d, []) := by
  cases h with
  | @enum a v gen wh inner w vis name g vs ha hv hname hg hw hvs =>
    unfold parseItem
    rw [List.append_assoc, parseAttrs_ok ha (visToks_noPunct hv _ _)]
    simp only [bind, Except.bind]
    rw [parseVisibility_ident (S := S.toSynParsers) hv (by decide)]
    simp only [peekWord, List.drop_succ_cons, List.drop_zero, parseIdent_ok hname, hg, parseEnumBody, bind, Except.bind, hw, parseBraces_ok,
      parseVariants_ok hvs _ (Nat.lt_succ_self _)]
    rfl
  | @struct a v gen body w vis name g ha hv hname hg hb =>
    unfold parseItem
    rw [List.append_assoc, parseAttrs_ok ha (visToks_noPunct hv _ _)]
    simp only [bind, Except.bind]
    rw [parseVisibility_ident (S := S.toSynParsers) hv (by decide)]
    simp only [peekWord, List.drop_succ_cons, List.drop_zero, parseIdent_ok hname, hg, hb]
    rfl
  | @union a v gen body w vis name g ha hv hname hg hb =>
    unfold parseItem
    rw [List.append_assoc, parseAttrs_ok ha (visToks_noPunct hv _ _)]
    simp only [bind, Except.bind]
    rw [parseVisibility_ident (S := S.toSynParsers) hv (by decide)]
    simp only [peekWord, List.drop_succ_cons, List.drop_zero, parseIdent_ok hname, hg, hb]
    rfl

theorem peekWord_drop {w : String} {ts : List Tk} (h : peekWord w ts = true) : ∃ rest, ts = .ident w :: rest := by
  unfold peekWord at h
  split at h
  · rename_i s r
    exact ⟨r, by rw [eq_of_beq h]⟩
  · cases h

theorem parseItem_inv (hS : ItemParsers S) {ts : List Tk} {i : DeriveInput G} (h : parseItem S ts = .ok (i, [])) :
    ∃ d, ItemToks S ts d ∧ i = inputOf d := by
  unfold parseItem at h
  simp only [bind, Except.bind] at h
  cases h1 : parseAttrs S ts with
  | error e => rw [h1] at h; cases h
  | ok t1 =>
    rw [h1] at h
    simp only at h
    obtain ⟨a, rfl, ha⟩ := parseAttrs_inv h1
    cases h2 : parseVisibility S.toSynParsers t1 with
    | error e => rw [h2] at h; cases h
    | ok p2 =>
      rw [h2] at h
      obtain ⟨vis, t2⟩ := p2
      simp only at h
      obtain ⟨v, rfl, hv⟩ := parseVisibility_inv h2
      split at h
      · rename_i hp
        obtain ⟨t2, rfl⟩ := peekWord_drop hp
        simp only [List.drop_succ_cons, List.drop_zero] at h
        cases h3 : parseIdent t2 with
        | error e => rw [h3] at h; cases h
        | ok p3 =>
          rw [h3] at h
          obtain ⟨name, t3⟩ := p3
          simp only at h
          obtain ⟨hname, rfl⟩ := parseIdent_inv h3
          cases h4 : S.generics t3 with
          | error e => rw [h4] at h; cases h
          | ok p4 =>
            rw [h4] at h
            obtain ⟨g, t4⟩ := p4
            simp only at h
            obtain ⟨gen, rfl⟩ := hS.generics _ _ _ h4
            cases h5 : S.structBody t4 with
            | error e => rw [h5] at h; cases h
            | ok p5 =>
              rw [h5] at h
              obtain ⟨w, t5⟩ := p5
              simp only at h
              cases h
              exact ⟨⟨name, g, w, .struct⟩, by simpa using ItemToks.struct ha hv hname h4 h5, rfl⟩
      · split at h
        · rename_i hp
          obtain ⟨t2, rfl⟩ := peekWord_drop hp
          simp only [List.drop_succ_cons, List.drop_zero] at h
          cases h3 : parseIdent t2 with
          | error e => rw [h3] at h; cases h
          | ok p3 =>
            rw [h3] at h
            obtain ⟨name, t3⟩ := p3
            simp only at h
            obtain ⟨hname, rfl⟩ := parseIdent_inv h3
            cases h4 : S.generics t3 with
            | error e => rw [h4] at h; cases h
            | ok p4 =>
              rw [h4] at h
              obtain ⟨g, t4⟩ := p4
              simp only [parseEnumBody, bind, Except.bind] at h
              obtain ⟨gen, rfl⟩ := hS.generics _ _ _ h4
              cases h5 : S.whereClause t4 with
              | error e => rw [h5] at h; cases h
              | ok p5 =>
                rw [h5] at h
                obtain ⟨w, t5⟩ := p5
                simp only at h
                obtain ⟨wh, rfl⟩ := hS.whereClause _ _ _ h5
                cases h6 : parseBraces t5 with
                | error e => rw [h6] at h; cases h
                | ok p6 =>
                  rw [h6] at h
                  obtain ⟨inner, t6⟩ := p6
                  simp only at h
                  cases parseBraces_inv h6
                  cases h7 : parseVariants S (inner.length + 1) inner with
                  | error e => rw [h7] at h; cases h
                  | ok ws =>
                    rw [h7] at h
                    simp only at h
                    cases h
                    obtain ⟨vs, hvs, rfl⟩ := parseVariants_inv hS _ h7
                    exact ⟨⟨name, g, w, .enum vs⟩, by simpa using ItemToks.enum ha hv hname h4 h5 hvs, rfl⟩
        · split at h
          · rename_i hp
            obtain ⟨t2, rfl⟩ := peekWord_drop hp
            simp only [List.drop_succ_cons, List.drop_zero] at h
            cases h3 : parseIdent t2 with
            | error e => rw [h3] at h; cases h
            | ok p3 =>
              rw [h3] at h
              obtain ⟨name, t3⟩ := p3
              simp only at h
              obtain ⟨hname, rfl⟩ := parseIdent_inv h3
              cases h4 : S.generics t3 with
              | error e => rw [h4] at h; cases h
              | ok p4 =>
                rw [h4] at h
                obtain ⟨g, t4⟩ := p4
                simp only at h
                obtain ⟨gen, rfl⟩ := hS.generics _ _ _ h4
                cases h5 : S.unionBody t4 with
                | error e => rw [h5] at h; cases h
                | ok p5 =>
                  rw [h5] at h
                  obtain ⟨w, t5⟩ := p5
                  simp only at h
                  cases h
                  exact ⟨⟨name, g, w, .union⟩, by simpa using ItemToks.union ha hv hname h4 h5, rfl⟩
          · cases h

theorem parseDeriveInput_ok {ts : List Tk} {d : DeclItem G} (h : ItemToks S ts d) : parseDeriveInput S ts = .ok (inputOf d) := by
  simp [parseDeriveInput, parseItem_ok h, bind, Except.bind]

theorem parseDeriveInput_inv (hS : ItemParsers S) {ts : List Tk} {i : DeriveInput G} (h : parseDeriveInput S ts = .ok i) :
    ∃ d, ItemToks S ts d ∧ i = inputOf d := by
  unfold parseDeriveInput at h
  simp only [bind, Except.bind] at h
  cases h1 : parseItem S ts with
  | error e => rw [h1] at h; cases h
  | ok p =>
    rw [h1] at h
    obtain ⟨j, rest⟩ := p
    simp only at h
    split at h
    · rename_i he
      cases h
      have hrest : rest = [] := List.isEmpty_iff.1 he
      subst hrest
      exact parseItem_inv hS h1
    · cases h

/-! ## The generated code -/

theorem armTokens_means [Target] {name : String} {a : String × Nat} (h : a.2 ≤ usizeMax) : ArmMeans name (armTokens name a) a :=
  .mk (v := a.1) (numLit_iff.1 (litUsize_usizeTok h))

theorem commaSep_arms [Target] {name : String} : ∀ {arms : List (String × Nat)}, (∀ a ∈ arms, a.2 ≤ usizeMax) →
    Arms name (commaSep (arms.map (armTokens name))) arms
  | [], _ => .nil
  | [a], h => .last (armTokens_means (h a (by simp)))
  | a :: b :: as, h => by
    have := commaSep_arms (name := name) (arms := b :: as) (fun x hx => h x (by simp [hx]))
    exact .cons (armTokens_means (h a (by simp))) this

theorem implTokens_means [Target] {name : String} {pars args wh : List Tk} {arms : List (String × Nat)} (h : ∀ a ∈ arms, a.2 ≤ usizeMax) :
    IndexImpl pars name args wh (implTokens name pars args wh arms) arms := by
  have := IndexImpl.mk (params := pars) (args := args) (wh := wh) (commaSep_arms (name := name) h)
  simpa [implTokens, absPath, colon2] using this

theorem armMeans_inv [Target] {name : String} {t : List Tk} {a : String × Nat} (h : ArmMeans name t a) :
    ∃ (l : Tok) (n : Nat) (v : String), t = [.ident name, .punct ':' true, .punct ':' false, .ident v, .punct '=' true, .punct '>' false,
      .lit (String.ofList l)] ∧ UsizeLit l n ∧ a = (v, n) := by
  cases h with
  | mk h => exact ⟨_, _, _, rfl, h, rfl⟩

theorem armMeans_unique [Target] {name name' : String} {t : List Tk} {a b : String × Nat} (h : ArmMeans name t a) (h' : ArmMeans name' t b) : a = b := by
  obtain ⟨l, n, v, rfl, h1, rfl⟩ := armMeans_inv h
  obtain ⟨l', n', v', he, h2, rfl⟩ := armMeans_inv h'
  simp only [List.cons.injEq, Tk.ident.injEq, Tk.lit.injEq, String.ofList_inj, true_and, and_true] at he
  obtain ⟨-, rfl, rfl⟩ := he
  have := (numLit_iff.2 h1).symm.trans (numLit_iff.2 h2)
  cases this
  rfl

theorem armMeans_length [Target] {name : String} {t : List Tk} {a : String × Nat} (h : ArmMeans name t a) : t.length = 7 := by
  cases h; rfl

theorem arms_unique [Target] {name name' : String} {ts : List Tk} {as bs : List (String × Nat)} (h : Arms name ts as) (h' : Arms name' ts bs) : as = bs := by
  induction h generalizing bs with
  | nil =>
    generalize he : ([] : List Tk) = ts at h'
    cases h' with
    | nil => rfl
    | last h' => subst he; cases h'
    | cons h' hs' => simp at he
  | last h =>
    rename_i t a
    have hl := armMeans_length h
    cases h' with
    | nil => cases h
    | last h' => rw [armMeans_unique h h']
    | cons h' hs' =>
      have := armMeans_length h'
      simp only [List.length_append, List.length_cons] at hl
      omega
  | cons h hs ih =>
    rename_i t ts a as
    have hl := armMeans_length h
    generalize he : t ++ .punct ',' false :: ts = us at h'
    cases h' with
    | nil => simp at he
    | last h' =>
      have := armMeans_length h'
      rw [← he] at this
      simp only [List.length_append, List.length_cons] at this
      omega
    | cons h' hs' =>
      obtain ⟨h1, h2⟩ := List.append_inj he (by rw [hl, armMeans_length h'])
      subst h1
      simp only [List.cons.injEq, true_and] at h2
      subst h2
      rw [armMeans_unique h h', ih hs']

theorem indexImpl_inv [Target] {pars args wh ts : List Tk} {name : String} {arms : List (String × Nat)} (h : IndexImpl pars name args wh ts arms) :
    ∃ body, ts = .punct '#' false :: .group .bracket [.ident "automatically_derived"] :: .ident "impl" :: (pars ++
          [.punct ':' true, .punct ':' false, .ident "frozen_collections", .punct ':' true, .punct ':' false, .ident "Scalar", .ident "for",
           .ident name] ++ args ++ wh ++
          [.group .brace [.ident "fn", .ident "index", .group .paren [.punct '&' false, .ident "self"], .punct '-' true, .punct '>' false,
            .ident "usize", .group .brace [.ident "match", .ident "self", .group .brace body]]]) ∧ Arms name body arms := by
  cases h with
  | mk h => exact ⟨_, rfl, h⟩

theorem matchArms_names (vs : List EnumVariant) (acc : List (String × Nat)) :
    matchArms acc vs = acc ++ (vs.map (fun v => v.ident)).zipIdx acc.length := by
  induction vs generalizing acc with
  | nil => simp [matchArms]
  | cons v vs ih =>
    rw [matchArms, ih]
    simp

theorem takes_zipIdx {names : List String} (hn : names.Nodup) : ∀ {k : Nat} {v : String} {n : Nat},
    Takes (names.zipIdx k) v n ↔ k ≤ n ∧ names[n - k]? = some v := by
  induction names with
  | nil => intro k v n; constructor
           · intro h; cases h
           · rintro ⟨-, h⟩; simp at h
  | cons w ws ih =>
    rw [List.nodup_cons] at hn
    intro k v n
    rw [List.zipIdx_cons]
    constructor
    · intro h
      cases h with
      | here => simp
      | later hne h =>
        obtain ⟨h1, h2⟩ := (ih hn.2).1 h
        refine ⟨by omega, ?_⟩
        rw [show n - k = (n - (k + 1)) + 1 by omega, List.getElem?_cons_succ]
        exact h2
    · rintro ⟨h1, h2⟩
      by_cases hk : n = k
      · subst hk
        simp only [Nat.sub_self, List.getElem?_cons_zero, Option.some.injEq] at h2
        subst h2
        exact .here
      · rw [show n - k = (n - (k + 1)) + 1 by omega, List.getElem?_cons_succ] at h2
        refine .later ?_ ((ih hn.2).2 ⟨by omega, h2⟩)
        rintro rfl
        exact hn.1 (List.mem_of_getElem? h2)

/-! ## Accepted and refused items -/

theorem variantOf_check {v : DeclVariant} : checkVariant (variantOf v) =
    if v.hasFields then .error "Scalar can only be used with enums that only contain unit variants"
    else if v.hasDiscriminant then .error "Scalar can only be used with enums that do not have explicit discriminants" else .ok () := by
  obtain ⟨name, f, d⟩ := v
  cases f <;> cases d <;> rfl

theorem checkVariants_plain {vs : List DeclVariant} (h : ∀ v ∈ vs, v.hasFields = false ∧ v.hasDiscriminant = false) (rest : List EnumVariant) :
    checkVariants (vs.map variantOf ++ rest) = checkVariants rest := by
  induction vs with
  | nil => rfl
  | cons v vs ih =>
    obtain ⟨h1, h2⟩ := h v (by simp)
    simp only [List.map_cons, List.cons_append, checkVariants, variantOf_check, h1, h2, Bool.false_eq_true, if_false, bind, Except.bind]
    exact ih (fun u hu => h u (by simp [hu]))

theorem deriveScalar_plain {vs : List DeclVariant} (h : Derivable vs) :
    deriveScalar (.enum (vs.map variantOf)) = .ok ((vs.map (fun v => v.name)).zipIdx) := by
  have hc := checkVariants_plain h.2 []
  rw [List.append_nil] at hc
  have hne : (vs.map variantOf).isEmpty = false := by
    cases vs with
    | nil => exact absurd rfl h.1
    | cons v vs => rfl
  simp only [deriveScalar, hne, Bool.false_eq_true, if_false, hc, checkVariants, bind, Except.bind, matchArms_names, List.nil_append, List.map_map,
    List.length_nil]
  rfl

theorem deriveScalar_refused {k : ItemKind} {msg : String} (h : Refused k msg) : deriveScalar (dataOf k) = .error msg := by
  cases h with
  | struct => rfl
  | union => rfl
  | empty => rfl
  | @fields pre post v hp hv =>
    have hne : ((pre ++ v :: post).map variantOf).isEmpty = false := by cases pre <;> rfl
    simp only [dataOf, deriveScalar, hne, Bool.false_eq_true, if_false]
    rw [List.map_append, checkVariants_plain hp]
    simp only [List.map_cons, checkVariants, variantOf_check, hv, if_true, bind, Except.bind]
  | @discriminant pre post v hp hv hd =>
    have hne : ((pre ++ v :: post).map variantOf).isEmpty = false := by cases pre <;> rfl
    simp only [dataOf, deriveScalar, hne, Bool.false_eq_true, if_false]
    rw [List.map_append, checkVariants_plain hp]
    simp only [List.map_cons, checkVariants, variantOf_check, hv, hd, if_true, Bool.false_eq_true, if_false, bind, Except.bind]

/-- Every item is accepted or refused for one reason. -/
theorem derivable_or_refused (k : ItemKind) : (∃ vs, k = .enum vs ∧ Derivable vs) ∨ ∃ msg, Refused k msg := by
  cases k with
  | struct => exact .inr ⟨_, .struct⟩
  | union => exact .inr ⟨_, .union⟩
  | enum vs =>
    by_cases hne : vs = []
    · subst hne
      exact .inr ⟨_, .empty⟩
    by_cases hall : ∀ v ∈ vs, v.hasFields = false ∧ v.hasDiscriminant = false
    · exact .inl ⟨vs, rfl, hne, hall⟩
    · right
      clear hne
      have : ∃ pre v post, vs = pre ++ v :: post ∧ (∀ u ∈ pre, u.hasFields = false ∧ u.hasDiscriminant = false) ∧
          ¬ (v.hasFields = false ∧ v.hasDiscriminant = false) := by
        induction vs with
        | nil => simp at hall
        | cons v vs ih =>
          by_cases hv : v.hasFields = false ∧ v.hasDiscriminant = false
          · obtain ⟨pre, u, post, rfl, h1, h2⟩ := ih (fun h => hall (by simpa [hv] using h))
            exact ⟨v :: pre, u, post, rfl, by simpa [hv] using h1, h2⟩
          · exact ⟨[], v, vs, rfl, by simp, hv⟩
      obtain ⟨pre, v, post, rfl, hp, hv⟩ := this
      cases hf : v.hasFields with
      | true => exact ⟨_, .fields hp hf⟩
      | false =>
        cases hd : v.hasDiscriminant with
        | true => exact ⟨_, .discriminant hp hf hd⟩
        | false => exact absurd ⟨hf, hd⟩ hv

end Frozen.Model
