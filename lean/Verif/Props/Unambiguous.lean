import Verif.Lemmas.TokenUnique
import Verif.Props.Tokens

/-!
# C64: the emitted code has one meaning
-/

namespace Frozen.Props

open Frozen.Spec Frozen.Model

variable {K V F : Type}

/-- **C64** (tokens are not ambiguous)  Whatever code declares, it declares that one thing: kind of declaration, name, data and the result of the
constructor are determined by the tokens. -/
theorem c64_unambiguous [Target] {P : Prog K V F} (hP : Readable P) {isMap : Bool} {vis : Vis} {ts : List Tk} {kind kind' : DeclKind}
    {r r' : Res (InlineMap K V ⊕ F)} (h : Declares P isMap vis.tokens ts kind r) (h' : Declares P isMap vis.tokens ts kind' r') :
    kind = kind' ∧ r = r' :=
  declares_unique hP h h' rfl

attribute [local instance] w64 in
/-- **C64** (what the expansion of a macro call means)  It declares what the macro intended to emit, and nothing else. -/
theorem c64_meaning {env : MacroEnv K V} (hsc : ∀ t, SorterOk (env.sortScalar t)) (hst : SorterOk env.sortStr) (hseed : env.seed < 2 ^ 64)
    {isMap : Bool} {form : MacroForm} {kind : MacroKind} {entries : List (MacroEntry K V)} (hn : entries.length < 2 ^ 56)
    (hkl : ∀ e ∈ entries, ∀ v, KeyIs e.key (.str v) → v.length ≤ usizeMax) {item : Item (Emitted K V)}
    (hi : fzMacro env isMap form kind entries = .ok (.ok item)) {P : Prog K V F} (hP : Readable P) (vis : Vis) {g : GenTypes} {t : ExprToks K V}
    (hc : CallerOk P g t item.ctor) (hfz : ∀ kind es, item.ctor = .fz kind es → (P.fz kind es).isSome) {d : DeclKind}
    {r : Res (InlineMap K V ⊕ F)} :
    Declares P g.valueType.isSome vis.tokens (emittedTokens vis g t item) d r ↔
      d = declKind item ∧ item.ctor.compile P.eqK P.cmp P.fz = some r := by
  obtain ⟨r', h1, h2⟩ := c64_macro hsc hst hseed hn hkl hi vis hc hfz
  constructor
  · intro h
    obtain ⟨rfl, rfl⟩ := c64_unambiguous hP h h2
    exact ⟨rfl, h1⟩
  · rintro ⟨rfl, h⟩
    rw [h1] at h
    cases h
    exact h2

/-! ## An instance -/

/-- Keys are the literals of type `Name`, values the identifiers of type `Text`. -/
def atomProg : Prog String String Unit where
  userTy ts := ts = [.ident "Name"] ∨ ts = [.ident "Text"]
  keyExpr ts ty s := ts = [.lit s] ∧ ty = .user [.ident "Name"]
  valExpr ts ty s := ts = [.ident s] ∧ ty = .user [.ident "Text"]
  eqK x y := x == y
  cmp := fun x y => compare x y
  fz _ _ := none

theorem atomProg_readable : Readable atomProg where
  types := by rintro ts (rfl | rfl) <;> rfl
  pairs := by
    rintro k v k' v' T S T' S' x x' y y' ⟨rfl, -⟩ ⟨rfl, -⟩ ⟨rfl, -⟩ ⟨rfl, -⟩ e
    simp only [List.cons_append, List.nil_append, List.cons.injEq] at e
    rw [e.1]
  keys := by
    rintro k T T' x x' ⟨rfl, -⟩ ⟨e, -⟩
    simpa using e
  values := by
    rintro k T T' x x' ⟨rfl, -⟩ ⟨e, -⟩
    simpa using e

attribute [local instance] w64 in
/-- The hypotheses of `c64_unambiguous` are met: `let mut M: …InlineScanMap<Name, Text, 1> = …::new_raw([(1, a),]);`, read in two ways. -/
example (d : DeclKind) (r : Res (InlineMap String String ⊕ Unit))
    (h : Declares atomProg true [] (emittedTokens .inherited { keyType := [.ident "Name"], valueType := some [.ident "Text"] }
      { key := fun s => [.lit s], value := fun s => [.ident s] } (.letStmt true "M" none (.scanRaw "1".toList [("1", "a")]))) d r) :
    d = .local_ true "M" none ∧ ∃ m, r = .ok (.inl m) ∧ m.entries = [("1", "a")] := by
  obtain ⟨r', h1, h2⟩ := c64_declares (P := atomProg) (g := { keyType := [.ident "Name"], valueType := some [.ident "Text"] })
    (t := { key := fun s => [.lit s], value := fun s => [.ident s] }) .inherited
    (item := .letStmt true "M" none (.scanRaw "1".toList [("1", "a")])) (numLit_iff.1 (by decide))
    ⟨.inl rfl, fun ts h => .inr (Option.some.inj h).symm, fun x _ => ⟨⟨rfl, rfl⟩, rfl, rfl⟩⟩ (by intro _ _ h; cases h)
  obtain ⟨rfl, rfl⟩ := c64_unambiguous (vis := .inherited) atomProg_readable h h2
  refine ⟨rfl, ?_⟩
  cases h1
  exact ⟨_, rfl, rfl⟩

end Frozen.Props
