import Verif.Props.TokenSpec

/-!
# Code that can be read in only one way

Types and expressions of the caller are opaque to the vocabulary of `TokenSpec`.  Here is what the grammar of Rust guarantees about them.
-/

namespace Frozen.Props

open Frozen.Model

/-- A step of a reader that counts angle brackets; the flag says that the last token was `-`, so that a `>` ends an arrow.  The reader stops at
`,`, `=`, `;` and `>` outside of brackets. -/
def angleStep : Nat × Bool → Tk → Option (Nat × Bool)
  | (d, dash), .punct c _ =>
    if c = '<' then some (d + 1, false)
    else if c = '>' then if dash then some (d, false) else if d = 0 then none else some (d - 1, false)
    else if c = '-' then some (d, true)
    else if (c = ',' ∨ c = '=' ∨ c = ';') ∧ d = 0 then none
    else some (d, false)
  | (d, _), _ => some (d, false)

/-- The reader on a list of tokens. -/
def angleScan : Nat × Bool → List Tk → Option (Nat × Bool)
  | s, [] => some s
  | s, t :: ts =>
    match angleStep s t with
    | none => none
    | some s => angleScan s ts

/-- The angle brackets of the code are balanced, and it has no `,`, `=` or `;` outside of brackets. -/
def TypeLike (ts : List Tk) : Prop := angleScan (0, false) ts = some (0, false)

/-- What the grammar of Rust guarantees about the caller's code: types have balanced brackets, a pair of expressions can be read in only one
way, and an expression has one value. -/
structure Readable {K V F : Type} (P : Prog K V F) : Prop where
  types : ∀ ts, P.userTy ts → TypeLike ts
  pairs : ∀ {k v k' v' : List Tk} {T S T' S' : RTy} {x x' : K} {y y' : V}, P.keyExpr k T x → P.valExpr v S y → P.keyExpr k' T' x' →
    P.valExpr v' S' y' → k ++ .punct ',' false :: v = k' ++ .punct ',' false :: v' → k = k'
  keys : ∀ {k : List Tk} {T T' : RTy} {x x' : K}, P.keyExpr k T x → P.keyExpr k T' x' → x = x'
  values : ∀ {v : List Tk} {T T' : RTy} {y y' : V}, P.valExpr v T y → P.valExpr v T' y' → y = y'

end Frozen.Props
