import Verif.Model.Exports
import Verif.Props.TokenSpec

/-! # Specification: what a path means -/

namespace Frozen.Props

open Frozen.Model

/-! ## Modules -/

/-- The scope of a name that is imported inside `sc` from a module where it is visible inside `sc'`. -/
def narrow (sc sc' : List String) : List String := if sc <+: sc' then sc' else sc

mutual
/-- `Binds W m sc ns n d`: the module `m` has a name `n` for the item declared at `d`, and the name is visible inside `sc`. -/
inductive Binds (W : List Line) : List String → List String → Ns → String → List String → Prop
  | item {m sc : List String} {ns : Ns} {n : String} : ⟨m, sc, .item ns n⟩ ∈ W → Binds W m sc ns n (m ++ [n])
  | mod {m sc : List String} {n : String} : ⟨m, sc, .mod n⟩ ∈ W → Binds W m sc .type n (m ++ [n])
  | use {m sc path q sc' d : List String} {ns : Ns} {n : String} : ⟨m, sc, .use path n⟩ ∈ W → Leads W m path q → Binds W q sc' ns n d → sc' <+: m →
      Binds W m (narrow sc sc') ns n d
  | glob {m sc path q sc' d : List String} {ns : Ns} {n : String} : ⟨m, sc, .glob path⟩ ∈ W → Leads W m path q → Binds W q sc' ns n d → sc' <+: m →
      Binds W m (narrow sc sc') ns n d
/-- `Leads W v p q`: for code in the module `v` the path `p`, which begins with the name of a crate, leads to the module `q`. -/
inductive Leads (W : List Line) : List String → List String → List String → Prop
  | crate (v : List String) (c : String) : Leads W v [c] [c]
  | step {v p q sc d : List String} {s : String} : Leads W v p q → Binds W q sc .type s d → sc <+: v → Leads W v (p ++ [s]) d
end

/-- For code in the module `v` the path `::p` means the item declared at `d`. -/
def Means (W : List Line) (v p : List String) (ns : Ns) (d : List String) : Prop :=
  ∃ q s m sc, p = q ++ [s] ∧ Leads W v q m ∧ Binds W m sc ns s d ∧ sc <+: v

/-- For code in the module `v` the path `::p` means one item and no other, and the item was declared under the same name. -/
structure MeansOnly (W : List Line) (v p : List String) (ns : Ns) (d : List String) : Prop where
  means : Means W v p ns d
  only : ∀ d', Means W v p ns d' → d' = d
  name : d.getLast? = p.getLast?

/-- For code in the module `v` the path `::p` means one type or trait, one macro, or a public function of one type. -/
inductive Denotes (W : List Line) (v p : List String) : Prop
  | type {d : List String} (h : MeansOnly W v p .type d)
  | macro {d : List String} (h : MeansOnly W v p .macro d)
  | fn {q d : List String} {f : String} (hp : p = q ++ [f]) (h : MeansOnly W v q .type d) (hf : (d, f) ∈ typeFns)

/-! ## Paths in code -/

/-- The absolute paths in code, each as the list of its segments up to generic arguments; `cur` is the path that is being read, empty if it is none. -/
def pathsIn (p : PathPos) (cur : List String) : List Tk → List (List String)
  | [] => [cur]
  | .ident s :: ts =>
    if p = .sep true then pathsIn .segment (if cur = [] then [] else cur ++ [s]) ts
    else if p = .sep false then cur :: pathsIn .segment [s] ts
    else cur :: pathsIn .segment [] ts
  | .lit _ :: ts => cur :: pathsIn .fresh [] ts
  | .group _ inner :: ts => cur :: (pathsIn .fresh [] inner ++ pathsIn .fresh [] ts)
  | .punct c j :: ts =>
    if c = ':' ∧ (p = .segment ∧ j = true ∨ p = .half true ∨ p = .half false) then pathsIn (p.next (.punct c j)) cur ts
    else cur :: pathsIn (p.next (.punct c j)) [] ts

/-- Every absolute path in the code that is not in one of the given pieces of code means exactly one item, wherever the code stands. -/
def PathsMean (W : List Line) (pieces : List (List Tk)) (ts : List Tk) : Prop :=
  ∀ p ∈ pathsIn .fresh [] ts, p ≠ [] → (∃ piece ∈ pieces, p ∈ pathsIn .fresh [] piece) ∨ ∀ v, Denotes W v p

end Frozen.Props
