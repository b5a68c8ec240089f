import Verif.Model.EffectMaps
import Verif.Props.EffectSpec
import Verif.Props.CloneSpec

/-!
# Specification of comparing and cloning maps with user code that has effects
-/

namespace Frozen.Props

open Frozen.Spec Frozen.Model

variable {W M M' Q K V V' : Type}

/-- The three senses in which code with effects can have an outcome: it panics or has it; it always has it; or it has it exactly if it leaves no mark of a panic. -/
inductive Sense : ((A : Type) → Eff W A → Res A → Prop) → Prop
  | panicsOr : Sense fun _ x r => PanicsOr x r
  | always : Sense fun _ x r => Always x r
  | marks (bad : W → Prop) : Sense fun _ x r => Marks bad x r

/-- The call has the outcome `r` and does nothing to the state of the program. -/
def Quiet (x : Eff W A) (r : Res A) : Prop := ∀ w, x w = (r, w)

/-- A function that compares values and records the comparisons in the state of the program. -/
def recordEq (eqV : V → V' → Bool) (v : V) (v' : V') : Eff (List (V × V')) Bool := fun w => (.ok (eqV v v'), w ++ [(v, v')])

/-- The comparisons `l` of values, when a map that is iterated as `items` is compared with a map made from `es'`: the values of the items are compared in the
order of iteration, each once, with the value that the other map has for the same key; and none after the first that differs. -/
structure ValuesCompared (eqK : K → K → Bool) (eqV : V → V' → Bool) (items : List (K × V)) (es' : List (K × V')) (l : List (V × V')) : Prop where
  pair : ∀ (i : Nat) (p : V × V'), l[i]? = some p → ∃ k k', items[i]? = some (k, p.1) ∧ lastMatch eqK es' k = some (k', p.2)
  before : ∀ (i : Nat) (p : V × V'), l[i]? = some p → i + 1 < l.length → eqV p.1 p.2 = true

/-- The call has, in the sense of `R`, a copy of `m` as its outcome. -/
def CopiesE (R : (A : Type) → Eff W A → Res A → Prop) (f : K → K) (g : V → V) (I J : MapImpl M Q K V) (m : M) (x : Eff W M) : Prop :=
  ∃ m', R M x (.ok m') ∧ CopyOf f g I J m m'

/-- `Clone` of keys and values gives, in the sense of `R`, the clones `f k` and `g v`. -/
def ClonesE (R : (A : Type) → Eff W A → Res A → Prop) (ck : K → Eff W K) (cv : V → Eff W V) (f : K → K) (g : V → V) (es : List (K × V)) : Prop :=
  ∀ e ∈ es, R K (ck e.1) (.ok (f e.1)) ∧ R V (cv e.2) (.ok (g e.2))

/-- Lookups in `m` run into no undefined behaviour, and what they find is an entry. -/
def SafeLookups (entries : M → List (K × V)) (S : M → Q → Eff W (Option Nat)) (m : M) : Prop :=
  ∀ q w, NoUb (S m q w).1 ∧ ∀ i, (S m q w).1 = .ok (some i) → i < (entries m).length

/-- Cloning runs into no undefined behaviour; if it does not panic, the clone has as many entries as `m`, and satisfies `P`. -/
def ClonesSafely (entries : M → List (K × V)) (m : M) (x : Eff W M) (P : M → Prop) : Prop :=
  ∀ w, NoUb (x w).1 ∧ ∀ m', (x w).1 = .ok m' → (entries m').length = (entries m).length ∧ P m'

end Frozen.Props
