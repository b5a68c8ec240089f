import Verif.Model.EffectDebug
import Verif.Props.EffectSetSpec

/-!
# Specification of `Debug` with sinks that fail and elements whose `Debug` has effects
-/

namespace Frozen.Props

open Frozen.Spec Frozen.Model

variable {W A K V T : Type}

/-- Steps performed one after the other, until one returns an error or panics. -/
def perform : List (Eff W Bool) → Eff W Bool
  | [] => pure true
  | a :: r => a >>= fun c => if c then perform r else pure false

/-- The steps of formatting a sequence of parts: bracket, the parts with what stands before and after each, bracket. -/
def partSteps (st : DebugStyle W) : Bool → List (List (Eff W Bool)) → List (Eff W Bool)
  | _, [] => []
  | later, p :: ps => st.before later :: p ++ st.after :: partSteps st true ps

/-- See `partSteps`. -/
def steps (st : DebugStyle W) (parts : List (List (Eff W Bool))) : List (Eff W Bool) := st.opening :: partSteps st false parts ++ [st.closing]

/-- The call performs the steps and returns what they return. -/
def Performs (x : Eff W (Option Bool)) (l : List (Eff W Bool)) : Prop := x = (perform l >>= fun b => pure (some b))

/-- `out` is the text in the sink.  The call writes `t`, or the beginning of it and then fails or panics.  If `sure` holds, it does not fail. -/
def Writes (out : W → List Char) (sure : Prop) (a : Eff W Bool) (t : List Char) : Prop :=
  ∀ w, ∃ p, p <+: t ∧ out (a w).2 = out w ++ p ∧ (Panics (a w).1 ∨ (a w).1 = .ok false ∨ ((a w).1 = .ok true ∧ p = t)) ∧ (sure → (a w).1 = .ok true)

/-- A lookup that answers `c` and writes nothing, or panics.  If `sure` holds, it does not panic.  It may do anything else to the state of the program. -/
def Looks (out : W → List Char) (sure : Prop) (a : Eff W Bool) (r : Res Bool) : Prop :=
  ∀ w, out (a w).2 = out w ∧ (Panics (a w).1 ∨ (a w).1 = r) ∧ (sure → (a w).1 = r)

/-- The texts of a style. -/
structure StyleText where
  opening : List Char
  first : List Char
  later : List Char
  colon : List Char
  after : List Char
  closing : List Char

/-- `{:?}` of maps; lists have other brackets. -/
def plainMapText : StyleText := ⟨['{'], [], [',', ' '], [':', ' '], [], ['}']⟩

/-- The style writes these texts. -/
structure StyleWrites (out : W → List Char) (sure : Prop) (st : DebugStyle W) (x : StyleText) : Prop where
  opening : Writes out sure st.opening x.opening
  first : Writes out sure (st.before false) x.first
  later : Writes out sure (st.before true) x.later
  colon : Writes out sure st.colon x.colon
  after : Writes out sure st.after x.after
  closing : Writes out sure st.closing x.closing

/-- The text of the parts. -/
def partsText (x : StyleText) : Bool → List (List Char) → List Char
  | _, [] => []
  | later, p :: ps => (if later then x.later else x.first) ++ p ++ x.after ++ partsText x true ps

/-- The whole text. -/
def wholeText (x : StyleText) (parts : List (List Char)) : List Char := x.opening ++ partsText x false parts ++ x.closing

/-- `Writes` for a whole call of `fmt`. -/
def WritesWhole (out : W → List Char) (sure : Prop) (a : Eff W (Option Bool)) (t : List Char) : Prop :=
  ∀ w, ∃ p, p <+: t ∧ out (a w).2 = out w ++ p ∧ (Panics (a w).1 ∨ (a w).1 = .ok (some false) ∨ ((a w).1 = .ok (some true) ∧ p = t)) ∧
    (sure → (a w).1 = .ok (some true))

/-- `fmt` shows the elements that satisfy `mem`, each once, all taken from `src`, in the sense of `WritesWhole`. -/
def ShowsMembers (out : W → List Char) (sure : Prop) (x : StyleText) (tT : T → List Char) (eqT : T → T → Bool) (a : Eff W (Option Bool)) (mem : T → Prop)
    (src : List T) : Prop :=
  ∃ items, Distinct eqT items ∧ (∀ y ∈ items, mem y ∧ y ∈ src) ∧ (∀ y, mem y → ∃ z ∈ items, eqT y z = true) ∧
    WritesWhole out sure a (wholeText x (items.map tT))

/-- `fmt` runs into no undefined behaviour, and ends. -/
def FormatsSafely (a : Eff W (Option Bool)) : Prop := ∀ w, NoUb (a w).1 ∧ (a w).1 ≠ .ok none

end Frozen.Props
