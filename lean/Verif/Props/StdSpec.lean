import Verif.Props.HistorySpec
import Verif.Props.SetSpec

/-!
# What it means that one map can stand in for another
-/

namespace Frozen.Props

open Frozen.Spec Frozen.Model

variable {Q K V : Type}

/-- Two clients see the same, except that the entries may be listed in a different order. -/
inductive SameOut : Out K V → Out K V → Prop
  | same (o : Out K V) : SameOut o o
  | entries {es es' : List (K × V)} (h : es.Perm es') : SameOut (.entries es) (.entries es')

/-- The step treats all entries alike, whatever their position in the iteration order. -/
def OrderFree : Op Q K V → Prop
  | .iterMut f => ∀ i j, f i = f j
  | .valuesMut f => ∀ i j, f i = f j
  | _ => True

/-- If the step asks for equal keys in one `get_disjoint_mut`, then some keys that are equal are in the map. -/
def DuplicatesPresent (eqQ : Q → Q → Bool) (mt : Q → K → Bool) (keys : List K) : Op Q K V → Prop
  | .disjointMut qs _ => ¬ Distinct eqQ qs →
      ∃ (i j : Nat) (q q' : Q), i < j ∧ qs[i]? = some q ∧ qs[j]? = some q' ∧ eqQ q q' = true ∧ ∃ k ∈ keys, mt q k = true
  | _ => True

/-- Equal queries match the same keys. -/
def EqRespected (eqQ : Q → Q → Bool) (mt : Q → K → Bool) : Prop :=
  ∀ q q' k, eqQ q q' = true → mt q k = true → mt q' k = true

/-- The first of the entries that the query matches. -/
def firstMatch (mt : Q → K → Bool) (es : List (K × V)) (q : Q) : Option (K × V) := es.find? (fun e => mt q e.1)

end Frozen.Props
