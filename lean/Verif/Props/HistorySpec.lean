import Verif.Spec
import Verif.Model.History

/-!
# The dictionary that a map is supposed to behave like

A dictionary is a list of entries with pairwise different keys.  It supports lookup, update of the value of an existing
key, and listing; nothing changes keys.  Only the types of operations and observations are shared with the model.
-/

namespace Frozen.Props

open Frozen.Spec Frozen.Model

variable {Q K V : Type}

/-- Replace the value under the key that `q` matches. -/
def dictUpdate (mt : Q → K → Bool) (d : List (K × V)) (q : Q) (f : V → V) : List (K × V) :=
  d.map (fun e => if mt q e.1 then (e.1, f e.2) else e)

/-- Update the keys matched by a list of queries in turn. -/
def dictUpdates (mt : Q → K → Bool) (f : Nat → V → V) : Nat → List Q → List (K × V) → List (K × V)
  | _, [], d => d
  | n, q :: qs, d => dictUpdates mt f (n + 1) qs (dictUpdate mt d q (f n))

/-- Two of the queries are equal. -/
def someEqual (eqQ : Q → Q → Bool) : List Q → Bool
  | [] => false
  | q :: qs => qs.any (eqQ q) || someEqual eqQ qs

/-- One step of a program on a dictionary. -/
def dictStep (eqQ : Q → Q → Bool) (mt : Q → K → Bool) (d : List (K × V)) : Op Q K V → Out K V × List (K × V)
  | .get q => (.value ((lastMatch mt d q).map (fun e => e.2)), d)
  | .getKeyValue q => (.entry (lastMatch mt d q), d)
  | .containsKey q => (.bool (lastMatch mt d q).isSome, d)
  | .index q =>
    match lastMatch mt d q with
    | some e => (.value (some e.2), d)
    | none => (.panic, d)
  | .len => (.nat d.length, d)
  | .iterate => (.entries d, d)
  | .update q f => (.value ((lastMatch mt d q).map (fun e => e.2)), dictUpdate mt d q f)
  | .iterMut f => (.unit, d.mapIdx (fun i e => (e.1, f i e.1 e.2)))
  | .valuesMut f => (.unit, d.mapIdx (fun i e => (e.1, f i e.2)))
  | .disjointMut qs f =>
    if someEqual eqQ qs then (.panic, d)
    else (.values (qs.map (fun q => (lastMatch mt d q).map (fun e => e.2))), dictUpdates mt f 0 qs d)

/-- Run a program on a dictionary. -/
def dictRun (eqQ : Q → Q → Bool) (mt : Q → K → Bool) (d : List (K × V)) :
    List (Op Q K V) → List (Out K V) × List (K × V)
  | [] => ([], d)
  | op :: ops =>
    let (o, d') := dictStep eqQ mt d op
    let (os, d'') := dictRun eqQ mt d' ops
    (o :: os, d'')

/-- Equality of queries is at least as coarse as matching: two queries that match the same key are equal.  (For
queries of the key type itself this is symmetry and transitivity of key equality.) -/
def EqCompatible (eqQ : Q → Q → Bool) (mt : Q → K → Bool) : Prop :=
  ∀ q q' k, mt q k = true → mt q' k = true → eqQ q q' = true

end Frozen.Props
