import Verif.Model.Clones
import Verif.Props.SetSpec

/-!
# What a clone is supposed to be
-/

namespace Frozen.Spec
open Model

variable {M Q K V T : Type}

/-- `m'`, with the functions `J`, is a faithful copy of `m`, with the functions `I`: the same entries in the same order and the same answers to all
queries, with the keys copied by `f` and the values by `g`. -/
structure CopyOf (f : K → K) (g : V → V) (I J : MapImpl M Q K V) (m m' : M) : Prop where
  entries : J.entries m' = (I.entries m).map fun e => (f e.1, g e.2)
  len : J.len m' = I.len m
  get : ∀ q, J.get m' q = (I.get m q).map (Option.map g)
  getMut : ∀ q, J.getMut m' q = I.getMut m q
  getKeyValue : ∀ q, J.getKeyValue m' q = (I.getKeyValue m q).map (Option.map fun e => (f e.1, g e.2))
  containsKey : ∀ q, J.containsKey m' q = I.containsKey m q

/-- The same for a set. -/
structure SetCopyOf (f : T → T) (I J : SetImpl M Q T) (m m' : M) : Prop where
  items : J.items m' = (I.items m).map f
  len : J.len m' = I.len m
  get : ∀ q, J.get m' q = (I.get m q).map (Option.map f)
  contains : ∀ q, J.contains m' q = I.contains m q

/-- Cloning the keys and values of `es` does not panic, and gives what `f` and `g` say. -/
def ClonesTo (ck : K → Res K) (cv : V → Res V) (f : K → K) (g : V → V) (es : List (K × V)) : Prop :=
  ∀ e ∈ es, ck e.1 = .ok (f e.1) ∧ cv e.2 = .ok (g e.2)

end Frozen.Spec
