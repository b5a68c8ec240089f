import Verif.Model.EffectText
import Verif.Props.EffectSpec

/-!
# Specification of lookups in string maps with queries whose `AsRef<str>` has effects
-/

namespace Frozen.Props

open Frozen Frozen.Spec Frozen.Model

variable {W S : Type}

/-- `Texts asRef qs w ts w'`: from state `w` on, the queries `qs` are converted one after the other and once each, to the texts `ts`; the state is `w'` then. -/
inductive Texts (asRef : S → Eff W Str) : List S → W → List Str → W → Prop
  | nil {w : W} : Texts asRef [] w [] w
  | cons {q : S} {qs : List S} {w w₁ w' : W} {t : Str} {ts : List Str} (h : asRef q w = (.ok t, w₁)) (hs : Texts asRef qs w₁ ts w') :
      Texts asRef (q :: qs) w (t :: ts) w'

/-- `StringMapInUse m`: the map `m` came out of a constructor of `FzStringMap`, with whatever hasher, and values may have been stored into it. -/
def StringMapInUse [Target] {V : Type} (m : FzStringMap V) : Prop :=
  ∃ (sort : Sorter (Str × V)) (bhStr bhSlice : Str → Nat) (es : List (Str × V)) (a : SliceAnalysis) (m₀ : FzStringMap V), SorterOk sort ∧
    es.length < sizeLimit ∧ FzStringMap.build sort bhStr bhSlice es a = .ok m₀ ∧ Stores (FzStringMap.impl bhStr bhSlice) m₀ m

end Frozen.Props
