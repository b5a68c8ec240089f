import Verif.Spec
import Verif.Model.DebugFmt

/-!
# What the `Debug` output of a collection or an iterator is supposed to show
-/

namespace Frozen.Props

open Frozen Frozen.Spec Frozen.Model

variable {S A X : Type}

/-- At every point of an iteration that started in `s0`, the `Debug` output is `shape` of the items that are still to
come (and formatting does not fail). -/
def ShowsRest (next : S → Res (Option A × S)) (debug : S → Res (Option X)) (shape : List A → X) (s0 : S) : Prop :=
  ∀ given s, Reaches next s0 given s → ∃ rest s', Yields next s rest s' ∧ debug s = .ok (some (shape rest))

/-- The `Debug` output tells nothing but the items that are still to come: two iterators that will give the same items
are written alike. -/
def ShowsOnlyItems (next : S → Res (Option A × S)) (debug : S → Res (Option X)) : Prop :=
  ∀ s t items s' t', Yields next s items s' → Yields next t items t' → debug s = debug t

/-- Different parts are written differently, as with the builders of `core::fmt` when the texts of the parts can be told
apart. -/
structure Fmt.Injective (F : Fmt X) : Prop where
  list : ∀ xs ys, F.list xs = F.list ys → xs = ys
  tuple : ∀ n xs ys, F.tuple n xs = F.tuple n ys → xs = ys
  struct : ∀ n xs ys, F.struct n xs = F.struct n ys → xs = ys

end Frozen.Props
