import Verif.Props.ApiSpec
import Verif.Props.MapSpec

/-! # Specification: scalar key types with an order of their own -/

namespace Frozen.Props

open Frozen.Spec Frozen.Model

variable {K V : Type}

/-- What the trait `Scalar` says about a key type: it is totally ordered, and indices are positions in a sequence, so that different
values have different indices.  Nothing relates the order to the indices. -/
structure ScalarKeys [Target] (cmp : K → K → Ordering) (index : K → Nat) : Prop where
  ord : LawfulCmp cmp
  same : ∀ a b, index a = index b ↔ cmp a b = .eq
  bound : ∀ a, index a ≤ usizeMax

/-- `R` lists the indices of the keys without repetition; `mn` and `mx` are the smallest and the largest. -/
structure Indices (index : K → Nat) (es : List (K × V)) (R : List Nat) (mn mx : Nat) : Prop where
  nodup : R.Nodup
  mem : ∀ n, n ∈ R ↔ ∃ e ∈ es, index e.1 = n
  min : mn ∈ R
  max : mx ∈ R
  range : ∀ n ∈ R, mn ≤ n ∧ n ≤ mx

/-- On the keys at hand the order is that of the indices. -/
def Ascending (cmp : K → K → Ordering) (index : K → Nat) (es : List (K × V)) : Prop :=
  ∀ x ∈ es, ∀ y ∈ es, cmp x.1 y.1 = .lt → index x.1 < index y.1

/-- The smallest of the keys at hand has the smallest index, and the largest the largest. -/
def EndsFit (cmp : K → K → Ordering) (index : K → Nat) (es : List (K × V)) : Prop :=
  ∀ x ∈ es, ((∀ y ∈ es, cmp x.1 y.1 ≠ .gt) → ∀ y ∈ es, index x.1 ≤ index y.1) ∧
    ((∀ y ∈ es, cmp y.1 x.1 ≠ .gt) → ∀ y ∈ es, index y.1 ≤ index x.1)

/-- What the representation asks of the order: nothing if the indices are scattered, everything if they leave no gap. -/
def OrderFits (cmp : K → K → Ordering) (index : K → Nat) (es : List (K × V)) (R : List Nat) (mn mx : Nat) : Prop :=
  (NoGap R mn mx → Ascending cmp index es) ∧ (¬ NoGap R mn mx → ¬ Scattered R mn mx → EndsFit cmp index es)

end Frozen.Props
