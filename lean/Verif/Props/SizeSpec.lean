import Mathlib.Data.Finset.Dedup
import Mathlib.Data.Finset.Card
import Verif.Basic

/-! # Specification: which size a hash table should have -/

namespace Frozen.Props

/-- How many hash codes do not get a slot of their own in a table of `s` slots. -/
def crowded (codes : List Nat) (s : Nat) : Nat := codes.length - ((codes.map (· % s)).toFinset).card

/-- How many of `n` codes may collide in the `i`-th size that is considered: none if there are fewer than 128, otherwise five of every full hundred
in the first size, and for each further size twenty of every full hundred of what was tolerated before. -/
def tolerated (n : Nat) : Nat → Nat
  | 0 => if n < 128 then 0 else n / 100 * 5
  | i + 1 => tolerated n i / 100 * 20

/-- `2 ^ k` is the smallest power of two that is at least `n`. -/
structure LeastPow (n k : Nat) : Prop where
  le : n ≤ 2 ^ k
  least : ∀ j, n ≤ 2 ^ j → k ≤ j

/-- The `i`-th size will do. -/
def SizeAdequate (codes : List Nat) (lo i : Nat) : Prop := crowded codes (2 ^ (lo + i)) ≤ tolerated codes.length i

/-- `s` is the size to choose for the codes if the powers of two from `2 ^ lo` to `2 ^ hi` are considered: the smallest that will do, or the
smallest of all if none will. -/
def BestSize (codes : List Nat) (lo hi s : Nat) : Prop :=
  (∃ i, lo + i ≤ hi ∧ s = 2 ^ (lo + i) ∧ SizeAdequate codes lo i ∧ ∀ j < i, ¬ SizeAdequate codes lo j) ∨
  (s = 2 ^ lo ∧ ∀ i, lo + i ≤ hi → ¬ SizeAdequate codes lo i)

/-- How much larger than the number of codes a table may be (before rounding). -/
def growthLimit (n : Nat) : Nat := if n < 128 then 10 else if n < 1000 then 7 else 3

end Frozen.Props
