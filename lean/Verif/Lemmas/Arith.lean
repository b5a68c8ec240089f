import Verif.Basic
import Mathlib.Data.Nat.Basic
import Mathlib.Tactic.Ring
import Mathlib.Tactic.Linarith

/-!
# Helper lemmas on powers of two
-/

namespace Frozen

theorem nextPow2_two_pow_succ (k : Nat) : nextPow2 (2 ^ k + 1) = 2 ^ (k + 1) := by
  unfold nextPow2
  have : 0 < 2 ^ k := Nat.pow_pos (by omega)
  rw [if_neg (by omega)]
  simp [Nat.log2_two_pow]

theorem nextPow2_pow (n : Nat) : ∃ k, nextPow2 n = 2 ^ k := by
  unfold nextPow2
  split
  · exact ⟨0, rfl⟩
  · exact ⟨_, rfl⟩

theorem le_nextPow2 (n : Nat) : n ≤ nextPow2 n := by
  unfold nextPow2
  split
  · assumption
  · rename_i h
    have := Nat.lt_log2_self (n := n - 1)
    omega

theorem nextPow2_lt (n : Nat) (h : 1 ≤ n) : nextPow2 n < 2 * n := by
  unfold nextPow2
  split
  · omega
  · have h1 : n - 1 ≠ 0 := by omega
    have := Nat.log2_self_le h1
    rw [Nat.pow_succ]
    omega

theorem testBit_log2 (n k : Nat) (h1 : 2 ^ k ≤ n) (h2 : n < 2 ^ (k + 1)) : n.testBit k = true := by
  rw [Nat.testBit_eq_decide_div_mod_eq]
  have h3 : n / 2 ^ k = 1 := by
    apply Nat.div_eq_of_lt_le
    · omega
    · rw [Nat.pow_succ] at h2; omega
  simp [h3]

theorem isPow2_iff (n : Nat) : isPow2 n = true ↔ ∃ k, n = 2 ^ k := by
  unfold isPow2
  simp only [Bool.and_eq_true, bne_iff_ne, beq_iff_eq]
  constructor
  · rintro ⟨h0, h1⟩
    refine ⟨Nat.log2 n, ?_⟩
    have ha := Nat.log2_self_le h0
    have hb := Nat.lt_log2_self (n := n)
    by_contra hne
    have hc : 2 ^ Nat.log2 n ≤ n - 1 := by omega
    have t1 := testBit_log2 n _ ha hb
    have t2 := testBit_log2 (n - 1) _ hc (by omega)
    have : (n &&& (n - 1)).testBit (Nat.log2 n) = true := by
      rw [Nat.testBit_and, t1, t2]; rfl
    rw [h1] at this
    simp at this
  · rintro ⟨k, rfl⟩
    refine ⟨(Nat.pow_pos (by omega)).ne', ?_⟩
    rw [Nat.and_two_pow_sub_one_eq_mod]
    simp

theorem trailingZeros_two_pow [Target] (k : Nat) : trailingZeros (2 ^ k) = k := by
  induction k with
  | zero => unfold trailingZeros; simp
  | succ k ih =>
    unfold trailingZeros
    have : 0 < 2 ^ k := Nat.pow_pos (by omega)
    rw [if_neg (by rw [Nat.pow_succ]; omega), if_neg (by rw [Nat.pow_succ]; omega)]
    have : 2 ^ (k + 1) / 2 = 2 ^ k := by rw [Nat.pow_succ]; omega
    rw [this, ih]
    omega

theorem nextPow2_eq (n k : Nat) (h1 : 2 ^ k < n) (h2 : n ≤ 2 ^ (k + 1)) : nextPow2 n = 2 ^ (k + 1) := by
  unfold nextPow2
  have : 0 < 2 ^ k := Nat.pow_pos (by omega)
  rw [if_neg (by omega)]
  have : Nat.log2 (n - 1) = k := by
    rw [Nat.log2_eq_iff (by omega)]
    constructor <;> omega
  rw [this]

end Frozen
