import Verif.Lemmas.SliceAnalyzer
import Verif.Model.FzMaps

/-!
# Property theorems: slice key analysis and hashers (C20, C21, C22)
-/

namespace Frozen.Props

open Frozen.Spec Frozen.Model

variable {T : Type}

/-! ## C20 -/

/-- The elements of `s` at positions `lo..hi` counted from the left. -/
def leftPart (lo hi : Nat) (s : List T) : List T := (s.take hi).drop lo

/-- The elements of `s` at positions `lo..hi` counted from the right end. -/
def rightPart (lo hi : Nat) (s : List T) : List T := ((s.reverse.take hi).drop lo).reverse

theorem leftPart_eq (lo hi : Nat) (s : List T) (h : lo ≤ hi) : subOf true lo (hi - lo) s = leftPart lo hi s := by
  simp only [subOf, leftPart, if_true, List.drop_take]

theorem rightPart_eq (lo hi : Nat) (s : List T) (h : lo ≤ hi) (hs : hi ≤ s.length) :
    subOf false lo (hi - lo) s = rightPart lo hi s := by
  simp only [subOf, rightPart, Bool.false_eq_true, if_false]
  rw [List.take_reverse, List.drop_reverse, List.reverse_reverse, List.length_drop, List.take_drop]
  have e1 : s.length - lo - (hi - lo) = s.length - hi := by omega
  rw [e1, List.drop_take]
  congr 1
  · omega

/-- **C20**.  For every list of slices, every element equality and every hash function, the analysis returns normally, and
* if it selects the left range `lo..hi`: `lo < hi`, every key contains the range, the left-range hasher hashes on every
  key exactly the elements at positions `lo..hi`, and at most `n/20` keys have a hash that another key already has;
* if it selects the right range `lo..hi`: the same, counting positions from the right end. -/
theorem c20_subslice_analysis [Target] (eqT : T → T → Bool) (bh : List T → Nat) (keys : List (List T)) :
    ∃ r, analyzeSliceKeys eqT bh keys = .ok r ∧
      (∀ rg, r = .left rg → rg.lo < rg.hi ∧ (∀ k ∈ keys, rg.hi ≤ k.length) ∧
        (∀ k ∈ keys, leftRangeHash bh rg k = .ok (bh (leftPart rg.lo rg.hi k))) ∧
        keys.length ≤ distinctCount (keys.map (fun k => bh (leftPart rg.lo rg.hi k))) + keys.length / 20) ∧
      (∀ rg, r = .right rg → rg.lo < rg.hi ∧ (∀ k ∈ keys, rg.hi ≤ k.length) ∧
        (∀ k ∈ keys, rightRangeHash bh rg k = .ok (bh (rightPart rg.lo rg.hi k))) ∧
        keys.length ≤ distinctCount (keys.map (fun k => bh (rightPart rg.lo rg.hi k))) + keys.length / 20) := by
  obtain ⟨r, h1, -, h2, h3⟩ := analyzeSliceKeys_spec eqT bh keys
  refine ⟨r, h1, fun rg hrg => ?_, fun rg hrg => ?_⟩
  · obtain ⟨a1, -, a2, a3⟩ := h2 rg hrg
    refine ⟨a1, a2, fun k hk => ?_, ?_⟩
    · have := a2 k hk
      rw [leftRangeHash_ok bh rg (by omega), if_neg (by omega), leftPart_eq _ _ _ (by omega)]
    · have e : keys.map (fun k => bh (leftPart rg.lo rg.hi k)) =
          keys.map (fun s => bh (subOf true rg.lo (rg.hi - rg.lo) s)) := by
        apply List.map_congr_left
        intro k _
        rw [leftPart_eq _ _ _ (by omega)]
      rw [e]
      exact a3
  · obtain ⟨a1, -, a2, a3⟩ := h3 rg hrg
    refine ⟨a1, a2, fun k hk => ?_, ?_⟩
    · have := a2 k hk
      rw [rightRangeHash_ok bh rg (by omega), if_neg (by omega), rightPart_eq _ _ _ (by omega) this]
    · have e : keys.map (fun k => bh (rightPart rg.lo rg.hi k)) =
          keys.map (fun s => bh (subOf false rg.lo (rg.hi - rg.lo) s)) := by
        apply List.map_congr_left
        intro k hk
        rw [rightPart_eq _ _ _ (by omega) (a2 k hk)]
      rw [e]
      exact a3

/-- A hash that reads the first element, for the examples. -/
def firstByte : List Nat → Nat
  | [] => 0
  | x :: _ => x

attribute [local instance] w64 in
/-- Common prefix `[9]`: the first position that tells the keys apart is selected. -/
example : analyzeSliceKeys (fun a b => a == b) firstByte [[9, 1, 5], [9, 2, 5], [9, 3, 5]] = .ok (.left ⟨1, 2⟩) := by cbv
attribute [local instance] w64 in
/-- Keys of different lengths that differ only near their right end. -/
example : analyzeSliceKeys (fun a b => a == b) firstByte [[9, 9, 1, 5], [9, 2, 5], [9, 3, 5], [9, 9, 4, 5]] =
    .ok (.right ⟨1, 2⟩) := by cbv
example : rightPart 1 2 [9, 9, 1, 5] = [1] := by decide

/-! ## C21 -/

/-- **C21**.  Hashing by length is selected iff no length is shared by more than `max(1, n/20)` keys. -/
theorem c21_length_analysis [Target] (eqT : T → T → Bool) (bh : List T → Nat) (keys : List (List T)) :
    ∃ r, analyzeSliceKeys eqT bh keys = .ok r ∧
      (r = .length ↔ ∀ n, (keys.filter (fun k => k.length == n)).length ≤ max 1 (keys.length / 20)) := by
  obtain ⟨r, h1, h2, -, -⟩ := analyzeSliceKeys_spec eqT bh keys
  refine ⟨r, h1, h2.trans ?_⟩
  have := (lengthsLoop_spec (keys.length / acceptableDuplicateRatio) keys [] (fun _ => 0) (by simp) (by simp)).2
  simpa [analyzeLengths, acceptableDuplicateRatio] using this

attribute [local instance] w64 in
example : analyzeSliceKeys (fun a b => a == b) firstByte [[1], [1, 1], [1, 1, 1]] = .ok .length := by cbv

/-! ## C22 -/

/-- **C22**.  For every value, every range with `start <= end` and every underlying hash function: each hasher returns a
value (no panic); the value does not depend on anything but the hashed part, so equal values hash equally; the inline
forms compute the same value as the runtime forms.  A value shorter than the range hashes to 0; otherwise the hashed
part is the one counted from the left (right) end. -/
theorem c22_hashers (bh : List T → Nat) (lo hi : Nat) (h : lo ≤ hi) (s : List T) :
    leftRangeHash bh ⟨lo, hi⟩ s = .ok (if s.length < hi then 0 else bh (leftPart lo hi s)) ∧
    rightRangeHash bh ⟨lo, hi⟩ s = .ok (if s.length < hi then 0 else bh (rightPart lo hi s)) ∧
    inlineLeftRangeHash lo hi bh s = leftRangeHash bh ⟨lo, hi⟩ s ∧
    inlineRightRangeHash lo hi bh s = rightRangeHash bh ⟨lo, hi⟩ s ∧
    lengthHash s = .ok s.length ∧
    bridgeHash bh s = .ok (bh s) := by
  refine ⟨?_, ?_, inlineLeft_eq bh lo hi s, inlineRight_eq bh lo hi s, rfl, rfl⟩
  · rw [leftRangeHash_ok bh ⟨lo, hi⟩ h, leftPart_eq _ _ _ h]
  · rw [rightRangeHash_ok bh ⟨lo, hi⟩ h]
    by_cases hlt : s.length < hi
    · simp [hlt]
    · simp only [hlt, if_false, rightPart_eq _ _ _ h (Nat.le_of_not_lt hlt)]

/-- **C22** (scalar hasher): equal scalars hash equally, different scalars differently. -/
theorem c22_scalar_hasher [Target] {K : Type} {cmp : K → K → Ordering} {index : K → Nat} (hs : LawfulScalar cmp index) (a b : K) :
    ∃ x y, scalarHash index a = .ok x ∧ scalarHash index b = .ok y ∧ (x = y ↔ cmp a b = .eq) := by
  refine ⟨_, _, rfl, rfl, ?_⟩
  rw [hs.cmp, Nat.compare_eq_eq]

example : leftRangeHash firstByte ⟨1, 3⟩ [4, 5, 6, 7] = .ok 5 := by decide
example : rightRangeHash firstByte ⟨1, 3⟩ [4, 5, 6, 7] = .ok 5 := by decide
example : rightRangeHash firstByte ⟨0, 2⟩ [4, 5, 6, 7] = .ok 6 := by decide
example : rightRangeHash firstByte ⟨0, 9⟩ [4, 5, 6, 7] = .ok 0 := by decide

end Frozen.Props
