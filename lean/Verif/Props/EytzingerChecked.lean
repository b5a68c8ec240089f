import Verif.Model.EytzingerChecked
import Verif.Props.Eytzinger

/-!
# Property theorems: the arithmetic of the Eytzinger layout (C09, C10)
-/

namespace Frozen.Props

open Frozen.Spec Frozen.Model

variable {T : Type _}

private theorem allocLimit_eq [Target] : 2 * allocLimit = 2 ^ Target.width ∧ usizeMax + 1 = 2 ^ Target.width := by
  rcases Target.ok with h | h <;> simp [usizeMax, allocLimit, h]

private theorem hgt_small [Target] {n : Nat} (hn : n + 2 ≤ allocLimit) : 2 ^ (hgt n + 1) ≤ allocLimit := by
  have h1 := hgt_le n
  unfold allocLimit at *
  have h2 : 2 ^ hgt n < 2 ^ (Target.width - 1) := by omega
  have h3 := (Nat.pow_lt_pow_iff_right (by omega : 1 < 2)).1 h2
  exact Nat.pow_le_pow_right (by omega) h3

private theorem addM_ok [Target] (b : Build) {x y : Nat} (h : x + y ≤ usizeMax) : addM b x y = .ok (x + y) := if_pos h
private theorem mulM_ok [Target] (b : Build) {x y : Nat} (h : x * y ≤ usizeMax) : mulM b x y = .ok (x * y) := if_pos h
private theorem subM_ok [Target] (b : Build) {x y : Nat} (h : y ≤ x) : subM b x y = .ok (x - y) := if_pos h
private theorem nextPow2M_ok [Target] (b : Build) {x : Nat} (h : nextPow2 x ≤ usizeMax) : nextPow2M b x = .ok (nextPow2 x) := if_pos h
private theorem shrM_ok [Target] (b : Build) {x s : Nat} (h : s < Target.width) : shrM b x s = .ok (x >>> s) := if_pos h
private theorem shlM_ok [Target] (b : Build) {s : Nat} (h : s < Target.width) : shlM b 1 s = .ok (2 ^ s) := by
  unfold shlM
  rw [if_pos h, Nat.shiftLeft_eq, Nat.one_mul, Nat.mod_eq_of_lt (Nat.pow_lt_pow_right (by omega) h)]

/-- Below the limit the machine computes the index that the natural numbers give. -/
private theorem indexM_eq [Target] (b : Build) {i n : Nat} (h : i < n) (hn : n + 2 ≤ allocLimit) :
    eytzingerIndexM b i n = eytzingerIndex i n := by
  rw [eytzingerIndex_eq h]
  obtain ⟨hA, hU⟩ := allocLimit_eq
  have hs := hgt_small hn
  have hd := dep_le_hgt h
  have h1 := dep_le i
  have h2 := lt_dep i
  have e1 : nextPow2 (i + 2) = 2 ^ (dep i + 1) := nextPow2_eq _ _ (by omega) (by omega)
  have e2 : nextPow2 (n + 2) = 2 ^ (hgt n + 1) := by
    have := hgt_le n
    have := lt_hgt n
    exact nextPow2_eq _ _ (by omega) (by omega)
  have hpow : 2 ^ (dep i + 1) ≤ 2 ^ (hgt n + 1) := Nat.pow_le_pow_right (by omega) (by omega)
  have e3 : 2 ^ (hgt n + 1) / 2 = 2 ^ hgt n := by rw [Nat.pow_succ]; omega
  have e3' : 2 ^ (hgt n + 1) = 2 * 2 ^ hgt n := by rw [Nat.pow_succ]; omega
  have e4 : (2 ^ hgt n) >>> dep i = 2 ^ (hgt n - dep i) := by
    rw [Nat.shiftRight_eq_div_pow, Nat.pow_div hd (by omega)]
  have hy := yRank_pos (hgt n) i
  have hyl := yRank_lt hd
  have hle := hgt_le n
  have hw : dep i < Target.width := by
    have h3 : 2 ^ (dep i + 1) < 2 ^ Target.width := by omega
    have := (Nat.pow_lt_pow_iff_right (by omega : 1 < 2)).1 h3
    omega
  have e6 : 2 ^ (hgt n - dep i) * ((i + 1 - 2 ^ dep i) * 2 + 1) = yRank (hgt n) i := by
    unfold yRank off; rw [Nat.mul_comm _ 2]
  have hp : 0 < allocLimit := allocLimit_pos
  unfold eytzingerIndexM
  simp only [bind, Except.bind]
  rw [addM_ok b (by omega)]
  simp only
  rw [nextPow2M_ok b (by omega)]
  simp only [e1, trailingZeros_two_pow]
  rw [addM_ok b (by omega), subM_ok b (by omega)]
  simp only [Nat.add_sub_cancel]
  rw [shlM_ok b hw]
  simp only
  rw [subM_ok b h1]
  simp only
  rw [mulM_ok b (by omega)]
  simp only
  rw [addM_ok b (by omega)]
  simp only
  rw [addM_ok b (by omega)]
  simp only
  rw [nextPow2M_ok b (by omega)]
  simp only [e2, e3]
  rw [shrM_ok b hw]
  simp only [e4]
  rw [mulM_ok b (by omega)]
  simp only [e6, Nat.shiftRight_one]
  rw [addM_ok b (by omega)]
  simp only
  rw [addM_ok b (by omega)]
  simp only
  rw [subM_ok b (by omega)]
  simp only
  rw [subM_ok b (by omega)]
  rfl

private theorem swap_length {xs ys : List T} {a c : Nat} (h : swap xs a c = .ok ys) : ys.length = xs.length := by
  unfold swap at h
  simp only [bind, Except.bind] at h
  cases h1 : idx xs a with
  | error e => rw [h1] at h; cases h
  | ok x =>
    cases h2 : idx xs c with
    | error e => rw [h1, h2] at h; cases h
    | ok y => rw [h1, h2] at h; cases h; simp

private theorem layoutStepM_eq [Target] (b : Build) {i : Nat} {xs : List T} (m : List (Nat × Nat)) (h : i < xs.length)
    (hn : xs.length + 2 ≤ allocLimit) : layoutStepM b i xs m = layoutStep i xs m := by
  unfold layoutStepM layoutStep
  rw [indexM_eq b h hn]

private theorem layoutStep_length [Target] {i : Nat} {xs ys : List T} {m m' : List (Nat × Nat)} (h : layoutStep i xs m = .ok (ys, m')) :
    ys.length = xs.length := by
  unfold layoutStep at h
  simp only [bind, Except.bind] at h
  cases h1 : eytzingerIndex i xs.length with
  | error e => rw [h1] at h; cases h
  | ok t =>
    rw [h1] at h
    simp only at h
    cases h2 : relocate t i m with
    | error e => rw [h2] at h; cases h
    | ok l =>
      rw [h2] at h
      simp only at h
      cases h3 : swap xs i l.1 with
      | error e => rw [h3] at h; cases h
      | ok zs => rw [h3] at h; cases h; exact swap_length h3

private theorem layoutLoopM_eq [Target] (b : Build) : ∀ (fuel i : Nat) (xs : List T) (m : List (Nat × Nat)), i + fuel = xs.length →
    xs.length + 2 ≤ allocLimit → layoutLoopM b fuel i xs m = layoutLoop fuel i xs m
  | 0, _, _, _, _, _ => rfl
  | fuel + 1, i, xs, m, hi, hn => by
    unfold layoutLoopM layoutLoop
    rw [layoutStepM_eq b m (by omega) hn]
    cases h : layoutStep i xs m with
    | error e => rfl
    | ok r =>
      have hl := layoutStep_length h
      exact layoutLoopM_eq b fuel (i + 1) r.1 r.2 (by omega) (by omega)

/-- **C09** (overflow).  On every target and in every build, the layout of a slice whose length is at most half the range of `usize` less two is the
one of `c09_layout`: no sum, product, shift or power of two overflows. -/
theorem c09_no_overflow [Target] (b : Build) (xs : List T) (hn : xs.length + 2 ≤ allocLimit) :
    eytzingerLayoutM b xs = eytzingerLayout xs := layoutLoopM_eq b _ _ _ _ (by omega) hn

private theorem indexM_zero_big [Target] (b : Build) {n : Nat} (hn : allocLimit < n + 2) (hmax : n ≤ usizeMax) :
    (∃ e, eytzingerIndexM b 0 n = .error e) ∨ eytzingerIndexM b 0 n = .ok usizeMax := by
  obtain ⟨hA, hU⟩ := allocLimit_eq
  have hp : 4 ≤ 2 ^ Target.width := by rcases Target.ok with h | h <;> simp [h]
  have hw : 0 < Target.width := by rcases Target.ok with h | h <;> omega
  have e1 : nextPow2 (0 + 2) = 2 ^ (0 + 1) := nextPow2_eq _ _ (by omega) (by omega)
  have hz : ∃ q, (nextPow2M b (n + 2) = .ok q ∧ q / 2 = 0 ∨ ∃ e, nextPow2M b (n + 2) = .error e) := by
    have hbig : ¬ nextPow2 (n + 2) ≤ usizeMax := by
      have h1 := hgt_le n
      have h2 := lt_hgt n
      have h3 : nextPow2 (n + 2) = 2 ^ (hgt n + 1) := nextPow2_eq _ _ (by omega) (by omega)
      rw [h3]
      have h4 : 2 ^ (Target.width - 1) < 2 ^ (hgt n + 1) := by
        have : allocLimit = 2 ^ (Target.width - 1) := rfl
        omega
      have h5 := (Nat.pow_lt_pow_iff_right (by omega : 1 < 2)).1 h4
      have h6 : 2 ^ Target.width ≤ 2 ^ (hgt n + 1) := Nat.pow_le_pow_right (by omega) (by omega)
      omega
    cases b
    · exact ⟨0, .inr ⟨_, by unfold nextPow2M; rw [if_neg hbig]⟩⟩
    · exact ⟨0, .inl ⟨by unfold nextPow2M; rw [if_neg hbig], rfl⟩⟩
  unfold eytzingerIndexM
  simp only [bind, Except.bind]
  rw [addM_ok b (by omega)]
  simp only
  rw [nextPow2M_ok b (by rw [e1]; omega)]
  simp only [e1, trailingZeros_two_pow]
  rw [addM_ok b (by omega), subM_ok b (by omega)]
  simp only [Nat.add_sub_cancel]
  rw [shlM_ok b hw]
  simp only
  rw [subM_ok b (by omega)]
  simp only
  rw [mulM_ok b (by omega)]
  simp only
  rw [addM_ok b (by omega)]
  simp only
  have key : ∀ q, q / 2 = 0 → (∃ e, (Except.bind (shrM b (q / 2) 0) fun w => Except.bind (mulM b w ((0 + 1 - 2 ^ 0) * 2 + 1)) fun y =>
      Except.bind (addM b (y >>> 1) (q / 2)) fun x => Except.bind (addM b n 1) fun n1 => Except.bind (subM b y (x - n1)) fun r =>
        subM b r 1) = .error e) ∨ (Except.bind (shrM b (q / 2) 0) fun w => Except.bind (mulM b w ((0 + 1 - 2 ^ 0) * 2 + 1)) fun y =>
      Except.bind (addM b (y >>> 1) (q / 2)) fun x => Except.bind (addM b n 1) fun n1 => Except.bind (subM b y (x - n1)) fun r =>
        subM b r 1) = .ok usizeMax := by
    intro q hq
    rw [hq, shrM_ok b hw]
    simp only [Except.bind, Nat.zero_shiftRight]
    rw [mulM_ok b (by omega)]
    simp only [Nat.zero_mul, Nat.zero_shiftRight]
    rw [addM_ok b (by omega)]
    simp only [Nat.zero_add]
    cases hadd : addM b n 1 with
    | error e => exact .inl ⟨e, rfl⟩
    | ok n1 =>
      simp only [Nat.zero_sub]
      rw [subM_ok b (by omega)]
      simp only [Nat.sub_zero]
      unfold subM
      rw [if_neg (by omega)]
      cases b
      · exact .inl ⟨_, rfl⟩
      · refine .inr ?_
        simp only [Nat.zero_add]
        rw [Nat.mod_eq_of_lt (by omega)]
        rfl
  cases hadd : addM b n 2 with
  | error e => exact .inl ⟨e, rfl⟩
  | ok n2 =>
    simp only
    by_cases h2 : n + 2 ≤ usizeMax
    · rw [addM_ok b h2] at hadd
      cases hadd
      obtain ⟨q, ⟨hq, hq0⟩ | ⟨e, he⟩⟩ := hz
      · rw [hq]; exact key q hq0
      · rw [he]; exact .inl ⟨e, rfl⟩
    · have hsmall : nextPow2M b n2 = .ok 1 := by
        unfold addM at hadd
        rw [if_neg h2] at hadd
        cases b
        · cases hadd
        · have hlt : (n + 2) % 2 ^ Target.width ≤ 1 := by
            have : (n + 2) % 2 ^ Target.width = n + 2 - 2 ^ Target.width := by
              rw [Nat.mod_eq_sub_mod (by omega), Nat.mod_eq_of_lt (by omega)]
            omega
          simp only [Except.ok.injEq] at hadd
          rw [← hadd]
          have : nextPow2 ((n + 2) % 2 ^ Target.width) = 1 := by unfold nextPow2; rw [if_pos hlt]
          unfold nextPow2M
          rw [this, if_pos (by omega)]
      rw [hsmall]
      exact key 1 rfl

/-- **C09** (the limit is exact).  A slice that is longer can only have elements without size; laying it out panics, with overflow checks (an addition
overflows) as well as without (an element out of bounds is swapped). -/
theorem c09_layout_iff [Target] (b : Build) (xs : List T) (h0 : xs ≠ []) (hmax : xs.length ≤ usizeMax) :
    (∃ ys, eytzingerLayoutM b xs = .ok ys) ↔ xs.length + 2 ≤ allocLimit := by
  constructor
  · rintro ⟨ys, h⟩
    by_contra hn
    have hpos := List.length_pos_iff.2 h0
    unfold eytzingerLayoutM at h
    obtain ⟨k, hk⟩ : ∃ k, xs.length = k + 1 := ⟨xs.length - 1, by omega⟩
    rw [hk] at h
    unfold layoutLoopM layoutStepM at h
    simp only [bind, Except.bind] at h
    rcases indexM_zero_big b (by omega) hmax with ⟨e, he⟩ | he
    · rw [he] at h; cases h
    · rw [he] at h
      have hr : relocate usizeMax 0 [] = .ok (usizeMax, []) := by unfold relocate; rw [if_neg (by omega)]
      have hs : swap xs 0 usizeMax = .error (.panic "index out of bounds") := by
        unfold swap
        simp only [bind, Except.bind]
        have h1 : idx xs 0 = .ok xs[0] := by unfold idx; rw [List.getElem?_eq_getElem hpos]
        have h2 : idx xs usizeMax = .error (.panic "index out of bounds") := by
          unfold idx; rw [List.getElem?_eq_none hmax]
        rw [h1, h2]
      simp only [hr, hs] at h
      cases h
  · intro hn
    rw [c09_no_overflow b xs hn]
    obtain ⟨ys, h, _⟩ := c09_layout xs
    exact ⟨ys, h⟩

/-- **C10** (overflow).  With overflow checks, no search in a slice of at most that length panics. -/
theorem c10_no_overflow [Target] (data : List T) (f : T → Ordering) (hn : data.length + 2 ≤ allocLimit) :
    searchLoopChecked data f 0 = .ok (eytzingerSearchBy data f) := by
  have key : ∀ (k i steps : Nat), data.length - i ≤ k → searchLoopChecked data f i = .ok (searchLoop data f i steps).1 := by
    intro k
    induction k with
    | zero =>
      intro i steps hk
      unfold searchLoopChecked searchLoop
      rw [dif_neg (by omega), dif_neg (by omega)]
    | succ k ih =>
      intro i steps hk
      unfold searchLoopChecked searchLoop
      by_cases h : i < data.length
      · rw [dif_pos h, dif_pos h]
        have hb : orderBit (f data[i]) ≤ 1 := by cases f data[i] <;> decide
        obtain ⟨hA, hU⟩ := allocLimit_eq
        simp only
        split
        · rfl
        · rw [if_pos (by omega)]
          exact ih _ _ (by omega)
      · rw [dif_neg h, dif_neg h]
  exact key _ 0 0 (Nat.le_refl _)

attribute [local instance] w32 in
example : eytzingerLayoutM .release [10, 20, 30, 40, 50, 60] = .ok [40, 20, 60, 10, 30, 50] := by decide +kernel

attribute [local instance] w32 in
/-- Slices of the unit type can be longer than the limit. -/
example (xs : List Unit) (hx : xs.length = 2147483647) : ∃ e, eytzingerLayoutM .debug xs = .error e := by
  cases h : eytzingerLayoutM .debug xs with
  | error e => exact ⟨e, rfl⟩
  | ok ys =>
    have h0 : xs ≠ [] := by rintro rfl; simp at hx
    have h1 := (c09_layout_iff .debug xs h0 (by rw [hx]; decide)).1 ⟨ys, h⟩
    rw [hx] at h1
    exact absurd h1 (by decide)

end Frozen.Props
