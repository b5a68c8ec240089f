import Verif.Lemmas.SliceOptimal
import Verif.Props.Slices

/-!
# Property theorem: the selected sub-slice is as short as possible (C53)
-/

namespace Frozen.Props

open Frozen.Spec Frozen.Model

variable {T : Type}

/-- The elements at positions `lo..hi`, counted from the left or from the right end. -/
def part (left : Bool) (lo hi : Nat) (s : List T) : List T := if left then leftPart lo hi s else rightPart lo hi s

/-- Hashing the part `lo..hi` is possible for all keys and good enough: it yields at most 5% duplicate hash codes. -/
def Adequate (bh : List T → Nat) (keys : List (List T)) (left : Bool) (lo hi : Nat) : Prop :=
  lo < hi ∧ (∀ k ∈ keys, hi ≤ k.length) ∧
    keys.length ≤ distinctCount (keys.map (fun k => bh (part left lo hi k))) + keys.length / 20

/-- The hash function does not collide on corresponding parts of the given keys. -/
def NoPartCollisions (bh : List T → Nat) (keys : List (List T)) : Prop :=
  ∀ left lo hi, (∀ k ∈ keys, hi ≤ k.length) → ∀ s ∈ keys, ∀ t ∈ keys,
    bh (part left lo hi s) = bh (part left lo hi t) → part left lo hi s = part left lo hi t

theorem part_sub (left : Bool) {lo hi : Nat} (h : lo ≤ hi) {s : List T} (hs : hi ≤ s.length) :
    part left lo hi s = subOf left lo (hi - lo) s := by
  cases left with
  | true => exact (leftPart_eq lo hi s h).symm
  | false => exact (rightPart_eq lo hi s h hs).symm

theorem leftPart_split {lo p hi : Nat} (h1 : lo ≤ p) (h2 : p ≤ hi) (s : List T) :
    leftPart lo hi s = leftPart lo p s ++ leftPart p hi s := by
  unfold leftPart
  simp only [List.drop_take]
  have e : s.drop p = (s.drop lo).drop (p - lo) := by rw [List.drop_drop]; congr 1; omega
  rw [e]
  have e2 : hi - lo = (p - lo) + (hi - p) := by omega
  rw [e2, List.take_add]

theorem leftPart_congr {lo p hi : Nat} (h2 : p ≤ hi) {s t : List T} (hp : s.take p = t.take p)
    (h : leftPart (max lo p) hi s = leftPart (max lo p) hi t) : leftPart lo hi s = leftPart lo hi t := by
  by_cases h1 : lo ≤ p
  · rw [Nat.max_eq_right h1] at h
    rw [leftPart_split h1 h2, leftPart_split h1 h2 t, h]
    unfold leftPart
    rw [hp]
  · rw [Nat.max_eq_left (by omega)] at h
    exact h

theorem leftPart_within {lo p hi : Nat} (h2 : hi ≤ p) {s t : List T} (hp : s.take p = t.take p) :
    leftPart lo hi s = leftPart lo hi t := by
  unfold leftPart
  have := congrArg (List.take hi) hp
  rw [List.take_take, List.take_take, Nat.min_eq_left h2] at this
  rw [this]

theorem take_eq_of_agree {eqT : T → T → Bool} (heq : ∀ a b, eqT a b = true ↔ a = b) {k0 s t : List T} {p : Nat}
    (hs : ∀ j, j < p → ∃ a c, s[j]? = some a ∧ k0[j]? = some c ∧ eqT a c = true)
    (ht : ∀ j, j < p → ∃ a c, t[j]? = some a ∧ k0[j]? = some c ∧ eqT a c = true) : s.take p = t.take p := by
  apply List.ext_getElem?
  intro j
  rw [List.getElem?_take, List.getElem?_take]
  split
  · rename_i hj
    obtain ⟨a, c, h1, h2, h3⟩ := hs j hj
    obtain ⟨a', c', h1', h2', h3'⟩ := ht j hj
    rw [h2] at h2'
    cases h2'
    rw [h1, h1', (heq _ _).1 h3, (heq _ _).1 h3']
  · rfl

/-- A right part of a key of length `n`, seen from the left. -/
theorem rightPart_left {lo hi n : Nat} (h : lo ≤ hi) {s : List T} (hn : s.length = n) (hhi : hi ≤ n) :
    part false lo hi s = part true (n - hi) (n - lo) s := by
  rw [part_sub false h (by omega), part_sub true (by omega) (by omega)]
  simp only [subOf, Bool.false_eq_true, if_false, if_true]
  congr 1
  · omega
  · congr 1; omega

/-- The parts that remain after cutting off what all keys have in common are adequate too. -/
theorem adequate_cut {bh : List T → Nat} {keys : List (List T)} (hbh : NoPartCollisions bh keys)
    (hn : 2 ≤ keys.length) (left : Bool) {p lo hi : Nat} (had : Adequate bh keys left lo hi)
    (hp : ∀ s ∈ keys, ∀ t ∈ keys,
      (if left then s else s.reverse).take p = (if left then t else t.reverse).take p) :
    p < hi ∧ Adequate bh keys left (max lo p) hi := by
  obtain ⟨h1, h2, h3⟩ := had
  have hpart : ∀ lo hi (s : List T), part left lo hi s = if left then leftPart lo hi (if left then s else s.reverse)
      else (leftPart lo hi (if left then s else s.reverse)).reverse := by
    intro lo hi s
    cases left <;> rfl
  have hcut : p < hi := by
    apply Nat.lt_of_not_le
    intro hle
    have : distinctCount (keys.map (fun k => bh (part left lo hi k))) ≤ 1 := by
      apply distinctCount_const
      intro s hs t ht
      rw [hpart, hpart, leftPart_within hle (hp s hs t ht)]
    omega
  refine ⟨hcut, by omega, h2, h3.trans (Nat.add_le_add_right (distinctCount_le keys _ _ ?_) _)⟩
  intro s hs t ht he
  have := hbh left (max lo p) hi h2 s hs t ht he
  rw [hpart, hpart] at this
  rw [hpart, hpart lo hi t]
  have h4 : leftPart (max lo p) hi (if left then s else s.reverse) = leftPart (max lo p) hi (if left then t else t.reverse) := by
    cases left with
    | true => simpa using this
    | false => simpa using this
  rw [leftPart_congr (by omega) (hp s hs t ht) h4]

/-- **C53.** If the hash function does not collide on the key parts, the analysis selects a part of minimal length: a
selected range is no longer than any adequate range, counted from either end; and if it falls back to hashing whole keys
then every adequate range is longer than 16 elements or is the whole key. -/
theorem c53_shortest_subslice [Target] {eqT : T → T → Bool} (heq : ∀ a b, eqT a b = true ↔ a = b) {bh : List T → Nat}
    {keys : List (List T)} (hbh : NoPartCollisions bh keys) (hlen : ∀ k ∈ keys, k.length ≤ usizeMax) :
    ∃ r, analyzeSliceKeys eqT bh keys = .ok r ∧
      (∀ rg, r = .left rg ∨ r = .right rg → ∀ left lo hi, Adequate bh keys left lo hi → rg.hi - rg.lo ≤ hi - lo) ∧
      (r = .general → ∀ left lo hi, Adequate bh keys left lo hi →
        16 < hi - lo ∨ (lo = 0 ∧ ∀ k ∈ keys, k.length = hi)) := by
  obtain ⟨r, h1, -, hleft, hright⟩ := analyzeSliceKeys_spec eqT bh keys
  refine ⟨r, h1, ?_⟩
  have hlens := lengthsLoop_spec (keys.length / acceptableDuplicateRatio) keys [] (fun _ => 0) (by simp) (by simp)
  unfold analyzeSliceKeys at h1
  rcases hlens.1 with hl | hl
  · have hl' : analyzeLengths keys = .length := hl
    rw [hl'] at h1
    cases h1
    simp
  · have hl' : analyzeLengths keys = .general := hl
    rw [hl'] at h1
    simp only at h1
    have hn : 2 ≤ keys.length := by
      apply Nat.le_of_not_lt
      intro hlt
      have : lengthsLoop (keys.length / acceptableDuplicateRatio) keys [] = .length := by
        rw [hlens.2]
        intro n
        have := List.length_filter_le (fun s : List T => s.length == n) keys
        omega
      rw [hl] at this
      cases this
    have hh : keys.head? = some (keys.headD []) ∨ keys = [] := by cases keys <;> simp
    obtain ⟨st, hst, _, _, hmm⟩ := statsLoop_spec eqT (keys.headD []) keys
      { minLen := usizeMax, maxLen := 0, prefixLen := usizeMax, suffixLen := usizeMax } (Or.inr hh) (Or.inr hh)
    obtain ⟨-, -, hpre, hsuf, hmin, hmax⟩ := statsLoop_agree eqT _ keys _ st hst
    unfold analyzeSubslices at h1
    simp only [hst, bind, Except.bind] at h1
    -- the shortest key
    obtain ⟨k0, hk0⟩ := List.exists_mem_of_length_pos (show 0 < keys.length by omega)
    obtain ⟨km, hkm, hkml⟩ : ∃ s ∈ keys, s.length = st.minLen := by
      rcases hmin with h | h
      · simp only at h
        exact ⟨k0, hk0, by have := hlen k0 hk0; have := (hmm k0 hk0).1; omega⟩
      · exact h
    have key := subLenLoop_min bh keys st _ _ (Nat.min_le_left _ _) (fun s hs => (hmm s hs).1) 1 r h1
    -- every adequate range gives a candidate that is not longer
    have cand : ∀ left lo hi, Adequate bh keys left lo hi → hi - lo ≤ 16 →
        (∃ rg, (r = .left rg ∨ r = .right rg) ∧ rg.hi - rg.lo ≤ hi - lo) ∨ (r = .general ∧ st.maxLen ≤ hi - lo) := by
      have mainL : ∀ left lo hi, (left = false → st.minLen ≠ st.maxLen) → Adequate bh keys left lo hi → hi - lo ≤ 16 →
          (∃ rg, (r = .left rg ∨ r = .right rg) ∧ rg.hi - rg.lo ≤ hi - lo) ∨ (r = .general ∧ st.maxLen ≤ hi - lo) := by
        intro left lo hi hd had h16
        have hagree : ∀ s ∈ keys, ∀ t ∈ keys,
            (if left then s else s.reverse).take (if left then st.prefixLen else st.suffixLen) =
              (if left then t else t.reverse).take (if left then st.prefixLen else st.suffixLen) := by
          intro s hs t ht
          cases left with
          | true => exact take_eq_of_agree heq (hpre s hs) (hpre t ht)
          | false => exact take_eq_of_agree (k0 := (keys.headD []).reverse) heq (hsuf s hs) (hsuf t ht)
        obtain ⟨hcut, h3, h4, h5⟩ := adequate_cut hbh hn left had hagree
        generalize hp : (if left then st.prefixLen else st.suffixLen) = p at *
        have hhi := h4 km hkm
        have he : EnoughUnique bh keys (keys.length / acceptableDuplicateRatio) left (max lo p) (hi - max lo p) := by
          unfold EnoughUnique
          have e : keys.map (fun s => bh (subOf left (max lo p) (hi - max lo p) s)) =
              keys.map (fun k => bh (part left (max lo p) hi k)) := by
            apply List.map_congr_left
            intro k hk
            rw [part_sub left (by omega) (h4 k hk)]
          rw [e]
          exact h5
        have hlo := had.1
        rcases key left (max lo p) (hi - max lo p) (by omega)
          (by unfold maxSubsliceLengthLimit; omega) (by rw [hp]; omega) (by omega) hd he with ⟨rg, g1, g2⟩ | ⟨g1, g2⟩
        · exact .inl ⟨rg, g1, by omega⟩
        · exact .inr ⟨g1, by omega⟩
      intro left lo hi had h16
      by_cases hd : left = false → st.minLen ≠ st.maxLen
      · exact mainL left lo hi hd had h16
      · have hf : left = false := by cases left <;> simp_all
        have heq' : st.minLen = st.maxLen := by
          apply Decidable.byContradiction
          intro h
          exact hd (fun _ => h)
        subst hf
        obtain ⟨h3, h4, h5⟩ := had
        have hall : ∀ k ∈ keys, k.length = st.minLen := fun k hk => by have := hmm k hk; omega
        have hhi := h4 km hkm
        have e : keys.map (fun k => bh (part false lo hi k)) =
            keys.map (fun k => bh (part true (st.minLen - hi) (st.minLen - lo) k)) := by
          apply List.map_congr_left
          intro k hk
          rw [rightPart_left (by omega) (hall k hk) (by omega)]
        rw [e] at h5
        have e2 : st.minLen - lo - (st.minLen - hi) = hi - lo := by omega
        have := mainL true (st.minLen - hi) (st.minLen - lo) (by simp)
          ⟨by omega, fun k hk => by rw [hall k hk]; omega, h5⟩ (by omega)
        rw [e2] at this
        exact this
    refine ⟨fun rg hrg left lo hi had => ?_, fun hg left lo hi had => ?_⟩
    · by_cases h16 : hi - lo ≤ 16
      · rcases cand left lo hi had h16 with ⟨rg', g1, g2⟩ | ⟨g1, g2⟩
        · have : rg' = rg := by
            rcases hrg with rfl | rfl <;> rcases g1 with g1 | g1 <;> cases g1 <;> rfl
          rw [← this]; exact g2
        · rcases hrg with rfl | rfl <;> cases g1
      · have : rg.hi - rg.lo ≤ maxSubsliceLengthLimit := by
          rcases hrg with h | h
          · exact (hleft rg h).2.1
          · exact (hright rg h).2.1
        unfold maxSubsliceLengthLimit at this
        omega
    · by_cases h16 : hi - lo ≤ 16
      · right
        rcases cand left lo hi had h16 with ⟨rg', g1, g2⟩ | ⟨g1, g2⟩
        · rw [hg] at g1
          rcases g1 with g1 | g1 <;> cases g1
        · have h3 := had.2.1 km hkm
          have h4 := (hmm km hkm).2
          have h5 := had.1
          refine ⟨by omega, fun k hk => ?_⟩
          have := hmm k hk
          omega
      · left; omega

/-- The hash used in the examples reads the whole part. -/
def wholeHash (s : List Nat) : Nat := s.foldl (fun h x => 256 * h + x) 1

attribute [local instance] w64 in
/-- Two positions are needed here: neither position alone separates the keys, whichever end one counts from. -/
example : analyzeSliceKeys (fun a b => a == b) wholeHash [[9, 1, 1, 7], [9, 1, 2, 7], [9, 2, 1, 7], [9, 2, 2, 7]] =
    .ok (.left ⟨1, 3⟩) := by cbv
example : Adequate wholeHash [[9, 1, 1, 7], [9, 1, 2, 7], [9, 2, 1, 7], [9, 2, 2, 7]] false 1 3 := by
  unfold Adequate; decide
/-- The hypothesis of `c53_shortest_subslice` holds for these keys. -/
example : NoPartCollisions wholeHash [[9, 1, 1, 7], [9, 1, 2, 7], [9, 2, 1, 7], [9, 2, 2, 7]] := by
  have key : ∀ left, ∀ hi < 5, ∀ lo < 5, ∀ s ∈ [[9, 1, 1, 7], [9, 1, 2, 7], [9, 2, 1, 7], [9, 2, 2, 7]],
      ∀ t ∈ [[9, 1, 1, 7], [9, 1, 2, 7], [9, 2, 1, 7], [9, 2, 2, 7]],
      wholeHash (part left lo hi s) = wholeHash (part left lo hi t) → part left lo hi s = part left lo hi t := by decide
  intro left lo hi h s hs t ht
  have h4 : hi < 5 := Nat.lt_succ_of_le (h [9, 1, 1, 7] (by simp))
  by_cases hlo : lo < 5
  · exact key left hi h4 lo hlo s hs t ht
  · have e : ∀ s : List Nat, part left lo hi s = [] := by
      intro s
      have h1 : ∀ u : List Nat, (u.take hi).drop lo = [] := fun u => List.drop_eq_nil_of_le (by simp; omega)
      cases left
      · simp [part, rightPart, h1]
      · simp [part, leftPart, h1]
    intro _
    rw [e, e]
attribute [local instance] w64 in
/-- The whole keys are needed. -/
example : analyzeSliceKeys (fun a b => a == b) wholeHash [[1, 1], [1, 2], [2, 1], [2, 2]] = .ok .general := by cbv

end Frozen.Props
