import Verif.Lemmas.HashAnalyzer
import Verif.Props.SizeSpec

/-! # The size found by the hash code analysis, exactly -/

namespace Frozen.Props

open Frozen.Model

theorem crowded_eq (codes : List Nat) (s : Nat) : crowded codes s = collisions s codes := rfl

theorem tolerated_succ_le (n i : Nat) : tolerated n (i + 1) ≤ tolerated n i := by
  show tolerated n i / 100 * 20 ≤ tolerated n i
  omega

theorem tolerated_anti (n : Nat) {i j : Nat} (h : i ≤ j) : tolerated n j ≤ tolerated n i := by
  induction h with
  | refl => exact Nat.le_refl _
  | step _ ih => exact (tolerated_succ_le n _).trans ih

theorem shrink_eq (a : Nat) : (if a > 0 then a / 100 * 20 else a) = a / 100 * 20 := by
  split <;> omega

theorem analyzeLoop_exact (codes : List Nat) (hne : codes ≠ []) (lo hi : Nat) :
    ∀ (d i : Nat) (tbl : BitSet) (bestSlots bestColl : Nat), d = hi + 1 - (lo + i) → lo ≤ hi → tbl.WF → tbl.len = 2 ^ hi →
      (i = 0 → bestSlots = 0 ∧ bestColl = codes.length) → (i ≠ 0 → bestSlots = 2 ^ lo ∧ bestColl = crowded codes (2 ^ lo)) →
      (∀ j < i, ¬ SizeAdequate codes lo j) →
      ∃ s, analyzeLoop codes (2 ^ hi) tbl bestSlots bestColl (tolerated codes.length i) (2 ^ (lo + i)) = .ok (s, crowded codes s) ∧
        BestSize codes lo hi s := by
  intro d
  induction d with
  | zero =>
    intro i tbl bestSlots bestColl hd hle hwf hlen h0 h1 hbad
    have hi0 : i ≠ 0 := by omega
    have hgt : ¬ (2 ^ (lo + i) ≤ 2 ^ hi) := by
      rw [Nat.pow_le_pow_iff_right (by omega)]; omega
    unfold analyzeLoop
    rw [if_neg hgt, (h1 hi0).1, (h1 hi0).2]
    exact ⟨_, rfl, .inr ⟨rfl, fun j hj => hbad j (by omega)⟩⟩
  | succ d ih =>
    intro i tbl bestSlots bestColl hd hle hwf hlen h0 h1 hbad
    have hk : lo + i ≤ hi := by omega
    have hple : 2 ^ (lo + i) ≤ 2 ^ hi := Nat.pow_le_pow_right (by omega) hk
    have hpos : 0 < 2 ^ (lo + i) := Nat.pow_pos (by omega)
    obtain ⟨tbl', c, g1, g2, g3, g4, g5, g6, g6', g7⟩ :=
      countCollisions_spec (2 ^ (lo + i)) bestColl hpos codes tbl.clearAll 0 ∅ (BitSet.clearAll_wf hwf)
        (by simpa [BitSet.clearAll, hlen] using hple) (by intro s; simp [BitSet.clearAll_mem])
    have hcard := slotSet_card_le (2 ^ (lo + i)) codes
    simp only [Finset.empty_union, Finset.card_empty, Nat.zero_add, Nat.add_zero] at g6 g6'
    have hcr : crowded codes (2 ^ (lo + i)) = codes.length - (slotSet (2 ^ (lo + i)) codes).card := rfl
    have hlen' : tbl'.len = 2 ^ hi := by rw [g3]; simpa [BitSet.clearAll] using hlen
    have hkpow : nextPow2 (2 ^ (lo + i) + 1) = 2 ^ (lo + (i + 1)) := nextPow2_two_pow_succ (lo + i)
    unfold analyzeLoop
    rw [if_pos hple, g1]
    simp only [bind, Except.bind, hkpow, shrink_eq]
    have htol : tolerated codes.length i / 100 * 20 = tolerated codes.length (i + 1) := rfl
    rw [htol]
    by_cases hc : c < bestColl
    · rw [if_pos hc]
      have hcc : c = crowded codes (2 ^ (lo + i)) := by have := g6 hc; omega
      by_cases hacc : c ≤ tolerated codes.length i
      · simp only [hacc, or_true, if_true]
        refine ⟨2 ^ (lo + i), by rw [hcc], .inl ⟨i, hk, rfl, ?_, hbad⟩⟩
        unfold SizeAdequate; omega
      · rw [if_neg hacc]
        simp only [hacc, or_false]
        have hbad' : ∀ j < i + 1, ¬ SizeAdequate codes lo j := by
          intro j hj
          rcases Nat.lt_or_ge j i with h | h
          · exact hbad j h
          · have : j = i := by omega
            subst this; unfold SizeAdequate; omega
        by_cases hi0 : i = 0
        · subst hi0
          obtain ⟨hb0, -⟩ := h0 rfl
          simp only [hb0, if_true]
          exact ih 1 tbl' _ _ (by omega) hle g2 hlen' (by omega) (fun _ => ⟨rfl, hcc⟩) hbad'
        · obtain ⟨hb1, hb2⟩ := h1 hi0
          have hb0 : bestSlots ≠ 0 := by rw [hb1]; have : 0 < 2 ^ lo := Nat.pow_pos (by omega); omega
          simp only [hb0, if_false]
          exact ih (i + 1) tbl' _ _ (by omega) hle g2 hlen' (by omega) (fun _ => ⟨hb1, hb2⟩) hbad'
    · rw [if_neg hc]
      have hi0 : i ≠ 0 := by
        intro h
        have := g7 rfl hne
        have := (h0 h).2
        omega
      obtain ⟨hb1, hb2⟩ := h1 hi0
      have hbad' : ∀ j < i + 1, ¬ SizeAdequate codes lo j := by
        intro j hj
        rcases Nat.lt_or_ge j i with h | h
        · exact hbad j h
        · have : j = i := by omega
          subst this
          have h0' := hbad 0 (by omega)
          have := tolerated_anti codes.length (Nat.zero_le j)
          unfold SizeAdequate at h0' ⊢
          rw [Nat.add_zero] at h0'
          omega
      exact ih (i + 1) tbl' _ _ (by omega) hle g2 hlen' (by omega) (fun _ => ⟨hb1, hb2⟩) hbad'

theorem leastPow_unique {n k k' : Nat} (h : LeastPow n k) (h' : LeastPow n k') : k = k' :=
  Nat.le_antisymm (h.least _ h'.le) (h'.least _ h.le)

theorem roundPow2_least {n k : Nat} (hn : 1 ≤ n) (h : LeastPow n k) : roundPow2 n = 2 ^ k := by
  obtain ⟨k', h1, h2, h3⟩ := roundPow2_spec n hn
  have : LeastPow n k' := ⟨h2, fun j hj => by
    by_contra hlt
    have : 2 ^ (j + 1) ≤ 2 ^ k' := Nat.pow_le_pow_right (by omega) (by omega)
    rw [Nat.pow_succ] at this
    omega⟩
  rw [h1, leastPow_unique this h]

theorem bestSize_unique {codes : List Nat} {lo hi s s' : Nat} (h : BestSize codes lo hi s) (h' : BestSize codes lo hi s') : s = s' := by
  rcases h with ⟨i, h1, rfl, h3, h4⟩ | ⟨rfl, h2⟩ <;> rcases h' with ⟨j, g1, rfl, g3, g4⟩ | ⟨rfl, g2⟩
  · rcases Nat.lt_trichotomy i j with h | h | h
    · exact absurd h3 (g4 i h)
    · rw [h]
    · exact absurd g3 (h4 j h)
  · exact absurd h3 (g2 i h1)
  · exact absurd g3 (h2 j g1)
  · rfl

theorem analyzeHashCodes_exact [Target] {codes : List Nat} (hne : codes ≠ []) (hsz : codes.length < sizeLimit) {lo hi : Nat}
    (hlo : LeastPow (codes.length - tolerated codes.length 0) lo) (hhi : LeastPow (growthLimit codes.length * codes.length) hi) :
    ∃ s, analyzeHashCodes codes = .ok (s, crowded codes s) ∧ BestSize codes lo hi s := by
  have hn : 1 ≤ codes.length := List.length_pos_iff.2 hne
  have hacc : (if codes.length < 128 then 0 else codes.length / 100 * 5) = tolerated codes.length 0 := rfl
  have hacc1 : 20 * tolerated codes.length 0 ≤ codes.length := by
    rw [← hacc]; split <;> omega
  have hg : 3 ≤ growthLimit codes.length := by unfold growthLimit; split_ifs <;> omega
  have h3 : 3 * codes.length ≤ growthLimit codes.length * codes.length := Nat.mul_le_mul_right _ hg
  have hle : lo ≤ hi := hlo.least _ (by have := hhi.le; omega)
  obtain ⟨s, e1, e2⟩ := analyzeLoop_exact codes hne lo hi _ 0 (BitSet.withCapacity (2 ^ hi)) 0 codes.length rfl hle
    (BitSet.withCapacity_wf _) rfl (fun _ => ⟨rfl, rfl⟩) (fun h => absurd rfl h) (fun j hj => by omega)
  refine ⟨s, ?_, e2⟩
  unfold analyzeHashCodes
  simp only [hacc]
  unfold csub
  rw [if_pos (by omega)]
  have hmul : cmul codes.length (if codes.length < 128 then 10 else if codes.length < 1000 then 7 else 3)
      = .ok (growthLimit codes.length * codes.length) := by
    have hu := target_cases
    unfold growthLimit cmul
    rw [if_pos (by split_ifs <;> omega), Nat.mul_comm]
  rw [hmul]
  simp only [bind, Except.bind]
  rw [roundPow2_least (by omega) hlo, roundPow2_least (by omega) hhi]
  exact e1

theorem leastPow_exists (n : Nat) (hn : 1 ≤ n) : ∃ k, LeastPow n k := by
  obtain ⟨k', h1, h2, h3⟩ := roundPow2_spec n hn
  exact ⟨k', h2, fun j hj => by
    by_contra hlt
    have : 2 ^ (j + 1) ≤ 2 ^ k' := Nat.pow_le_pow_right (by omega) (by omega)
    rw [Nat.pow_succ] at this
    omega⟩

end Frozen.Props
