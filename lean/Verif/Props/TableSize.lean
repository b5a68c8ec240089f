import Verif.Lemmas.AnalyzerExact
import Verif.Lemmas.Calls

/-!
# Property theorems: the size of hash tables (C68)
-/

namespace Frozen.Props

open Frozen.Spec Frozen.Model

variable {T : Type}

/-- **C68**  The analysis of hash codes returns the smallest of the considered sizes in which at most the tolerated number of codes collide, or the
smallest of all if there is none, and the number of collisions in it; and it returns nothing else. -/
theorem c68_size_iff [Target] {codes : List Nat} (hne : codes ≠ []) (hsz : codes.length < sizeLimit) {lo hi : Nat}
    (hlo : LeastPow (codes.length - tolerated codes.length 0) lo) (hhi : LeastPow (growthLimit codes.length * codes.length) hi) (s c : Nat) :
    analyzeHashCodes codes = .ok (s, c) ↔ BestSize codes lo hi s ∧ c = crowded codes s := by
  obtain ⟨s', h1, h2⟩ := analyzeHashCodes_exact hne hsz hlo hhi
  rw [h1]
  constructor
  · intro h
    cases h
    exact ⟨h2, rfl⟩
  · rintro ⟨h, rfl⟩
    rw [bestSize_unique h h2]

/-- **C68** (tables)  The tables of hash and string maps have that size. -/
theorem c68_table [Target] {cm : Magnitude} {sort : Sorter T} {entries : List T} (hne : entries ≠ []) (hsz : entries.length < sizeLimit) {hash : T → Nat}
    {t : HashTable T} (ht : HashTable.new cm sort entries hash = .ok (.ok t)) {lo hi : Nat}
    (hlo : LeastPow (entries.length - tolerated entries.length 0) lo) (hhi : LeastPow (growthLimit entries.length * entries.length) hi) :
    BestSize (entries.map hash) lo hi t.slots.length := by
  obtain ⟨c, hc⟩ := HashTable.new_slots hne ht
  exact ((c68_size_iff (by simpa using hne) (by simpa using hsz) (by simpa using hlo) (by simpa using hhi) _ _).1 hc).1

/-- Fewer than 128 codes: no collision is tolerated. -/
theorem tolerated_small {n : Nat} (hn : n < 128) (i : Nat) : tolerated n i = 0 := by
  have := tolerated_anti n (Nat.zero_le i)
  have : tolerated n 0 = 0 := by unfold tolerated; rw [if_pos hn]
  omega

/-- From the second size on no collision is tolerated, with fewer than 2000 codes. -/
theorem tolerated_medium {n : Nat} (hn : n < 2000) (i : Nat) : tolerated n (i + 1) = 0 := by
  have h1 := tolerated_anti n (Nat.le_add_left 1 i)
  have h2 : tolerated n 0 ≤ 95 := by unfold tolerated; split <;> omega
  have h3 : tolerated n 1 = tolerated n 0 / 100 * 20 := rfl
  omega

/-- **C68** (fewer than 128 keys)  The table has the smallest number of slots, among the powers of two from the number of keys to less than twenty times
that number, in which no two keys collide; if there is none, the smallest power of two that is at least the number of keys. -/
theorem c68_small [Target] {codes : List Nat} (hne : codes ≠ []) (hsz : codes.length < 128) :
    ∃ s, analyzeHashCodes codes = .ok (s, crowded codes s) ∧ ∃ k, s = 2 ^ k ∧ codes.length ≤ 2 ^ k ∧ 2 ^ k < 20 * codes.length ∧
      ((∃ j, codes.length ≤ 2 ^ j ∧ 2 ^ j < 20 * codes.length ∧ crowded codes (2 ^ j) = 0) →
        crowded codes s = 0 ∧ ∀ j < k, codes.length ≤ 2 ^ j → crowded codes (2 ^ j) ≠ 0) ∧
      ((∀ j, codes.length ≤ 2 ^ j → 2 ^ j < 20 * codes.length → crowded codes (2 ^ j) ≠ 0) → LeastPow codes.length k) := by
  have hu := target_cases
  have hn : 1 ≤ codes.length := List.length_pos_iff.2 hne
  have hg : growthLimit codes.length = 10 := by unfold growthLimit; rw [if_pos hsz]
  obtain ⟨lo, hlo⟩ := leastPow_exists codes.length hn
  obtain ⟨hi, hhi⟩ := leastPow_exists (growthLimit codes.length * codes.length) (by rw [hg]; omega)
  have hlo' : LeastPow (codes.length - tolerated codes.length 0) lo := by rw [tolerated_small hsz]; exact hlo
  obtain ⟨s, h1, h2⟩ := analyzeHashCodes_exact hne (by omega) hlo' hhi
  have hin : ∀ j, lo ≤ j → j ≤ hi → codes.length ≤ 2 ^ j ∧ 2 ^ j < 20 * codes.length := by
    intro j h3 h4
    refine ⟨hlo.le.trans (Nat.pow_le_pow_right (by omega) h3), ?_⟩
    have h5 : 2 ^ j ≤ 2 ^ hi := Nat.pow_le_pow_right (by omega) h4
    by_contra hc
    cases hi with
    | zero => simp at h5; omega
    | succ hi =>
      have := hhi.least hi (by rw [hg]; rw [Nat.pow_succ] at h5; omega)
      omega
  have hout : ∀ j, codes.length ≤ 2 ^ j → 2 ^ j < 20 * codes.length → lo ≤ j ∧ j ≤ hi := by
    intro j h3 h4
    refine ⟨hlo.least j h3, ?_⟩
    by_contra hc
    have h5 : 2 ^ (hi + 1) ≤ 2 ^ j := Nat.pow_le_pow_right (by omega) (by omega)
    have h6 := hhi.le
    rw [hg] at h6
    rw [Nat.pow_succ] at h5
    omega
  have hle : lo ≤ hi := hlo.least _ (by have := hhi.le; rw [hg] at this; omega)
  refine ⟨s, h1, ?_⟩
  rcases h2 with ⟨i, g1, rfl, g3, g4⟩ | ⟨rfl, g2⟩
  · have hz : crowded codes (2 ^ (lo + i)) = 0 := by unfold SizeAdequate at g3; rw [tolerated_small hsz] at g3; omega
    refine ⟨lo + i, rfl, (hin _ (by omega) g1).1, (hin _ (by omega) g1).2, fun _ => ⟨hz, fun j hj hl => ?_⟩, fun h => ?_⟩
    · obtain ⟨j', rfl⟩ := Nat.exists_eq_add_of_le (hlo.least j hl)
      have := g4 j' (by omega)
      unfold SizeAdequate at this
      omega
    · exact absurd hz (h _ (hin _ (by omega) g1).1 (hin _ (by omega) g1).2)
  · refine ⟨lo, rfl, hlo.le, (hin lo (Nat.le_refl _) hle).2, fun ⟨j, k1, k2, k3⟩ => ?_, fun _ => hlo⟩
    obtain ⟨j', rfl⟩ := Nat.exists_eq_add_of_le (hout j k1 k2).1
    have := g2 j' (hout _ k1 k2).2
    unfold SizeAdequate at this
    omega

/-- Two equal codes collide in every table. -/
theorem crowded_pos_of_dup {codes : List Nat} (hd : ¬ codes.Nodup) (s : Nat) : 0 < crowded codes s := by
  have h1 : ¬ (codes.map (· % s)).Nodup := fun h => hd (List.Nodup.of_map _ h)
  have h2 : ((codes.map (· % s)).toFinset).card < (codes.map (· % s)).length := by
    refine lt_of_le_of_ne (List.toFinset_card_le _) fun h => h1 ?_
    exact (nodup_iff_card _).2 h
  rw [List.length_map] at h2
  unfold crowded
  omega

/-- **C68** (equal hash codes)  Among fewer than 128 keys, two with the same hash code suffice that the smallest size is taken, however many other
collisions a larger one would avoid. -/
theorem c68_equal_codes [Target] {codes : List Nat} (hsz : codes.length < 128) (hd : ¬ codes.Nodup) :
    ∃ k, LeastPow codes.length k ∧ analyzeHashCodes codes = .ok (2 ^ k, crowded codes (2 ^ k)) := by
  have hne : codes ≠ [] := by rintro rfl; exact hd List.nodup_nil
  obtain ⟨s, h1, k, rfl, -, -, -, h6⟩ := c68_small hne hsz
  exact ⟨k, h6 fun j _ _ => by have := crowded_pos_of_dup hd (2 ^ j); omega, h1⟩

/-- **C68** (not the fewest collisions)  The size that is taken if none will do is not the one with the fewest collisions among those considered: here eight
slots with four collisions, although 64 slots, also considered, would have one. -/
theorem c68_not_fewest [T : Target] : analyzeHashCodes [0, 0, 8, 16, 24] = .ok (8, 4) ∧ crowded [0, 0, 8, 16, 24] 8 = 4 ∧
    crowded [0, 0, 8, 16, 24] 64 = 1 ∧ LeastPow (growthLimit 5 * 5) 6 := by
  refine ⟨by obtain ⟨_, rfl | rfl⟩ := T <;> decide +kernel, by decide +kernel, by decide +kernel, by decide, fun j hj => ?_⟩
  by_contra hc
  have : 2 ^ j ≤ 2 ^ 5 := Nat.pow_le_pow_right (by omega) (by omega)
  have : growthLimit 5 * 5 = 50 := by decide
  omega

/-! ## The hypotheses can be met -/

attribute [local instance] w64 in
/-- Nine codes that collide in sixteen slots and not in 32. -/
example : analyzeHashCodes [1, 17, 2, 3, 4, 5, 6, 7, 8] = .ok (32, 0) ∧ LeastPow (9 - tolerated 9 0) 4 ∧ LeastPow (growthLimit 9 * 9) 7 ∧
    BestSize [1, 17, 2, 3, 4, 5, 6, 7, 8] 4 7 32 := by
  have h1 : LeastPow (9 - tolerated 9 0) 4 := ⟨by decide, fun j hj => by
    by_contra hc
    have : 2 ^ j ≤ 2 ^ 3 := Nat.pow_le_pow_right (by omega) (by omega)
    have : tolerated 9 0 = 0 := rfl
    omega⟩
  have h2 : LeastPow (growthLimit 9 * 9) 7 := ⟨by decide, fun j hj => by
    by_contra hc
    have : 2 ^ j ≤ 2 ^ 6 := Nat.pow_le_pow_right (by omega) (by omega)
    have : growthLimit 9 * 9 = 90 := rfl
    omega⟩
  have h3 : analyzeHashCodes [1, 17, 2, 3, 4, 5, 6, 7, 8] = .ok (32, 0) := by decide +kernel
  exact ⟨h3, h1, h2, ((c68_size_iff (codes := [1, 17, 2, 3, 4, 5, 6, 7, 8]) (by simp) (by decide) h1 h2 _ _).1 h3).1⟩

/-- A table of two hundred keys, where ten collisions are tolerated in the first size and none in the second. -/
example : tolerated 200 0 = 10 ∧ tolerated 200 1 = 0 ∧ tolerated 100000 1 = 1000 ∧ tolerated 100000 2 = 200 := by decide

end Frozen.Props
