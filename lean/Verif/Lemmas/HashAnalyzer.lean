import Verif.Model.HashAnalyzer
import Verif.Lemmas.Arith
import Mathlib.Data.Finset.Card
import Mathlib.Data.Finset.Dedup
import Mathlib.Data.Finset.Lattice.Lemmas

/-!
# Helper lemmas on the bitmap and the hash code analyzer
-/

namespace Frozen.Model

/-- The set of indices a bitmap contains. -/
def BitSet.mem (b : BitSet) (i : Nat) : Bool := (b.bits[i / 64]?).any (fun w => w.getLsbD (i % 64))

/-- The bitmap has enough words for its capacity. -/
def BitSet.WF (b : BitSet) : Prop := b.bits.length = (b.len + 63) / 64

theorem BitSet.withCapacity_wf (n : Nat) : (BitSet.withCapacity n).WF := by
  simp [BitSet.WF, BitSet.withCapacity]

theorem BitSet.clearAll_wf {b : BitSet} (h : b.WF) : b.clearAll.WF := by
  simpa [BitSet.WF, BitSet.clearAll] using h

theorem BitSet.clearAll_mem (b : BitSet) (i : Nat) : b.clearAll.mem i = false := by
  simp only [BitSet.mem, BitSet.clearAll, List.getElem?_replicate]
  split <;> simp

theorem word_test (w : BitVec 64) (k : Nat) (hk : k < 64) :
    ((w &&& (1#64 <<< k)) != 0#64) = w.getLsbD k := by
  rw [Bool.eq_iff_iff, bne_iff_ne]
  constructor
  · intro h
    by_contra hc
    apply h
    apply BitVec.eq_of_getLsbD_eq
    intro i hi
    simp only [BitVec.getLsbD_and, BitVec.getLsbD_shiftLeft, BitVec.getLsbD_one]
    by_cases hik : i = k
    · subst hik; simp [Bool.not_eq_true _ ▸ hc]
    · rcases Nat.lt_or_ge i k with h1 | h1
      · simp [h1]
      · have : i - k ≠ 0 := by omega
        simp [this]
  · intro h he
    have : (w &&& (1#64 <<< k)).getLsbD k = true := by
      simp [h, hk]
    rw [he] at this
    simp at this

theorem word_set (w : BitVec 64) (k j : Nat) (hk : k < 64) :
    (w ||| (1#64 <<< k)).getLsbD j = ((j == k) || w.getLsbD j) := by
  simp only [BitVec.getLsbD_or, BitVec.getLsbD_shiftLeft, BitVec.getLsbD_one]
  by_cases hjk : j = k
  · subst hjk; simp [hk]
  · rcases Nat.lt_or_ge j k with h1 | h1
    · simp [h1, hjk]
    · have : j - k ≠ 0 := by omega
      simp [this, hjk]

theorem BitSet.get_ok {b : BitSet} (h : b.WF) {i : Nat} (hi : i < b.len) : b.get i = .ok (b.mem i) := by
  unfold BitSet.get BitSet.mem idx
  have hl : i / 64 < b.bits.length := by rw [h]; omega
  rw [if_pos hi, List.getElem?_eq_getElem hl]
  simp only [bind, Except.bind, Option.any_some]
  rw [word_test _ _ (by omega)]

theorem BitSet.set_ok {b : BitSet} (h : b.WF) {i : Nat} (hi : i < b.len) :
    ∃ b', b.set i = .ok b' ∧ b'.WF ∧ b'.len = b.len ∧ ∀ j, b'.mem j = (j == i || b.mem j) := by
  have hl : i / 64 < b.bits.length := by rw [h]; omega
  refine ⟨{ b with bits := b.bits.set (i / 64) (b.bits[i / 64] ||| (1#64 <<< (i % 64))) }, ?_, ?_, rfl, ?_⟩
  · unfold BitSet.set idx setIdx
    rw [if_pos hi, List.getElem?_eq_getElem hl]
    simp only [bind, Except.bind, if_pos hl]
  · simpa [BitSet.WF] using h
  · intro j
    unfold BitSet.mem
    simp only [List.getElem?_set]
    by_cases hw : i / 64 = j / 64
    · rw [if_pos hw, if_pos hl]
      rw [← hw, List.getElem?_eq_getElem hl]
      simp only [Option.any_some]
      rw [word_set _ _ _ (by omega)]
      congr 1
      rw [Bool.eq_iff_iff, beq_iff_eq, beq_iff_eq]
      omega
    · rw [if_neg hw]
      have : (j == i) = false := by
        rw [beq_eq_false_iff_ne]; rintro rfl; exact hw rfl
      rw [this, Bool.false_or]

/-- The slots used by a list of hash codes in a table of `n` slots. -/
def slotSet (n : Nat) (codes : List Nat) : Finset Nat := (codes.map (· % n)).toFinset

theorem countCollisions_spec (n best : Nat) (hn : 0 < n) :
    ∀ (rest : List Nat) (tbl : BitSet) (coll : Nat) (seen : Finset Nat), tbl.WF → n ≤ tbl.len →
      (∀ s, tbl.mem s = decide (s ∈ seen)) →
      ∃ tbl' c, countCollisions n best rest tbl coll = .ok (tbl', c) ∧ tbl'.WF ∧ tbl'.len = tbl.len ∧
        coll ≤ c ∧ c ≤ coll + rest.length ∧
        (c < best → c + (seen ∪ slotSet n rest).card = coll + rest.length + seen.card) ∧
        (c + (seen ∪ slotSet n rest).card ≤ coll + rest.length + seen.card) ∧
        (seen = ∅ → rest ≠ [] → c + 1 ≤ coll + rest.length) := by
  intro rest
  induction rest with
  | nil =>
    intro tbl coll seen hwf hlen hmem
    refine ⟨tbl, coll, rfl, hwf, rfl, Nat.le_refl _, by simp, ?_, ?_, ?_⟩
    · intro _; simp [slotSet]
    · simp [slotSet]
    · intro _ h; exact absurd rfl h
  | cons code rest ih =>
    intro tbl coll seen hwf hlen hmem
    have hlt : code % n < n := Nat.mod_lt _ hn
    unfold countCollisions cmod
    rw [if_neg (by omega)]
    simp only [bind, Except.bind]
    rw [BitSet.get_ok hwf (by omega), hmem]
    simp only
    by_cases hs : code % n ∈ seen
    · simp only [hs, decide_true, if_true]
      split
      · rename_i hbest
        refine ⟨tbl, coll + 1, rfl, hwf, rfl, by omega, by simp, ?_, ?_, ?_⟩
        · intro h; omega
        · have he : seen ∪ slotSet n (code :: rest) = seen ∪ slotSet n rest := by
            ext x
            simp only [slotSet, List.map_cons, List.toFinset_cons, Finset.mem_union, Finset.mem_insert]
            constructor
            · rintro (h | rfl | h)
              · exact .inl h
              · exact .inl hs
              · exact .inr h
            · rintro (h | h)
              · exact .inl h
              · exact .inr (.inr h)
          have h8 : (slotSet n rest).card ≤ rest.length :=
            (List.toFinset_card_le _).trans (by simp)
          have := Finset.card_union_le seen (slotSet n rest)
          rw [he]
          simp only [List.length_cons]; omega
        · intro h; rw [h] at hs; simp at hs
      · obtain ⟨tbl', c, h1, h2, h3, h4, h5, h6, h6', h7⟩ := ih tbl (coll + 1) seen hwf hlen hmem
        have he : seen ∪ slotSet n (code :: rest) = seen ∪ slotSet n rest := by
          ext x
          simp only [slotSet, List.map_cons, List.toFinset_cons, Finset.mem_union, Finset.mem_insert]
          constructor
          · rintro (h | rfl | h)
            · exact .inl h
            · exact .inl hs
            · exact .inr h
          · rintro (h | h)
            · exact .inl h
            · exact .inr (.inr h)
        refine ⟨tbl', c, h1, h2, h3, by omega, by simp; omega, ?_, ?_, ?_⟩
        · intro hc
          have := h6 hc
          rw [he, this]
          simp only [List.length_cons]; omega
        · rw [he]
          simp only [List.length_cons]; omega
        · intro h; rw [h] at hs; simp at hs
    · simp only [hs, decide_false, Bool.false_eq_true, if_false]
      obtain ⟨b', hb1, hb2, hb3, hb4⟩ := BitSet.set_ok hwf (i := code % n) (by omega)
      rw [hb1]
      simp only
      obtain ⟨tbl', c, h1, h2, h3, h4, h5, h6, h6', h7⟩ := ih b' coll (insert (code % n) seen) hb2 (by omega) (by
        intro s
        rw [hb4, hmem]
        rw [Bool.eq_iff_iff]
        simp)
      have he : seen ∪ slotSet n (code :: rest) = insert (code % n) seen ∪ slotSet n rest := by
        ext x
        simp only [slotSet, List.map_cons, List.toFinset_cons, Finset.mem_union, Finset.mem_insert]
        tauto
      rw [Finset.card_insert_of_notMem hs] at h6 h6'
      refine ⟨tbl', c, h1, h2, by omega, by omega, by simp; omega, ?_, ?_, ?_⟩
      · intro hc
        have := h6 hc
        rw [he, this]
        simp only [List.length_cons]; omega
      · rw [he]
        simp only [List.length_cons]; omega
      · intro _ _; simp only [List.length_cons]; omega

/-- The number of collisions of a list of codes in `n` slots. -/
def collisions (n : Nat) (codes : List Nat) : Nat := codes.length - (slotSet n codes).card

theorem slotSet_card_le (n : Nat) (codes : List Nat) : (slotSet n codes).card ≤ codes.length := by
  unfold slotSet
  exact (List.toFinset_card_le _).trans (by simp)

/-- What is known of the analysis when it has run until size `2^k` (exclusive) without stopping. -/
structure AnalyzeInv (codes : List Nat) (minK maxK k bestSlots bestColl : Nat) : Prop where
  range : minK ≤ k
  first : bestSlots = 0 → k = minK ∧ bestColl = codes.length
  later : bestSlots ≠ 0 → ∃ b, minK ≤ b ∧ b < k ∧ b ≤ maxK ∧ bestSlots = 2 ^ b ∧
    bestColl = collisions (2 ^ b) codes
  bad : ∀ b, minK ≤ b → b < k → b ≤ maxK → 0 < collisions (2 ^ b) codes

theorem analyzeLoop_spec (codes : List Nat) (hne : codes ≠ []) (minK maxK : Nat) :
    ∀ (d k : Nat) (tbl : BitSet) (bestSlots bestColl acceptable : Nat), d = maxK + 1 - k → minK ≤ maxK →
      tbl.WF → tbl.len = 2 ^ maxK → AnalyzeInv codes minK maxK k bestSlots bestColl →
      ∃ s c, analyzeLoop codes (2 ^ maxK) tbl bestSlots bestColl acceptable (2 ^ k) = .ok (s, c) ∧
        (∃ b, minK ≤ b ∧ b ≤ maxK ∧ s = 2 ^ b ∧ c = collisions (2 ^ b) codes) ∧
        (acceptable = 0 → 0 < c → ∀ b, minK ≤ b → b ≤ maxK → 0 < collisions (2 ^ b) codes) := by
  intro d
  induction d with
  | zero =>
    intro k tbl bestSlots bestColl acceptable hd hmm hwf hlen hinv
    have hk : maxK < k := by omega
    have hgt : ¬ (2 ^ k ≤ 2 ^ maxK) := by
      rw [Nat.pow_le_pow_iff_right (by omega)]; omega
    unfold analyzeLoop
    rw [if_neg hgt]
    have hb0 : bestSlots ≠ 0 := by
      intro h; have := (hinv.first h).1; omega
    obtain ⟨b, h1, h2, h3, h4, h5⟩ := hinv.later hb0
    refine ⟨_, _, rfl, ⟨b, h1, h3, h4, h5⟩, ?_⟩
    intro ha hc b' hb1 hb2
    exact hinv.bad b' hb1 (by omega) hb2
  | succ d ih =>
    intro k tbl bestSlots bestColl acceptable hd hmm hwf hlen hinv
    have hk : k ≤ maxK := by omega
    have hle : 2 ^ k ≤ 2 ^ maxK := Nat.pow_le_pow_right (by omega) hk
    have hpos : 0 < 2 ^ k := Nat.pow_pos (by omega)
    obtain ⟨tbl', c, h1, h2, h3, h4, h5, h6, h6', h7⟩ :=
      countCollisions_spec (2 ^ k) bestColl hpos codes tbl.clearAll 0 ∅ (BitSet.clearAll_wf hwf)
        (by simpa [BitSet.clearAll, hlen] using hle) (by intro s; simp [BitSet.clearAll_mem])
    have hcard := slotSet_card_le (2 ^ k) codes
    simp only [Finset.empty_union, Finset.card_empty, Nat.zero_add, Nat.add_zero] at h6 h6'
    have hcoll : c < bestColl → c = collisions (2 ^ k) codes := by
      intro h
      have := h6 h
      unfold collisions
      omega
    have hcoll' : c ≤ collisions (2 ^ k) codes := by unfold collisions; omega
    have hlen' : tbl'.len = 2 ^ maxK := by rw [h3]; simpa [BitSet.clearAll] using hlen
    have hkpow : nextPow2 (2 ^ k + 1) = 2 ^ (k + 1) := nextPow2_two_pow_succ k
    have hfirst : bestSlots = 0 → c < bestColl := by
      intro h
      have := h7 rfl hne
      have := (hinv.first h).2
      omega
    unfold analyzeLoop
    rw [if_pos hle, h1]
    simp only [bind, Except.bind, hkpow]
    by_cases hc : c < bestColl
    · rw [if_pos hc]
      have hcc := hcoll hc
      by_cases hacc : c ≤ acceptable
      · simp only [hacc, or_true, if_true]
        refine ⟨_, _, rfl, ⟨k, hinv.range, hk, rfl, hcc⟩, ?_⟩
        intro ha h0; omega
      · rw [if_neg hacc]
        have hbad : 0 < collisions (2 ^ k) codes := by omega
        have hinv' : AnalyzeInv codes minK maxK (k + 1)
            (if bestSlots = 0 ∨ c ≤ acceptable then 2 ^ k else bestSlots)
            (if bestSlots = 0 ∨ c ≤ acceptable then c else bestColl) := by
          refine ⟨by have := hinv.range; omega, ?_, ?_, ?_⟩
          · intro h
            split at h
            · omega
            · rename_i hn; exact absurd (.inl h) hn
          · intro _
            split
            · exact ⟨k, hinv.range, by omega, hk, rfl, hcc⟩
            · rename_i hn
              obtain ⟨b, g1, g2, g3, g4, g5⟩ := hinv.later (fun h => hn (.inl h))
              exact ⟨b, g1, by omega, g3, g4, g5⟩
          · intro b hb1 hb2 hb3
            rcases Nat.lt_or_ge b k with h | h
            · exact hinv.bad b hb1 h hb3
            · have : b = k := by omega
              subst this; exact hbad
        obtain ⟨s, c', e1, e2, e3⟩ := ih (k + 1) tbl' _ _
          (if acceptable > 0 then acceptable / 100 * 20 else acceptable) (by omega) hmm h2 hlen' hinv'
        exact ⟨s, c', e1, e2, fun ha => e3 (by simp [ha])⟩
    · rw [if_neg hc]
      have hb0 : bestSlots ≠ 0 := fun h => hc (hfirst h)
      obtain ⟨b, g1, g2, g3, g4, g5⟩ := hinv.later hb0
      have hbad : 0 < collisions (2 ^ k) codes := by
        have := hinv.bad b g1 g2 g3
        omega
      have hinv' : AnalyzeInv codes minK maxK (k + 1) bestSlots bestColl := by
        refine ⟨by have := hinv.range; omega, fun h => absurd h hb0, fun _ => ⟨b, g1, by omega, g3, g4, g5⟩, ?_⟩
        intro b' hb1 hb2 hb3
        rcases Nat.lt_or_ge b' k with h | h
        · exact hinv.bad b' hb1 h hb3
        · have : b' = k := by omega
          subst this; exact hbad
      obtain ⟨s, c', e1, e2, e3⟩ := ih (k + 1) tbl' _ _
        (if acceptable > 0 then acceptable / 100 * 20 else acceptable) (by omega) hmm h2 hlen' hinv'
      exact ⟨s, c', e1, e2, fun ha => e3 (by simp [ha])⟩

theorem roundPow2_spec (n : Nat) (hn : 1 ≤ n) : ∃ k, roundPow2 n = 2 ^ k ∧ n ≤ 2 ^ k ∧ 2 ^ k < 2 * n := by
  unfold roundPow2
  split
  · rename_i h
    obtain ⟨k, hk⟩ := (isPow2_iff n).1 h
    exact ⟨k, hk, by omega, by omega⟩
  · obtain ⟨k, hk⟩ := nextPow2_pow n
    have h1 := le_nextPow2 n
    have h2 := nextPow2_lt n hn
    exact ⟨k, hk, by omega, by omega⟩

/-- Table growth factor allowed for an input of `n` codes. -/
def growth (n : Nat) : Nat := if n < 128 then 10 else if n < 1000 then 7 else 3

theorem analyzeHashCodes_spec [Target] (codes : List Nat) (hne : codes ≠ []) (hsz : codes.length < sizeLimit) :
    ∃ s c minK maxK, analyzeHashCodes codes = .ok (s, c) ∧
      (∃ b, minK ≤ b ∧ b ≤ maxK ∧ s = 2 ^ b ∧ c = collisions (2 ^ b) codes) ∧
      19 * codes.length ≤ 20 * 2 ^ minK ∧
      (codes.length < 128 → codes.length ≤ 2 ^ minK ∧ 2 ^ minK < 2 * codes.length) ∧
      2 ^ maxK < 2 * (growth codes.length * codes.length) ∧ growth codes.length * codes.length ≤ 2 ^ maxK ∧
      (codes.length < 128 → 0 < c → ∀ b, minK ≤ b → b ≤ maxK → 0 < collisions (2 ^ b) codes) := by
  have hn : 1 ≤ codes.length := List.length_pos_iff.2 hne
  generalize hacc : (if codes.length < 128 then 0 else codes.length / 100 * 5) = acc
  have hacc1 : 20 * acc ≤ codes.length := by
    rw [← hacc]; split <;> omega
  obtain ⟨minK, hmin1, hmin2, hmin3⟩ := roundPow2_spec (codes.length - acc) (by omega)
  have hg : 1 ≤ growth codes.length := by unfold growth; split_ifs <;> omega
  have hg3 : 3 ≤ growth codes.length := by unfold growth; split_ifs <;> omega
  obtain ⟨maxK, hmax1, hmax2, hmax3⟩ := roundPow2_spec (growth codes.length * codes.length)
    (Nat.mul_pos hg hn)
  have hmm : minK ≤ maxK := by
    have h3 : 3 * codes.length ≤ growth codes.length * codes.length := Nat.mul_le_mul_right _ hg3
    have : 2 ^ minK ≤ 2 ^ maxK := by omega
    rwa [Nat.pow_le_pow_iff_right (by omega)] at this
  obtain ⟨s, c, e1, e2, e3⟩ := analyzeLoop_spec codes hne minK maxK _ minK
    (BitSet.withCapacity (2 ^ maxK)) 0 codes.length acc rfl hmm (BitSet.withCapacity_wf _) rfl
    ⟨Nat.le_refl _, fun _ => ⟨rfl, rfl⟩, fun h => absurd rfl h, fun b h1 h2 => by omega⟩
  refine ⟨s, c, minK, maxK, ?_, e2, by omega, ?_, hmax3, hmax2, ?_⟩
  · unfold analyzeHashCodes
    simp only [hacc]
    unfold csub
    rw [if_pos (by omega)]
    have hmul : cmul codes.length (if codes.length < 128 then 10 else if codes.length < 1000 then 7 else 3)
        = .ok (growth codes.length * codes.length) := by
      have hu := target_cases
      unfold growth cmul
      rw [if_pos (by split_ifs <;> omega), Nat.mul_comm]
    rw [hmul]
    simp only [bind, Except.bind, hmin1, hmax1]
    exact e1
  · intro h
    have : acc = 0 := by rw [← hacc, if_pos h]
    subst this
    exact ⟨by omega, by omega⟩
  · intro h
    exact e3 (by rw [← hacc, if_pos h])

end Frozen.Model
