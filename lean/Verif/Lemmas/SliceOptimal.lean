import Verif.Lemmas.SliceAnalyzer
import Mathlib.Data.Finset.Card
import Mathlib.Data.Finset.Image

/-!
# Helper lemmas: the slice key analyzer finds a shortest range
-/

namespace Frozen.Model

open Frozen.Spec

variable {T : Type}

/-! ## Measurements -/

theorem prefixLoop_agree (eqT : T → T → Bool) (s k0 : List T) (p : Nat) :
    ∀ fuel i r, i + fuel = p → prefixLoop eqT s k0 p fuel i = .ok r →
      r ≤ p ∧ ∀ j, i ≤ j → j < r → ∃ a c, s[j]? = some a ∧ k0[j]? = some c ∧ eqT a c = true := by
  intro fuel
  induction fuel with
  | zero => intro i r hi h; cases h; exact ⟨Nat.le_refl _, fun j h1 h2 => by omega⟩
  | succ fuel ih =>
    intro i r hi h
    unfold prefixLoop at h
    simp only [bind, Except.bind] at h
    cases h1 : idx s i with
    | error e => rw [h1] at h; cases h
    | ok a =>
      cases h2 : idx k0 i with
      | error e => rw [h1, h2] at h; cases h
      | ok c =>
        simp only [h1, h2] at h
        split at h
        · rename_i he
          obtain ⟨g1, g2⟩ := ih (i + 1) r (by omega) h
          refine ⟨g1, fun j hj hjr => ?_⟩
          by_cases hji : j = i
          · subst hji
            refine ⟨a, c, ?_, ?_, he⟩
            · unfold idx at h1
              cases hx : s[j]? with
              | none => rw [hx] at h1; cases h1
              | some y => rw [hx] at h1; cases h1; rfl
            · unfold idx at h2
              cases hx : k0[j]? with
              | none => rw [hx] at h2; cases h2
              | some y => rw [hx] at h2; cases h2; rfl
          · exact g2 j (by omega) hjr
        · cases h
          exact ⟨by omega, fun j h1 h2 => by omega⟩

theorem idxFromEnd_eq {s : List T} {i : Nat} {x : T} (h : idxFromEnd s i = .ok x) : s.reverse[i]? = some x := by
  unfold idxFromEnd csub at h
  simp only [bind, Except.bind] at h
  by_cases h1 : i ≤ s.length
  · rw [if_pos h1] at h
    simp only at h
    by_cases h2 : 1 ≤ s.length - i
    · rw [if_pos h2] at h
      simp only at h
      unfold idx at h
      rw [List.getElem?_reverse (by omega)]
      have e : s.length - 1 - i = s.length - i - 1 := by omega
      rw [e]
      cases hx : s[s.length - i - 1]? with
      | none => rw [hx] at h; cases h
      | some y => rw [hx] at h; cases h; rfl
    · rw [if_neg h2] at h; cases h
  · rw [if_neg h1] at h; cases h

theorem suffixLoop_agree (eqT : T → T → Bool) (s k0 : List T) (p : Nat) :
    ∀ fuel i r, i + fuel = p → suffixLoop eqT s k0 p fuel i = .ok r →
      r ≤ p ∧ ∀ j, i ≤ j → j < r → ∃ a c, s.reverse[j]? = some a ∧ k0.reverse[j]? = some c ∧ eqT a c = true := by
  intro fuel
  induction fuel with
  | zero => intro i r hi h; cases h; exact ⟨Nat.le_refl _, fun j h1 h2 => by omega⟩
  | succ fuel ih =>
    intro i r hi h
    unfold suffixLoop at h
    simp only [bind, Except.bind] at h
    cases h1 : idxFromEnd s i with
    | error e => rw [h1] at h; cases h
    | ok a =>
      cases h2 : idxFromEnd k0 i with
      | error e => rw [h1, h2] at h; cases h
      | ok c =>
        simp only [h1, h2] at h
        split at h
        · rename_i he
          obtain ⟨g1, g2⟩ := ih (i + 1) r (by omega) h
          refine ⟨g1, fun j hj hjr => ?_⟩
          by_cases hji : j = i
          · subst hji
            exact ⟨a, c, idxFromEnd_eq h1, idxFromEnd_eq h2, he⟩
          · exact g2 j (by omega) hjr
        · cases h
          exact ⟨by omega, fun j h1 h2 => by omega⟩

theorem statsLoop_agree (eqT : T → T → Bool) (k0 : List T) :
    ∀ (rest : List (List T)) (st st' : SliceStats), statsLoop eqT k0 rest st = .ok st' →
      st'.prefixLen ≤ st.prefixLen ∧ st'.suffixLen ≤ st.suffixLen ∧
      (∀ s ∈ rest, ∀ j, j < st'.prefixLen → ∃ a c, s[j]? = some a ∧ k0[j]? = some c ∧ eqT a c = true) ∧
      (∀ s ∈ rest, ∀ j, j < st'.suffixLen → ∃ a c, s.reverse[j]? = some a ∧ k0.reverse[j]? = some c ∧ eqT a c = true) ∧
      (st'.minLen = st.minLen ∨ ∃ s ∈ rest, s.length = st'.minLen) ∧
      (st'.maxLen = st.maxLen ∨ ∃ s ∈ rest, s.length = st'.maxLen)
  | [], st, st', h => by
    cases h
    exact ⟨Nat.le_refl _, Nat.le_refl _, by simp, by simp, .inl rfl, .inl rfl⟩
  | s :: rest, st, st', h => by
    unfold statsLoop at h
    simp only [bind, Except.bind] at h
    cases h1 : prefixLoop eqT s k0 (if s.length < st.prefixLen then s.length else st.prefixLen)
        (if s.length < st.prefixLen then s.length else st.prefixLen) 0 with
    | error e => rw [h1] at h; cases h
    | ok p' =>
      rw [h1] at h
      simp only at h
      cases h2 : suffixLoop eqT s k0 (if s.length < st.suffixLen then s.length else st.suffixLen)
          (if s.length < st.suffixLen then s.length else st.suffixLen) 0 with
      | error e => rw [h2] at h; cases h
      | ok u' =>
        rw [h2] at h
        simp only at h
        obtain ⟨a1, a2⟩ := prefixLoop_agree eqT s k0 _ _ 0 p' (Nat.zero_add _) h1
        obtain ⟨b1, b2⟩ := suffixLoop_agree eqT s k0 _ _ 0 u' (Nat.zero_add _) h2
        obtain ⟨c1, c2, c3, c4, c5, c6⟩ := statsLoop_agree eqT k0 rest _ st' h
        simp only at c1 c2 c5 c6
        refine ⟨?_, ?_, ?_, ?_, ?_, ?_⟩
        · split at a1 <;> omega
        · split at b1 <;> omega
        · intro t ht j hj
          rcases List.mem_cons.1 ht with rfl | ht
          · exact a2 j (Nat.zero_le _) (by omega)
          · exact c3 t ht j hj
        · intro t ht j hj
          rcases List.mem_cons.1 ht with rfl | ht
          · exact b2 j (Nat.zero_le _) (by omega)
          · exact c4 t ht j hj
        · rcases c5 with c5 | ⟨t, ht, c5⟩
          · rw [c5]
            by_cases hlt : st.minLen ≤ s.length
            · left; omega
            · right; exact ⟨s, by simp, by omega⟩
          · right; exact ⟨t, by simp [ht], c5⟩
        · rcases c6 with c6 | ⟨t, ht, c6⟩
          · rw [c6]
            by_cases hlt : s.length ≤ st.maxLen
            · left; omega
            · right; exact ⟨s, by simp, by omega⟩
          · right; exact ⟨t, by simp [ht], c6⟩

/-! ## Search -/

/-- The range `j .. j + len` tells the keys apart well enough. -/
def EnoughUnique (bh : List T → Nat) (keys : List (List T)) (acc : Nat) (lj : Bool) (j len : Nat) : Prop :=
  keys.length ≤ distinctCount (keys.map (fun s => bh (subOf lj j len s))) + acc

theorem searchIndex_none (bh : List T → Nat) (keys : List (List T)) (len : Nat) (lj : Bool) (acc limit : Nat)
    (h : ∀ s ∈ keys, limit + len ≤ s.length) (i : Nat) (hn : searchIndex bh keys len lj acc limit i = .ok none) :
    ∀ j, i ≤ j → j ≤ limit → ¬EnoughUnique bh keys acc lj j len := by
  unfold searchIndex at hn
  by_cases hi : i ≤ limit
  · rw [if_pos hi] at hn
    obtain ⟨b, h1, h2⟩ := isSufficientlyUnique_spec bh keys i len lj acc (fun s hs => by have := h s hs; omega)
    simp only [h1, bind, Except.bind] at hn
    cases b with
    | true => cases hn
    | false =>
      simp only [Bool.false_eq_true, if_false] at hn
      intro j hij hj
      by_cases hji : j = i
      · subst hji
        intro hu
        exact absurd (h2.2 hu) (by decide)
      · exact searchIndex_none bh keys len lj acc limit h (i + 1) hn j (by omega) hj
  · intro j h1 h2; omega
termination_by limit + 1 - i

theorem subLenLoop_min (bh : List T → Nat) (keys : List (List T)) (st : SliceStats) (acc mx : Nat)
    (hmx : mx ≤ st.minLen) (hmin : ∀ s ∈ keys, st.minLen ≤ s.length) (len : Nat) (r : SliceAnalysis)
    (hr : subLenLoop bh keys st acc mx len = .ok r) :
    ∀ lj j len', len ≤ len' → len' ≤ mx → (if lj then st.prefixLen else st.suffixLen) ≤ j → j ≤ st.minLen - len' →
      (lj = false → st.minLen ≠ st.maxLen) → EnoughUnique bh keys acc lj j len' →
      (∃ rg, (r = .left rg ∨ r = .right rg) ∧ rg.hi - rg.lo ≤ len') ∨ (r = .general ∧ st.maxLen ≤ len') := by
  intro lj j len' hlen hlm hj hjl hdiff hu
  unfold subLenLoop at hr
  rw [if_pos (by omega)] at hr
  have hcs : csub st.minLen len = .ok (st.minLen - len) := by unfold csub; rw [if_pos (by omega)]
  simp only [hcs, bind, Except.bind] at hr
  have hlim : ∀ s ∈ keys, st.minLen - len + len ≤ s.length := fun s hs => by have := hmin s hs; omega
  rcases searchIndex_spec bh keys len true acc (st.minLen - len) hlim st.prefixLen with h1 | ⟨i, h1, hi, -⟩
  · rw [h1] at hr
    simp only at hr
    cases h2 : searchRight bh keys st acc len (st.minLen - len) with
    | error e => rw [h2] at hr; cases hr
    | ok o =>
      rw [h2] at hr
      cases o with
      | some i =>
        cases hr
        exact .inl ⟨_, .inr rfl, by simp only; omega⟩
      | none =>
        simp only at hr
        by_cases hl : len' = len
        · subst hl
          exfalso
          cases lj with
          | true => exact searchIndex_none bh keys len' true acc _ hlim _ h1 j (by simpa using hj) hjl hu
          | false =>
            unfold searchRight at h2
            rw [if_pos (hdiff rfl)] at h2
            exact searchIndex_none bh keys len' false acc _ hlim _ h2 j (by simpa using hj) hjl hu
        · exact subLenLoop_min bh keys st acc mx hmx hmin (len + 1) r hr lj j len' (by omega) hlm hj hjl hdiff hu
  · rw [h1] at hr
    simp only at hr
    split at hr
    · cases hr; exact .inr ⟨rfl, by omega⟩
    · cases hr; exact .inl ⟨_, .inl rfl, by simp only; omega⟩
termination_by mx + 1 - len

/-! ## Counting -/

/-- If `g` tells apart at least the keys that `f` tells apart, it has at least as many values. -/
theorem distinctCount_le {α : Type} (keys : List α) (f g : α → Nat)
    (h : ∀ s ∈ keys, ∀ t ∈ keys, g s = g t → f s = f t) :
    distinctCount (keys.map f) ≤ distinctCount (keys.map g) := by
  classical
  have hf : ∀ (k : α → Nat), distinctCount (keys.map k) = ((keys.map k).toFinset).card := by
    intro k
    rw [List.card_toFinset]
    apply distinctCount_eq (List.nodup_dedup _)
    intro x; rw [List.mem_dedup]
  rw [hf, hf]
  let φ : Nat → Nat := fun y => if hy : ∃ t ∈ keys, g t = y then f hy.choose else 0
  have : (keys.map f).toFinset ⊆ ((keys.map g).toFinset).image φ := by
    intro x hx
    simp only [List.mem_toFinset, List.mem_map, Finset.mem_image] at hx ⊢
    obtain ⟨s, hs, rfl⟩ := hx
    refine ⟨g s, ⟨s, hs, rfl⟩, ?_⟩
    have hy : ∃ t ∈ keys, g t = g s := ⟨s, hs, rfl⟩
    show (if hy : ∃ t ∈ keys, g t = g s then f hy.choose else 0) = f s
    rw [dif_pos hy]
    exact h _ hy.choose_spec.1 _ hs hy.choose_spec.2
  exact (Finset.card_le_card this).trans Finset.card_image_le

theorem distinctCount_const {α : Type} (keys : List α) (f : α → Nat) (h : ∀ s ∈ keys, ∀ t ∈ keys, f s = f t) :
    distinctCount (keys.map f) ≤ 1 := by
  refine (distinctCount_le keys f (fun _ => 0) (fun s hs t ht _ => h s hs t ht)).trans ?_
  cases keys with
  | nil => simp [distinctCount, keepLast]
  | cons k ks =>
    rw [distinctCount_eq (ys := [0]) (by simp) (by intro x; simp)]
    simp

end Frozen.Model
