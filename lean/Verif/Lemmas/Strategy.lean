import Verif.Props.StrategySpec
import Verif.Props.SliceOptimal
import Verif.Props.Scalar
import Mathlib.Data.Finset.Max

/-! # Lemmas about the choice of the strategy -/

namespace Frozen.Model

open Frozen Frozen.Spec Frozen.Props

variable {B K V T : Type}

/-! ## Scalars -/

/-- The analysis of distinct indices that are the numbers of `D`, shifted by `c`. -/
theorem scalar_choice [Target] (b : Build) {S : List Nat} {D : Finset Nat} {c : Nat} (hnd : S.Nodup)
    (hm : ∀ x, x ∈ S ↔ ∃ n ∈ D, x = n + c) (hb : ∀ x ∈ S, x ≤ usizeMax) (hn : S.length < sizeLimit) (hne : D.Nonempty)
    (hspan : ∀ x ∈ D, ∀ y ∈ D, x - y < usizeMax) {r : ScalarAnalysis} (h : analyzeScalarKeys b S = .ok r) :
    S.length = D.card ∧ (r = .denseRange ↔ Filled D) ∧ (r = .sparseRange ↔ ¬ Filled D ∧ Narrow D) ∧
      (r = .general ↔ ¬ Filled D ∧ ¬ Narrow D) := by
  have hcard : S.length = D.card := by
    rw [← List.toFinset_card_of_nodup hnd]
    have : S.toFinset = D.image (· + c) := by
      ext x
      simp only [List.mem_toFinset, Finset.mem_image, hm]
      exact ⟨fun ⟨n, h1, h2⟩ => ⟨n, h1, h2.symm⟩, fun ⟨n, h1, h2⟩ => ⟨n, h1, h2.symm⟩⟩
    rw [this, Finset.card_image_of_injective _ (fun a b (h : a + c = b + c) => by omega)]
  have hmn := D.min'_mem hne
  have hmx := D.max'_mem hne
  have hlo : ∀ n ∈ D, D.min' hne ≤ n := fun n hn => D.min'_le n hn
  have hhi : ∀ n ∈ D, n ≤ D.max' hne := fun n hn => D.le_max' n hn
  generalize D.min' hne = mn at *
  generalize D.max' hne = mx at *
  obtain ⟨r', h1, h2, -, h3⟩ := c17_scalar_analysis b hnd hb hn (mn := mn + c) (mx := mx + c) ((hm _).2 ⟨mn, hmn, rfl⟩)
    ((hm _).2 ⟨mx, hmx, rfl⟩) (fun x hx => by
      obtain ⟨n, hnD, rfl⟩ := (hm x).1 hx
      exact ⟨by have := hlo n hnD; omega, by have := hhi n hnD; omega⟩)
    (by have := hspan mx hmx mn hmn; omega)
  rw [h] at h1
  cases h1
  have hfill : (∀ x, mn + c ≤ x → x ≤ mx + c → x ∈ S) ↔ Filled D := by
    constructor
    · intro hf x hx y hy z hxz hzy
      obtain ⟨n, hnD, he⟩ := (hm _).1 (hf (z + c) (by have := hlo x hx; omega) (by have := hhi y hy; omega))
      have : z = n := by omega
      exact this ▸ hnD
    · intro hf x hx1 hx2
      exact (hm x).2 ⟨x - c, hf mn hmn mx hmx _ (by omega) (by omega), by omega⟩
  have hnar : ¬ Narrow D ↔ 128 < mx + c - (mn + c) + 1 ∧ 10 * S.length ≤ mx + c - (mn + c) + 1 := by
    unfold Narrow
    constructor
    · intro hx
      rw [not_or] at hx
      constructor
      · by_contra hc
        apply hx.1
        intro x hxD y hyD
        have := hlo x hxD
        have := hhi y hyD
        omega
      · by_contra hc
        apply hx.2
        intro x hxD y hyD
        have := hlo x hxD
        have := hhi y hyD
        omega
    · rintro ⟨h4, h5⟩ (hx | hx)
      · have := hx mn hmn mx hmx; omega
      · have := hx mn hmn mx hmx; omega
  rw [hfill] at h2 h3
  rw [← hnar] at h3
  refine ⟨hcard, h2, ?_, h3⟩
  cases r with
  | denseRange => simp only [true_iff] at h2; simp [h2]
  | sparseRange =>
    simp only [reduceCtorEq, false_iff, not_and, not_not] at h2 h3
    simp only [true_iff]
    exact ⟨h2, h3 h2⟩
  | general =>
    simp only [true_iff] at h3
    simp only [reduceCtorEq, false_iff, not_and]
    exact fun _ => h3.2

/-! ## Slices -/

theorem subLenLoop_choice (bh : List T → Nat) (keys : List (List T)) (st : SliceStats) (acc mx : Nat)
    (hmx : mx ≤ st.minLen) (hmin : ∀ s ∈ keys, st.minLen ≤ s.length) (len : Nat) (r : SliceAnalysis)
    (hr : subLenLoop bh keys st acc mx len = .ok r) :
    (∀ rg, r = .left rg → rg.hi - rg.lo ≠ st.maxLen) ∧
    (∀ rg, r = .right rg → ∀ j, st.prefixLen ≤ j → j ≤ st.minLen - (rg.hi - rg.lo) →
      ¬ EnoughUnique bh keys acc true j (rg.hi - rg.lo)) := by
  unfold subLenLoop at hr
  by_cases hle : len ≤ mx
  · rw [if_pos hle] at hr
    have hcs : csub st.minLen len = .ok (st.minLen - len) := by unfold csub; rw [if_pos (by omega)]
    simp only [hcs, bind, Except.bind] at hr
    have hlim : ∀ s ∈ keys, st.minLen - len + len ≤ s.length := fun s hs => by have := hmin s hs; omega
    rcases searchIndex_spec bh keys len true acc (st.minLen - len) hlim st.prefixLen with h1 | ⟨i, h1, hi, -⟩
    · rw [h1] at hr
      simp only at hr
      cases h2 : searchRight bh keys st acc len (st.minLen - len) with
      | error e => rw [h2] at hr; cases hr
      | ok o =>
        rw [h2] at hr
        cases o with
        | some i =>
          cases hr
          refine ⟨fun rg h => (by cases h), fun rg h j hj hjl => ?_⟩
          cases h
          have e : i + len - i = len := by omega
          simp only [e] at hjl ⊢
          exact searchIndex_none bh keys len true acc _ hlim _ h1 j hj hjl
        | none =>
          simp only at hr
          exact subLenLoop_choice bh keys st acc mx hmx hmin (len + 1) r hr
    · rw [h1] at hr
      simp only at hr
      split at hr
      · cases hr; exact ⟨fun rg h => (by cases h), fun rg h => (by cases h)⟩
      · rename_i hne
        cases hr
        refine ⟨fun rg h => ?_, fun rg h => (by cases h)⟩
        cases h
        show i + len - i ≠ st.maxLen
        omega
  · rw [if_neg hle] at hr
    cases hr
    exact ⟨fun rg h => (by cases h), fun rg h => (by cases h)⟩
termination_by mx + 1 - len

variable [DecidableEq T]

theorem distinctCount_image {bh : List T → Nat} {keys : List (List T)} {left : Bool} {lo hi : Nat}
    (hbh : ∀ s ∈ keys, ∀ t ∈ keys, bh (part left lo hi s) = bh (part left lo hi t) → part left lo hi s = part left lo hi t) :
    distinctCount (keys.map (fun k => bh (part left lo hi k))) = (keys.toFinset.image (bytesAt left lo hi)).card := by
  rw [distinctCount_eq (ys := (keys.map (fun k => bh (part left lo hi k))).dedup) (List.nodup_dedup _) (fun x => List.mem_dedup),
    ← List.card_toFinset]
  have e : (keys.map (fun k => bh (part left lo hi k))).toFinset = (keys.toFinset.image (bytesAt left lo hi)).image bh := by
    ext x
    simp only [List.mem_toFinset, List.mem_map, Finset.mem_image]
    constructor
    · rintro ⟨k, hk, rfl⟩; exact ⟨_, ⟨k, hk, rfl⟩, rfl⟩
    · rintro ⟨_, ⟨k, hk, rfl⟩, rfl⟩; exact ⟨k, hk, rfl⟩
  rw [e]
  apply Finset.card_image_of_injOn
  intro a ha b hb hab
  simp only [Finset.coe_image, Set.mem_image, Finset.mem_coe, List.mem_toFinset] at ha hb
  obtain ⟨s, hs, rfl⟩ := ha
  obtain ⟨t, ht, rfl⟩ := hb
  exact hbh s hs t ht hab

theorem adequate_iff {bh : List T → Nat} {keys : List (List T)} (hnd : keys.Nodup) (hbh : PartsHashApart bh keys.toFinset)
    (left : Bool) (lo hi : Nat) : Adequate bh keys left lo hi ↔ PartTells keys.toFinset left lo hi := by
  have hc := List.toFinset_card_of_nodup hnd
  unfold Adequate PartTells
  rw [hc]
  have hm : (∀ k ∈ keys.toFinset, hi ≤ k.length) ↔ ∀ k ∈ keys, hi ≤ k.length := by simp only [List.mem_toFinset]
  rw [hm]
  constructor
  · rintro ⟨h1, h2, h3⟩
    rw [distinctCount_image (fun s hs t ht he => hbh left lo hi (hm.2 h2) s (by simpa using hs) t (by simpa using ht) he)] at h3
    exact ⟨h1, h2, h3⟩
  · rintro ⟨h1, h2, h3⟩
    refine ⟨h1, h2, ?_⟩
    rw [distinctCount_image (fun s hs t ht he => hbh left lo hi (hm.2 h2) s (by simpa using hs) t (by simpa using ht) he)]
    exact h3

theorem lengthsTell_iff {keys : List (List T)} (hnd : keys.Nodup) :
    LengthsTell keys.toFinset ↔ ∀ n, (keys.filter (fun k => k.length == n)).length ≤ max 1 (keys.length / 20) := by
  unfold LengthsTell
  rw [List.toFinset_card_of_nodup hnd]
  apply forall_congr'
  intro n
  have e : keys.toFinset.filter (fun k => k.length = n) = (keys.filter (fun k => k.length == n)).toFinset := by
    ext k
    simp
  rw [e, List.toFinset_card_of_nodup (hnd.filter _)]

/-- The analysis of distinct slices. -/
theorem slice_choice [Target] {eqT : T → T → Bool} (heq : ∀ a b, eqT a b = true ↔ a = b) {bh : List T → Nat} {keys : List (List T)}
    (hnd : keys.Nodup) (hbh : PartsHashApart bh keys.toFinset) (hlen : ∀ k ∈ keys, k.length ≤ usizeMax) {r : SliceAnalysis}
    (h : analyzeSliceKeys eqT bh keys = .ok r) :
    (r = .length ↔ LengthsTell keys.toFinset) ∧
    (∀ rg, r = .left rg → ShortestPart keys.toFinset true rg.lo rg.hi ∧ ¬ ∀ k ∈ keys.toFinset, k.length = rg.hi - rg.lo) ∧
    (∀ rg, r = .right rg → ShortestPart keys.toFinset false rg.lo rg.hi ∧ ∀ lo hi, ¬ ShortestPart keys.toFinset true lo hi) ∧
    (r = .general → ∀ left lo hi, ShortestPart keys.toFinset left lo hi → ∀ k ∈ keys.toFinset, k.length = hi - lo) := by
  have hbh' : NoPartCollisions bh keys := by
    intro left lo hi h1 s hs t ht he
    exact hbh left lo hi (by simpa using h1) s (by simpa using hs) t (by simpa using ht) he
  have had := adequate_iff hnd hbh
  obtain ⟨r1, h1, hmin, hgen⟩ := c53_shortest_subslice heq hbh' hlen
  obtain ⟨r2, h2, hl⟩ := c21_length_analysis eqT bh keys
  obtain ⟨r3, h3, -, hgl, hgr⟩ := analyzeSliceKeys_spec eqT bh keys
  obtain ⟨r4, h4, hsl, hsr⟩ := c20_subslice_analysis eqT bh keys
  rw [h] at h1 h2 h3 h4
  cases h1; cases h2; cases h3; cases h4
  rw [← lengthsTell_iff hnd] at hl
  have hA : ∀ rg, r = .left rg → PartTells keys.toFinset true rg.lo rg.hi := by
    intro rg hr
    obtain ⟨g1, g2, -, g4⟩ := hsl rg hr
    exact (had _ _ _).1 ⟨g1, g2, g4⟩
  have hB : ∀ rg, r = .right rg → PartTells keys.toFinset false rg.lo rg.hi := by
    intro rg hr
    obtain ⟨g1, g2, -, g4⟩ := hsr rg hr
    exact (had _ _ _).1 ⟨g1, g2, g4⟩
  have hsh : ∀ rg, r = .left rg ∨ r = .right rg → ∀ left lo hi, PartTells keys.toFinset left lo hi → rg.hi - rg.lo ≤ hi - lo :=
    fun rg hr left lo hi hp => hmin rg hr left lo hi ((had _ _ _).2 hp)
  have h16 : ∀ rg, r = .left rg ∨ r = .right rg → rg.hi - rg.lo ≤ 16 := by
    rintro rg (hr | hr)
    · exact (hgl rg hr).2.1
    · exact (hgr rg hr).2.1
  -- the loop
  have hloop : r ≠ .length → ∃ st : SliceStats, (∀ s ∈ keys, st.minLen ≤ s.length ∧ s.length ≤ st.maxLen) ∧
      (st.maxLen = 0 ∨ ∃ s ∈ keys, s.length = st.maxLen) ∧ (∃ s ∈ keys, s.length = st.minLen) ∧
      (∀ s ∈ keys, ∀ t ∈ keys, s.take st.prefixLen = t.take st.prefixLen) ∧ 2 ≤ keys.length ∧
      (∀ rg, r = .left rg → rg.hi - rg.lo ≠ st.maxLen) ∧
      (∀ rg, r = .right rg → ∀ j, st.prefixLen ≤ j → j ≤ st.minLen - (rg.hi - rg.lo) →
        ¬ EnoughUnique bh keys (keys.length / acceptableDuplicateRatio) true j (rg.hi - rg.lo)) := by
    intro hrl
    have hlens := lengthsLoop_spec (keys.length / acceptableDuplicateRatio) keys [] (fun _ => 0) (by simp) (by simp)
    have hn : 2 ≤ keys.length := by
      by_contra hlt
      apply hrl
      rw [hl, lengthsTell_iff hnd]
      intro n
      have := List.length_filter_le (fun s : List T => s.length == n) keys
      omega
    have hh : keys.head? = some (keys.headD []) ∨ keys = [] := by cases keys <;> simp
    obtain ⟨st, hst, -, -, hmm⟩ := statsLoop_spec eqT (keys.headD []) keys
      { minLen := usizeMax, maxLen := 0, prefixLen := usizeMax, suffixLen := usizeMax } (Or.inr hh) (Or.inr hh)
    obtain ⟨-, -, hpre, -, hmn, hmx⟩ := statsLoop_agree eqT _ keys _ st hst
    unfold analyzeSliceKeys at h
    have hl' : analyzeLengths keys = .general := by
      rcases hlens.1 with hl1 | hl1
      · exfalso
        have : analyzeLengths keys = .length := hl1
        rw [this] at h
        exact hrl (Except.ok.inj h).symm
      · exact hl1
    rw [hl'] at h
    simp only at h
    unfold analyzeSubslices at h
    simp only [hst, bind, Except.bind] at h
    obtain ⟨g1, g2⟩ := subLenLoop_choice bh keys st _ _ (Nat.min_le_left _ _) (fun s hs => (hmm s hs).1) 1 r h
    obtain ⟨k0, hk0⟩ := List.exists_mem_of_length_pos (show 0 < keys.length by omega)
    refine ⟨st, hmm, hmx, ?_, fun s hs t ht => take_eq_of_agree heq (hpre s hs) (hpre t ht), hn, g1, g2⟩
    rcases hmn with hm0 | hm0
    · simp only at hm0
      exact ⟨k0, hk0, by have := hlen k0 hk0; have := (hmm k0 hk0).1; omega⟩
    · exact hm0
  refine ⟨hl, fun rg hr => ⟨⟨hA rg hr, h16 rg (.inl hr), hsh rg (.inl hr)⟩, fun hall => ?_⟩,
    fun rg hr => ⟨⟨hB rg hr, h16 rg (.inr hr), hsh rg (.inr hr)⟩, fun lo hi hp => ?_⟩, fun hr left lo hi hp => ?_⟩
  · obtain ⟨st, hmm, hmx, ⟨km, hkm, hkml⟩, -, -, g1, -⟩ := hloop (by rw [hr]; simp)
    have hpos := (hA rg hr).1
    apply g1 rg hr
    rcases hmx with h0 | ⟨s, hs, h0⟩
    · have := (hmm km hkm).2
      have := hall km (by simpa using hkm)
      omega
    · have := hall s (by simpa using hs)
      omega
  · obtain ⟨st, hmm, hmx, ⟨km, hkm, hkml⟩, hpre, hn2, -, g2⟩ := hloop (by rw [hr]; simp)
    have e1 := hsh rg (.inr hr) true lo hi hp.1
    have e2 := hp.2.2 false rg.lo rg.hi (hB rg hr)
    obtain ⟨hcut, hcad⟩ := adequate_cut (p := st.prefixLen) hbh' hn2 true ((had _ _ _).2 hp.1) (by simpa using hpre)
    have e3 := hsh rg (.inr hr) true _ _ ((had _ _ _).1 hcad)
    have hpos := (hB rg hr).1
    have hle := hp.1.2.1 km (by simpa using hkm)
    refine g2 rg hr lo (by omega) (by omega) ?_
    have e4 : rg.hi - rg.lo = hi - lo := by omega
    rw [e4]
    unfold EnoughUnique
    have had' := ((had true lo hi).2 hp.1)
    have e : keys.map (fun s => bh (subOf true lo (hi - lo) s)) = keys.map (fun k => bh (part true lo hi k)) := by
      apply List.map_congr_left
      intro k hk
      rw [part_sub true (by omega) (had'.2.1 k hk)]
    rw [e]
    exact had'.2.2
  · intro k hk
    rcases hgen hr left lo hi ((had _ _ _).2 hp.1) with h5 | ⟨h5, h6⟩
    · have := hp.2.1
      omega
    · rw [h6 k (by simpa using hk), h5]
      rfl

end Frozen.Model
