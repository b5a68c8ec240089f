import Verif.Model.SliceAnalyzer
import Verif.Lemmas.KeepLast
import Mathlib.Data.List.Nodup
import Mathlib.Data.List.Perm.Basic

/-!
# Helper lemmas on the slice key analyzer
-/

namespace Frozen.Model

open Frozen.Spec

variable {T : Type}

/-! ## Lengths -/

theorem lengthsLoop_spec (mx : Nat) (rest : List (List T)) (lengths : List (Nat × Nat)) (c : Nat → Nat)
    (hl : ∀ n, lengths.lookup n = if c n = 0 then none else some (c n)) (hc : ∀ n, c n ≤ max 1 mx) :
    (lengthsLoop mx rest lengths = .length ∨ lengthsLoop mx rest lengths = .general) ∧
    (lengthsLoop mx rest lengths = .length ↔
      ∀ n, c n + (rest.filter (fun s => s.length == n)).length ≤ max 1 mx) := by
  induction rest generalizing lengths c with
  | nil => simp [lengthsLoop, hc]
  | cons s rest ih =>
    have hfil : ∀ n, ((s :: rest).filter (fun s => s.length == n)).length =
        (if n = s.length then 1 else 0) + (rest.filter (fun s => s.length == n)).length := by
      intro n
      rw [List.filter_cons]
      by_cases h : n = s.length
      · subst h; simp; omega
      · have h' : ¬ s.length = n := fun e => h e.symm
        simp [h, h']
    have step : ∀ (v : Nat), v = c s.length + 1 → v ≤ max 1 mx →
        (lengthsLoop mx rest ((s.length, v) :: lengths) = .length ∨
          lengthsLoop mx rest ((s.length, v) :: lengths) = .general) ∧
        (lengthsLoop mx rest ((s.length, v) :: lengths) = .length ↔
          ∀ n, c n + ((s :: rest).filter (fun s => s.length == n)).length ≤ max 1 mx) := by
      intro v hv hle
      have h := ih ((s.length, v) :: lengths) (fun n => if n = s.length then v else c n)
        (by
          intro n
          rw [List.lookup_cons]
          by_cases h : n = s.length
          · subst h
            have hv0 : v ≠ 0 := by omega
            simp [hv0]
          · have h' : (n == s.length) = false := by simpa using h
            simp only [h', h, if_false, hl])
        (by intro n; split
            · exact hle
            · exact hc n)
      refine ⟨h.1, h.2.trans (forall_congr' ?_)⟩
      intro n
      rw [hfil]
      by_cases h : n = s.length
      · subst h; simp only [if_true]; omega
      · simp only [h, if_false]; omega
    unfold lengthsLoop
    rw [hl s.length]
    by_cases h0 : c s.length = 0
    · rw [if_pos h0]
      exact step 1 (by omega) (by omega)
    · rw [if_neg h0]
      simp only
      by_cases hge : c s.length ≥ mx
      · rw [if_pos hge]
        refine ⟨Or.inr rfl, ?_⟩
        constructor
        · intro h; cases h
        · intro h
          have h1 := h s.length
          rw [hfil, if_pos rfl] at h1
          exfalso
          omega
      · rw [if_neg hge]
        exact step _ rfl (by omega)

/-! ## Measurements -/

theorem prefixLoop_ok (eqT : T → T → Bool) (s k0 : List T) (p : Nat) (hs : p ≤ s.length) (hk : p ≤ k0.length) :
    ∀ fuel i, i + fuel = p → ∃ r, prefixLoop eqT s k0 p fuel i = .ok r ∧ r ≤ p := by
  intro fuel
  induction fuel with
  | zero => intro i _; exact ⟨p, rfl, Nat.le_refl _⟩
  | succ fuel ih =>
    intro i hi
    unfold prefixLoop
    have h1 : idx s i = .ok s[i] := by unfold idx; rw [List.getElem?_eq_getElem (by omega)]
    have h2 : idx k0 i = .ok k0[i] := by unfold idx; rw [List.getElem?_eq_getElem (by omega)]
    simp only [h1, h2, bind, Except.bind]
    split
    · exact ih (i + 1) (by omega)
    · exact ⟨i, rfl, by omega⟩

theorem idxFromEnd_ok (s : List T) (i : Nat) (h : i < s.length) : ∃ x, idxFromEnd s i = .ok x := by
  unfold idxFromEnd csub
  have h3 : idx s (s.length - i - 1) = .ok s[s.length - i - 1] := by
    unfold idx; rw [List.getElem?_eq_getElem (by omega)]
  rw [if_pos (by omega)]
  simp only [bind, Except.bind]
  rw [if_pos (by omega)]
  simp only [h3]
  exact ⟨_, rfl⟩

theorem suffixLoop_ok (eqT : T → T → Bool) (s k0 : List T) (p : Nat) (hs : p ≤ s.length) (hk : p ≤ k0.length) :
    ∀ fuel i, i + fuel = p → ∃ r, suffixLoop eqT s k0 p fuel i = .ok r ∧ r ≤ p := by
  intro fuel
  induction fuel with
  | zero => intro i _; exact ⟨p, rfl, Nat.le_refl _⟩
  | succ fuel ih =>
    intro i hi
    unfold suffixLoop
    obtain ⟨x, h1⟩ := idxFromEnd_ok s i (by omega)
    obtain ⟨y, h2⟩ := idxFromEnd_ok k0 i (by omega)
    simp only [h1, h2, bind, Except.bind]
    split
    · exact ih (i + 1) (by omega)
    · exact ⟨i, rfl, by omega⟩

theorem statsLoop_spec (eqT : T → T → Bool) (k0 : List T) (rest : List (List T)) (st : SliceStats)
    (hp : st.prefixLen ≤ k0.length ∨ rest.head? = some k0 ∨ rest = [])
    (hu : st.suffixLen ≤ k0.length ∨ rest.head? = some k0 ∨ rest = []) :
    ∃ st', statsLoop eqT k0 rest st = .ok st' ∧ st'.minLen ≤ st.minLen ∧ st.maxLen ≤ st'.maxLen ∧
      (∀ s ∈ rest, st'.minLen ≤ s.length ∧ s.length ≤ st'.maxLen) := by
  induction rest generalizing st with
  | nil => exact ⟨st, rfl, Nat.le_refl _, Nat.le_refl _, by simp⟩
  | cons s rest ih =>
    have hk : ∀ x, x ≤ k0.length ∨ (s :: rest).head? = some k0 ∨ s :: rest = [] →
        (if s.length < x then s.length else x) ≤ k0.length := by
      intro x hx
      rcases hx with h | h | h
      · split <;> omega
      · simp only [List.head?_cons, Option.some.injEq] at h
        subst h
        split <;> omega
      · cases h
    obtain ⟨p', hp', hple⟩ := prefixLoop_ok eqT s k0 (if s.length < st.prefixLen then s.length else st.prefixLen)
      (by split <;> omega) (hk _ hp) _ 0 (Nat.zero_add _)
    obtain ⟨u', hu', hule⟩ := suffixLoop_ok eqT s k0 (if s.length < st.suffixLen then s.length else st.suffixLen)
      (by split <;> omega) (hk _ hu) _ 0 (Nat.zero_add _)
    obtain ⟨st', h1, h2, h3, h4⟩ := ih { minLen := min st.minLen s.length, maxLen := max st.maxLen s.length, prefixLen := p', suffixLen := u' }
      (Or.inl (Nat.le_trans hple (hk _ hp))) (Or.inl (Nat.le_trans hule (hk _ hu)))
    refine ⟨st', ?_, ?_, ?_, ?_⟩
    · unfold statsLoop
      simp only [hp', hu', bind, Except.bind, h1]
    · simp only at h2; omega
    · simp only at h3; omega
    · intro t ht
      rw [List.mem_cons] at ht
      simp only at h2 h3
      rcases ht with rfl | ht
      · omega
      · exact h4 t ht

/-! ## Uniqueness -/

/-- The sub-slice of a long enough key. -/
def subOf (leftJustified : Bool) (i len : Nat) (s : List T) : List T :=
  if leftJustified then (s.drop i).take len else (s.drop (s.length - i - len)).take len

theorem subslice_eq (lj : Bool) (i len : Nat) (s : List T) (h : i + len ≤ s.length) :
    subslice lj i len s = .ok (subOf lj i len s) := by
  unfold subslice subOf
  cases lj with
  | true =>
    simp only [if_true]
    unfold idxRange
    rw [if_pos (by omega)]
    congr 2
    omega
  | false =>
    simp only [Bool.false_eq_true, if_false]
    unfold csub idxRange
    rw [if_pos (by omega)]
    simp only [bind, Except.bind]
    rw [if_pos (by omega)]
    simp only
    rw [if_pos (by omega)]
    congr 2
    omega

theorem nodup_keepLast (xs : List Nat) : (keepLast (fun a b => a == b) xs).Nodup := by
  have h := keepLast_distinct (eq := fun a b : Nat => a == b) xs
  unfold Distinct at h
  exact h.imp (fun h => by simpa using h)

theorem mem_keepLast_nat (xs : List Nat) (x : Nat) : x ∈ keepLast (fun a b => a == b) xs ↔ x ∈ xs := by
  constructor
  · intro h; exact (keepLast_sublist _ xs).subset h
  · intro h
    have hl : LawfulEq' (fun a b : Nat => a == b) :=
      ⟨fun a => by simp, fun a b h => by simpa using (by simpa using h : a = b).symm,
        fun a b c h1 h2 => by simp at *; omega⟩
    obtain ⟨y, hy, hxy⟩ := exists_mem_keepLast hl h
    have : x = y := by simpa using hxy
    rw [this]; exact hy

/-- The number of distinct values is the length of any duplicate-free list with the same members. -/
theorem distinctCount_eq {xs ys : List Nat} (hnd : ys.Nodup) (hm : ∀ x, x ∈ ys ↔ x ∈ xs) :
    distinctCount xs = ys.length := by
  unfold distinctCount
  apply List.Perm.length_eq
  rw [List.perm_ext_iff_of_nodup (nodup_keepLast xs) hnd]
  intro a
  rw [mem_keepLast_nat, hm]

theorem uniqueLoop_spec (bh : List T → Nat) (lj : Bool) (i len : Nat) :
    ∀ (rest : List (List T)) (set : List Nat) (acc : Nat), set.Nodup → (∀ s ∈ rest, i + len ≤ s.length) →
      ∃ (b : Bool) (fin : List Nat), uniqueLoop bh lj i len rest set acc = .ok b ∧ fin.Nodup ∧
        (∀ x, x ∈ fin ↔ x ∈ set ∨ x ∈ rest.map (fun s => bh (subOf lj i len s))) ∧ set.length ≤ fin.length ∧
        (b = true ↔ rest.length ≤ (fin.length - set.length) + acc)
  | [], set, acc, hnd, _ => ⟨true, set, rfl, hnd, by simp, Nat.le_refl _, by simp⟩
  | s :: rest, set, acc, hnd, hlen => by
    have hsub := subslice_eq lj i len s (hlen s (by simp))
    unfold uniqueLoop
    simp only [hsub, bind, Except.bind]
    have hrest : ∀ s ∈ rest, i + len ≤ s.length := fun t ht => hlen t (by simp [ht])
    by_cases hc : set.contains (bh (subOf lj i len s)) = true
    · rw [if_pos hc]
      have hc' : bh (subOf lj i len s) ∈ set := by simpa using hc
      by_cases h0 : acc = 0
      · rw [if_pos h0]
        obtain ⟨b, fin, h1, h2, h3, h4, h5⟩ := uniqueLoop_spec bh lj i len rest set 0 hnd hrest
        refine ⟨false, fin, rfl, h2, ?_, h4, ?_⟩
        · intro x
          rw [h3, List.map_cons, List.mem_cons]
          constructor
          · rintro (h | h)
            · exact Or.inl h
            · exact Or.inr (Or.inr h)
          · rintro (h | h | h)
            · exact Or.inl h
            · left; rw [h]; exact hc'
            · exact Or.inr h
        · constructor
          · intro h; cases h
          · intro h
            exfalso
            -- at most `rest.length` new values
            have hle : fin.length ≤ set.length + rest.length := by
              have hsp : fin.Subperm (set ++ rest.map (fun s => bh (subOf lj i len s))) :=
                List.subperm_of_subset h2 (fun x hx => by
                  rw [List.mem_append]; exact (h3 x).1 hx)
              have := hsp.length_le
              simpa using this
            simp only [List.length_cons] at h
            omega
      · rw [if_neg h0]
        obtain ⟨b, fin, h1, h2, h3, h4, h5⟩ := uniqueLoop_spec bh lj i len rest set (acc - 1) hnd hrest
        refine ⟨b, fin, h1, h2, ?_, h4, ?_⟩
        · intro x
          rw [h3, List.map_cons, List.mem_cons]
          constructor
          · rintro (h | h)
            · exact Or.inl h
            · exact Or.inr (Or.inr h)
          · rintro (h | h | h)
            · exact Or.inl h
            · left; rw [h]; exact hc'
            · exact Or.inr h
        · rw [h5]; simp only [List.length_cons]; omega
    · rw [if_neg hc]
      have hc' : bh (subOf lj i len s) ∉ set := by simpa using hc
      obtain ⟨b, fin, h1, h2, h3, h4, h5⟩ := uniqueLoop_spec bh lj i len rest (bh (subOf lj i len s) :: set) acc
        (List.nodup_cons.2 ⟨hc', hnd⟩) hrest
      simp only [List.length_cons] at h4 h5
      refine ⟨b, fin, h1, h2, ?_, by omega, ?_⟩
      · intro x
        rw [h3, List.map_cons, List.mem_cons, List.mem_cons]
        tauto
      · rw [h5]; simp only [List.length_cons]; omega

theorem isSufficientlyUnique_spec (bh : List T → Nat) (keys : List (List T)) (i len : Nat) (lj : Bool) (acc : Nat)
    (h : ∀ s ∈ keys, i + len ≤ s.length) :
    ∃ b, isSufficientlyUnique bh keys i len lj acc = .ok b ∧
      (b = true ↔ keys.length ≤ distinctCount (keys.map (fun s => bh (subOf lj i len s))) + acc) := by
  obtain ⟨b, fin, h1, h2, h3, _, h5⟩ := uniqueLoop_spec bh lj i len keys [] acc List.nodup_nil h
  refine ⟨b, h1, ?_⟩
  rw [h5, distinctCount_eq h2 (fun x => by rw [h3]; simp)]
  simp

theorem searchIndex_spec (bh : List T → Nat) (keys : List (List T)) (len : Nat) (lj : Bool) (acc limit : Nat)
    (h : ∀ s ∈ keys, limit + len ≤ s.length) (i : Nat) :
    (searchIndex bh keys len lj acc limit i = .ok none) ∨
    ∃ j, searchIndex bh keys len lj acc limit i = .ok (some j) ∧ j ≤ limit ∧
      keys.length ≤ distinctCount (keys.map (fun s => bh (subOf lj j len s))) + acc := by
  unfold searchIndex
  by_cases hi : i ≤ limit
  · rw [if_pos hi]
    obtain ⟨b, h1, h2⟩ := isSufficientlyUnique_spec bh keys i len lj acc (fun s hs => by have := h s hs; omega)
    simp only [h1, bind, Except.bind]
    cases b with
    | true =>
      right
      exact ⟨i, rfl, hi, h2.1 rfl⟩
    | false => exact searchIndex_spec bh keys len lj acc limit h (i + 1)
  · rw [if_neg hi]; exact Or.inl rfl
termination_by limit + 1 - i

/-- The range and the uniqueness of the sub-slices it selects. -/
def GoodRange (bh : List T → Nat) (keys : List (List T)) (acc : Nat) (lj : Bool) (r : Range) : Prop :=
  r.lo < r.hi ∧ r.hi - r.lo ≤ maxSubsliceLengthLimit ∧ (∀ s ∈ keys, r.hi ≤ s.length) ∧
    keys.length ≤ distinctCount (keys.map (fun s => bh (subOf lj r.lo (r.hi - r.lo) s))) + acc

theorem subLenLoop_spec (bh : List T → Nat) (keys : List (List T)) (st : SliceStats) (acc mx : Nat)
    (hmx : mx ≤ st.minLen) (hmx' : mx ≤ maxSubsliceLengthLimit) (hmin : ∀ s ∈ keys, st.minLen ≤ s.length) (len : Nat) (hlen : 1 ≤ len) :
    ∃ r, subLenLoop bh keys st acc mx len = .ok r ∧ r ≠ .length ∧
      (∀ rg, r = .left rg → GoodRange bh keys acc true rg) ∧ (∀ rg, r = .right rg → GoodRange bh keys acc false rg) := by
  unfold subLenLoop
  by_cases hle : len ≤ mx
  · rw [if_pos hle]
    have hcs : csub st.minLen len = .ok (st.minLen - len) := by unfold csub; rw [if_pos (by omega)]
    simp only [hcs, bind, Except.bind]
    have hlim : ∀ s ∈ keys, st.minLen - len + len ≤ s.length := fun s hs => by have := hmin s hs; omega
    have good : ∀ lj j, j ≤ st.minLen - len →
        keys.length ≤ distinctCount (keys.map (fun s => bh (subOf lj j len s))) + acc →
        GoodRange bh keys acc lj ⟨j, j + len⟩ := by
      intro lj j hj hu
      refine ⟨by simp only; omega, by simp only; omega, ?_, ?_⟩
      · intro s hs
        have := hmin s hs
        simp only; omega
      · simpa using hu
    rcases searchIndex_spec bh keys len true acc (st.minLen - len) hlim st.prefixLen with h1 | ⟨j, h1, hj, hu⟩
    · rw [h1]
      simp only
      have hright : searchRight bh keys st acc len (st.minLen - len) = .ok none ∨
          ∃ j, searchRight bh keys st acc len (st.minLen - len) = .ok (some j) ∧ j ≤ st.minLen - len ∧
            keys.length ≤ distinctCount (keys.map (fun s => bh (subOf false j len s))) + acc := by
        unfold searchRight
        split
        · exact searchIndex_spec bh keys len false acc (st.minLen - len) hlim st.suffixLen
        · exact Or.inl rfl
      rcases hright with h2 | ⟨j, h2, hj, hu⟩
      · rw [h2]
        simp only
        exact subLenLoop_spec bh keys st acc mx hmx hmx' hmin (len + 1) (by omega)
      · rw [h2]
        simp only
        refine ⟨_, rfl, by simp, by simp, ?_⟩
        intro rg hrg
        cases hrg
        exact good false j hj hu
    · rw [h1]
      simp only
      refine ⟨_, rfl, ?_, ?_, ?_⟩
      · split <;> simp
      · intro rg hrg
        split at hrg
        · cases hrg
        · cases hrg
          exact good true j hj hu
      · intro rg hrg
        split at hrg <;> cases hrg
  · rw [if_neg hle]
    exact ⟨_, rfl, by simp, by simp, by simp⟩
termination_by mx + 1 - len

theorem analyzeSubslices_spec [Target] (eqT : T → T → Bool) (bh : List T → Nat) (keys : List (List T)) :
    ∃ r, analyzeSubslices eqT bh keys = .ok r ∧ r ≠ .length ∧
      (∀ rg, r = .left rg → GoodRange bh keys (keys.length / acceptableDuplicateRatio) true rg) ∧
      (∀ rg, r = .right rg → GoodRange bh keys (keys.length / acceptableDuplicateRatio) false rg) := by
  have hh : keys.head? = some (keys.headD []) ∨ keys = [] := by cases keys <;> simp
  obtain ⟨st, h1, _, _, h4⟩ := statsLoop_spec eqT (keys.headD []) keys
    { minLen := usizeMax, maxLen := 0, prefixLen := usizeMax, suffixLen := usizeMax } (Or.inr hh) (Or.inr hh)
  unfold analyzeSubslices
  simp only [h1, bind, Except.bind]
  exact subLenLoop_spec bh keys st _ _ (Nat.min_le_left _ _) (Nat.min_le_right _ _) (fun s hs => (h4 s hs).1) 1 (Nat.le_refl _)

theorem analyzeSliceKeys_spec [Target] (eqT : T → T → Bool) (bh : List T → Nat) (keys : List (List T)) :
    ∃ r, analyzeSliceKeys eqT bh keys = .ok r ∧ (r = .length ↔ analyzeLengths keys = .length) ∧
      (∀ rg, r = .left rg → GoodRange bh keys (keys.length / acceptableDuplicateRatio) true rg) ∧
      (∀ rg, r = .right rg → GoodRange bh keys (keys.length / acceptableDuplicateRatio) false rg) := by
  obtain ⟨r, h1, h2, h3, h4⟩ := analyzeSubslices_spec eqT bh keys
  have hl := (lengthsLoop_spec (keys.length / acceptableDuplicateRatio) keys [] (fun _ => 0) (by simp) (by simp)).1
  unfold analyzeSliceKeys
  have hl' : analyzeLengths keys = .length ∨ analyzeLengths keys = .general := hl
  rcases hl' with h | h
  · rw [h]; exact ⟨_, rfl, by simp, by simp, by simp⟩
  · rw [h]; exact ⟨r, h1, by simp [h2], h3, h4⟩

/-! ## Hashers -/

theorem leftRangeHash_ok (bh : List T → Nat) (r : Range) (h : r.lo ≤ r.hi) (s : List T) :
    leftRangeHash bh r s = .ok (if s.length < r.hi then 0 else bh (subOf true r.lo (r.hi - r.lo) s)) := by
  unfold leftRangeHash
  split
  · rfl
  · rename_i hlt
    unfold idxRange
    rw [if_pos ⟨h, by omega⟩]
    simp [bind, Except.bind, subOf]

theorem rightRangeHash_ok (bh : List T → Nat) (r : Range) (h : r.lo ≤ r.hi) (s : List T) :
    rightRangeHash bh r s = .ok (if s.length < r.hi then 0 else bh (subOf false r.lo (r.hi - r.lo) s)) := by
  unfold rightRangeHash
  split
  · rfl
  · rename_i hlt
    unfold csub
    rw [if_pos (by omega), if_pos (by omega)]
    simp only [bind, Except.bind]
    unfold idxRange
    rw [if_pos ⟨by omega, by omega⟩]
    simp only [subOf]
    have e1 : s.length - r.lo - (s.length - r.hi) = r.hi - r.lo := by omega
    have e2 : s.length - r.lo - (r.hi - r.lo) = s.length - r.hi := by omega
    rw [e1, e2]
    rfl

theorem inlineLeft_eq (bh : List T → Nat) (a b : Nat) (s : List T) :
    inlineLeftRangeHash a b bh s = leftRangeHash bh ⟨a, b⟩ s := rfl

theorem inlineRight_eq (bh : List T → Nat) (a b : Nat) (s : List T) :
    inlineRightRangeHash a b bh s = rightRangeHash bh ⟨a, b⟩ s := rfl

end Frozen.Model
