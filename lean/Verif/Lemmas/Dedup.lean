import Verif.Model.Dedup
import Verif.Lemmas.KeepLast

/-!
# Helper lemmas on the deduplication model
-/

namespace Frozen.Model
open Frozen.Spec

variable {T K V : Type _}

theorem retainNotIn_eq_keepLast {eq : T → T → Bool} (D : List Nat) (xs : List T) (i : Nat)
    (h : ∀ j (hj : j < xs.length), D.contains (i + j) = (xs.drop (j + 1)).any (eq xs[j])) :
    retainNotIn D xs i = keepLast eq xs := by
  induction xs generalizing i with
  | nil => rfl
  | cons x xs ih =>
    have h0 := h 0 (by simp)
    simp only [Nat.add_zero, List.getElem_cons_zero, Nat.zero_add, List.drop_succ_cons, List.drop_zero] at h0
    have hrec := ih (i + 1) (by
      intro j hj
      have := h (j + 1) (by simpa using hj)
      simp only [List.getElem_cons_succ, List.drop_succ_cons] at this
      rw [← this]; congr 1; omega)
    unfold retainNotIn keepLast
    rw [h0, hrec]

theorem retainNotIn_nil (xs : List T) (i : Nat) : retainNotIn [] xs i = xs := by
  induction xs generalizing i with
  | nil => rfl
  | cons x xs ih => simp [retainNotIn, ih]

theorem keepLast_short (eq : T → T → Bool) (xs : List T) (h : ¬ xs.length ≥ 2) : keepLast eq xs = xs := by
  match xs with
  | [] => rfl
  | [_] => simp [keepLast]
  | _ :: _ :: _ => simp at h

/-- All three entry points end the same way. -/
theorem dedup_finish {eq : T → T → Bool} (D : List Nat) (xs : List T)
    (h : xs.length ≥ 2 → ∀ j (hj : j < xs.length), D.contains j = (xs.drop (j + 1)).any (eq xs[j])) :
    (if xs.length ≥ 2 then (if D.isEmpty then xs else retainNotIn D xs 0) else xs) = keepLast eq xs := by
  split
  · rename_i h2
    have := retainNotIn_eq_keepLast (eq := eq) D xs 0 (by intro j hj; rw [Nat.zero_add]; exact h h2 j hj)
    split
    · rename_i he
      rw [List.isEmpty_iff] at he
      rw [← this, he, retainNotIn_nil]
    · exact this
  · rename_i h2
    exact (keepLast_short eq xs h2).symm

/-! ### using_eq -/

theorem mem_usingEqDupes (cmp : T → T → Bool) (xs : List T) (i : Nat) :
    (∀ d ∈ usingEqDupes cmp xs i, i ≤ d) ∧
    ∀ j (hj : j < xs.length), (usingEqDupes cmp xs i).contains (i + j) = (xs.drop (j + 1)).any (cmp xs[j]) := by
  induction xs generalizing i with
  | nil => simp [usingEqDupes]
  | cons x xs ih =>
    obtain ⟨ih1, ih2⟩ := ih (i + 1)
    have hnot : (usingEqDupes cmp xs (i + 1)).contains i = false := by
      rw [← Bool.not_eq_true, List.contains_iff_mem]
      intro hm
      have := ih1 _ hm
      omega
    constructor
    · intro d hd
      unfold usingEqDupes at hd
      split at hd
      · rw [List.mem_cons] at hd
        rcases hd with rfl | hd
        · exact Nat.le_refl _
        · have := ih1 d hd; omega
      · have := ih1 d hd; omega
    · intro j hj
      unfold usingEqDupes
      cases j with
      | zero =>
        simp only [Nat.add_zero, List.getElem_cons_zero, Nat.zero_add, List.drop_succ_cons, List.drop_zero]
        split
        · rename_i h; rw [h]; simp
        · rename_i h; rw [hnot]; exact (Bool.not_eq_true _ ▸ h).symm
      | succ j =>
        have h2 := ih2 j (by simpa using hj)
        simp only [List.getElem_cons_succ, List.drop_succ_cons]
        rw [← h2]
        have e : i + 1 + j = i + (j + 1) := by omega
        rw [e]
        split
        · rw [List.contains_cons]
          have : (i + (j + 1) == i) = false := by simp
          rw [this, Bool.false_or]
        · rfl

theorem usingEq_eq_keepLast (entries : List T) (cmp : T → T → Bool) :
    usingEq entries cmp = keepLast cmp entries := by
  unfold usingEq
  exact dedup_finish _ _ (fun _ j hj => by
    have := (mem_usingEqDupes cmp entries 0).2 j hj
    rwa [Nat.zero_add] at this)

/-! ### using_hash -/

/-- Position `j` has a later equal element before position `p`. -/
def DupBefore (eq : T → T → Bool) (xs : List T) (p j : Nat) : Prop :=
  ∃ k, j < k ∧ k < p ∧ ∃ a b, xs[j]? = some a ∧ xs[k]? = some b ∧ eq b a = true

theorem usingHashLoop_spec {find : HbFind} (hfind : HbFindOk find) {hasher : T → Nat} {eq : T → T → Bool}
    (heq : LawfulEq' eq) (hhash : ∀ a b, eq a b = true → hasher a = hasher b) (entries : List T) :
    ∀ (rest : List T) (p : Nat) (keep : List (Nat × Nat)) (dupes : List Nat),
      entries.drop p = rest → p ≤ entries.length →
      (∀ h j, (h, j) ∈ keep → ∃ a, entries[j]? = some a ∧ h = hasher a) →
      (∀ j, (∃ h, (h, j) ∈ keep) ↔ j < p ∧ ¬ DupBefore eq entries p j) →
      (∀ j, j ∈ dupes ↔ j < p ∧ DupBefore eq entries p j) →
      ∃ D, usingHashLoop find hasher eq entries rest p keep dupes = .ok D ∧
        ∀ j, j ∈ D ↔ j < entries.length ∧ DupBefore eq entries entries.length j := by
  intro rest
  induction rest with
  | nil =>
    intro p keep dupes hrest hp hk1 hk2 hd
    have : entries.length ≤ p := by
      rw [List.drop_eq_nil_iff] at hrest; exact hrest
    have hpe : p = entries.length := by omega
    subst hpe
    exact ⟨dupes, by simp [usingHashLoop], hd⟩
  | cons value rest ih =>
    intro p keep dupes hrest hp hk1 hk2 hd
    have hplt : p < entries.length := by
      rcases Nat.lt_or_ge p entries.length with h | h
      · exact h
      · rw [List.drop_eq_nil_iff.2 h] at hrest; exact absurd hrest (by simp)
    have hval : entries[p]? = some value := by
      have : (entries.drop p)[0]? = some value := by rw [hrest]; rfl
      simpa using this
    have hrest' : entries.drop (p + 1) = rest := by
      have : (entries.drop p).drop 1 = rest := by rw [hrest]; rfl
      rwa [List.drop_drop] at this
    -- how `DupBefore` grows
    have hgrow : ∀ j, DupBefore eq entries (p + 1) j ↔
        DupBefore eq entries p j ∨ (j < p ∧ ∃ a, entries[j]? = some a ∧ eq value a = true) := by
      intro j
      constructor
      · rintro ⟨k, hjk, hkp, a, b, ha, hb, he⟩
        rcases Nat.lt_or_ge k p with h | h
        · exact .inl ⟨k, hjk, h, a, b, ha, hb, he⟩
        · have : k = p := by omega
          subst this
          rw [hval] at hb; cases hb
          exact .inr ⟨hjk, a, ha, he⟩
      · rintro (⟨k, hjk, hkp, a, b, ha, hb, he⟩ | ⟨hjp, a, ha, he⟩)
        · exact ⟨k, hjk, by omega, a, b, ha, hb, he⟩
        · exact ⟨p, hjp, by omega, a, value, ha, hval, he⟩
    -- an index ≥ p is never a duplicate before p
    have hself : ¬ DupBefore eq entries (p + 1) p := by
      rintro ⟨k, h1, h2, _⟩; omega
    have hall : keep.all (fun e => e.2 < entries.length) = true := by
      rw [List.all_eq_true]
      rintro ⟨h, j⟩ hm
      obtain ⟨a, ha, _⟩ := hk1 h j hm
      obtain ⟨hlt, _⟩ := List.getElem?_eq_some_iff.1 ha
      simpa using hlt
    unfold usingHashLoop
    rw [if_pos hall]
    split
    · rename_i other hsome
      obtain ⟨⟨h', hmem⟩, hpred⟩ := hfind.hit _ _ _ _ _ hsome
      obtain ⟨a, ha, hh'⟩ := hk1 _ _ hmem
      have heqa : eq value a = true := by simpa [ha] using hpred
      obtain ⟨holt, hondup⟩ := (hk2 other).1 ⟨h', hmem⟩
      -- the kept match is unique
      have huniq : ∀ j b, j < p → ¬ DupBefore eq entries p j → entries[j]? = some b →
          eq value b = true → j = other := by
        intro j b hj hnd hb he
        rcases Nat.lt_trichotomy j other with h | h | h
        · exact absurd ⟨other, h, holt, b, a, hb, ha,
            heq.trans _ _ _ (heq.symm _ _ heqa) he⟩ hnd
        · exact h
        · exact absurd ⟨j, h, hj, a, b, ha, hb,
            heq.trans _ _ _ (heq.symm _ _ he) heqa⟩ hondup
      apply ih (p + 1) _ _ hrest' (by omega)
      · intro h j hm
        rw [List.mem_cons] at hm
        rcases hm with hm | hm
        · cases hm; exact ⟨value, hval, rfl⟩
        · exact hk1 _ _ (List.mem_filter.1 hm).1
      · intro j
        constructor
        · rintro ⟨h, hm⟩
          rw [List.mem_cons] at hm
          rcases hm with hm | hm
          · cases hm; exact ⟨by omega, hself⟩
          · rw [List.mem_filter] at hm
            obtain ⟨hj, hnd⟩ := (hk2 j).1 ⟨h, hm.1⟩
            have hne : j ≠ other := by simpa using hm.2
            refine ⟨by omega, ?_⟩
            rw [hgrow]
            rintro (h1 | ⟨_, b, hb, he⟩)
            · exact hnd h1
            · exact hne (huniq j b hj hnd hb he)
        · rintro ⟨hj, hnd⟩
          rw [hgrow] at hnd
          rcases Nat.lt_or_ge j p with h | h
          · have hnd1 : ¬ DupBefore eq entries p j := fun h1 => hnd (.inl h1)
            obtain ⟨h'', hm⟩ := (hk2 j).2 ⟨h, hnd1⟩
            have hne : j ≠ other := by
              rintro rfl
              exact hnd (.inr ⟨h, a, ha, heqa⟩)
            exact ⟨h'', List.mem_cons_of_mem _ (List.mem_filter.2 ⟨hm, by simpa using hne⟩)⟩
          · have : j = p := by omega
            subst this
            exact ⟨hasher value, List.mem_cons_self⟩
      · intro j
        rw [List.mem_append, List.mem_singleton, hd j, hgrow]
        constructor
        · rintro (⟨h1, h2⟩ | rfl)
          · exact ⟨by omega, .inl h2⟩
          · exact ⟨by omega, .inr ⟨holt, a, ha, heqa⟩⟩
        · rintro ⟨h1, h2 | ⟨hjp, b, hb, he⟩⟩
          · obtain ⟨k, hk, hk', _⟩ := id h2
            exact .inl ⟨by omega, h2⟩
          · by_cases hdb : DupBefore eq entries p j
            · exact .inl ⟨hjp, hdb⟩
            · exact .inr (huniq j b hjp hdb hb he)
    · rename_i hnone
      have hmiss := hfind.miss _ _ _ _ hnone
      -- no kept position is equal to the new value
      have hno : ∀ j b, j < p → ¬ DupBefore eq entries p j → entries[j]? = some b → eq value b = false := by
        intro j b hj hnd hb
        obtain ⟨h, hm⟩ := (hk2 j).2 ⟨hj, hnd⟩
        obtain ⟨a, ha, hh⟩ := hk1 _ _ hm
        rw [ha] at hb; cases hb
        cases hc : eq value b with
        | false => rfl
        | true =>
          have : h = hasher value := by rw [hh, hhash _ _ hc]
          subst this
          have := hmiss j hm
          simp [ha, hc] at this
      -- so every equal position was already a duplicate
      have hno' : ∀ j b, j < p → entries[j]? = some b → eq value b = true → DupBefore eq entries p j := by
        intro j b hj hb he
        by_contra hnd
        rw [hno j b hj hnd hb] at he
        exact absurd he (by simp)
      have hgrow' : ∀ j, j < p → (DupBefore eq entries (p + 1) j ↔ DupBefore eq entries p j) := by
        intro j hj
        rw [hgrow]
        constructor
        · rintro (h | ⟨_, b, hb, he⟩)
          · exact h
          · exact hno' j b hj hb he
        · exact .inl
      apply ih (p + 1) _ _ hrest' (by omega)
      · intro h j hm
        rw [List.mem_cons] at hm
        rcases hm with hm | hm
        · cases hm; exact ⟨value, hval, rfl⟩
        · exact hk1 _ _ hm
      · intro j
        constructor
        · rintro ⟨h, hm⟩
          rw [List.mem_cons] at hm
          rcases hm with hm | hm
          · cases hm; exact ⟨by omega, hself⟩
          · obtain ⟨hj, hnd⟩ := (hk2 j).1 ⟨h, hm⟩
            exact ⟨by omega, by rwa [hgrow' j hj]⟩
        · rintro ⟨hj, hnd⟩
          rcases Nat.lt_or_ge j p with h | h
          · rw [hgrow' j h] at hnd
            obtain ⟨h'', hm⟩ := (hk2 j).2 ⟨h, hnd⟩
            exact ⟨h'', List.mem_cons_of_mem _ hm⟩
          · have : j = p := by omega
            subst this
            exact ⟨hasher value, List.mem_cons_self⟩
      · intro j
        rw [hd j]
        constructor
        · rintro ⟨h1, h2⟩; exact ⟨by omega, by rwa [hgrow' j h1]⟩
        · rintro ⟨h1, h2⟩
          rcases Nat.lt_or_ge j p with h | h
          · exact ⟨h, by rwa [hgrow' j h] at h2⟩
          · have : j = p := by omega
            subst this
            exact absurd h2 hself

theorem usingHash_eq_keepLast {find : HbFind} (hfind : HbFindOk find) {hasher : T → Nat} {eq : T → T → Bool}
    (heq : LawfulEq' eq) (hhash : ∀ a b, eq a b = true → hasher a = hasher b) (entries : List T) :
    usingHash find entries hasher eq = .ok (keepLast eq entries) := by
  unfold usingHash
  obtain ⟨D, hD, h⟩ := usingHashLoop_spec hfind heq hhash entries entries 0 [] [] (by simp) (by omega)
    (by simp) (by simp) (by simp)
  rw [hD]
  simp only [bind, Except.bind]
  rw [← apply_ite (Except.ok : List T → Res (List T))]
  congr 1
  refine dedup_finish _ _ (fun _ j hj => ?_)
  rw [Bool.eq_iff_iff, List.contains_iff_mem, h, List.any_eq_true]
  constructor
  · rintro ⟨_, k, hjk, hk, a, b, ha, hb, he⟩
    refine ⟨b, ?_, ?_⟩
    · rw [List.mem_drop_iff_getElem]
      refine ⟨k - (j + 1), by omega, ?_⟩
      rw [List.getElem?_eq_getElem hk] at hb
      cases hb
      congr 1
      omega
    · rw [List.getElem?_eq_getElem hj] at ha
      cases ha
      exact heq.symm _ _ he
  · rintro ⟨b, hb, he⟩
    rw [List.mem_drop_iff_getElem] at hb
    obtain ⟨k, hk, hkb⟩ := hb
    exact ⟨hj, j + 1 + k, by omega, by omega, entries[j], b, List.getElem?_eq_getElem hj,
      by rw [List.getElem?_eq_getElem (by omega), hkb], heq.symm _ _ he⟩

/-! ### sort and dedup -/

theorem LawfulCmp'.eqLawful {cmp : K → K → Ordering} (h : LawfulCmp cmp) :
    LawfulEq' (fun a b => cmp a b == .eq) where
  refl a := by simp [h.refl a]
  symm a b hab := by
    simp only [beq_iff_eq] at *
    rw [h.swap, hab]; rfl
  trans a b c hab hbc := by
    simp only [beq_iff_eq] at *
    have h1 : cmp a c ≠ .gt := h.trans a b c (by simp [hab]) (by simp [hbc])
    have hba : cmp b a = .eq := by rw [h.swap, hab]; rfl
    have hcb : cmp c b = .eq := by rw [h.swap, hbc]; rfl
    have h2 : cmp c a ≠ .gt := h.trans c b a (by simp [hcb]) (by simp [hba])
    rw [h.swap] at h2
    cases hc : cmp a c <;> simp_all

/-- The comparison used by `sort_by`, as a boolean "less or equal". -/
abbrev leOf (cmp : K → K → Ordering) : K → K → Bool := fun x y => cmp x y != .gt

theorem leOf_trans {cmp : K → K → Ordering} (h : LawfulCmp cmp) (a b c : K) :
    leOf cmp a b = true → leOf cmp b c = true → leOf cmp a c = true := by
  simp only [leOf, bne_iff_ne]
  exact h.trans a b c

theorem leOf_total {cmp : K → K → Ordering} (h : LawfulCmp cmp) (a b : K) :
    (leOf cmp a b || leOf cmp b a) = true := by
  simp only [leOf, Bool.or_eq_true, bne_iff_ne]
  rw [h.swap b a]
  cases cmp a b <;> simp

theorem mem_adjacentDupes (cmp : T → T → Ordering) (xs : List T) (i : Nat) :
    (∀ d ∈ adjacentDupes cmp xs i, i ≤ d) ∧
    ∀ j (_ : j < xs.length), (adjacentDupes cmp xs i).contains (i + j) =
      (match xs[j]?, xs[j + 1]? with
        | some a, some b => cmp a b == .eq
        | _, _ => false) := by
  induction xs generalizing i with
  | nil => simp [adjacentDupes]
  | cons x xs ih =>
    match xs, ih with
    | [], _ =>
      refine ⟨by simp [adjacentDupes], ?_⟩
      intro j hj
      have : j = 0 := by simpa using hj
      subst this
      simp [adjacentDupes]
    | y :: ys, ih =>
      obtain ⟨ih1, ih2⟩ := ih (i + 1)
      have hnot : (adjacentDupes cmp (y :: ys) (i + 1)).contains i = false := by
        rw [← Bool.not_eq_true, List.contains_iff_mem]
        intro hm
        have := ih1 _ hm
        omega
      constructor
      · intro d hd
        unfold adjacentDupes at hd
        split at hd
        · rw [List.mem_cons] at hd
          rcases hd with rfl | hd
          · exact Nat.le_refl _
          · have := ih1 d hd; omega
        · have := ih1 d hd; omega
      · intro j hj
        unfold adjacentDupes
        cases j with
        | zero =>
          simp only [Nat.add_zero, List.getElem?_cons_zero, Nat.zero_add, List.getElem?_cons_succ]
          split
          · rename_i h; rw [h]; simp
          · rename_i h; rw [hnot]; exact (Bool.not_eq_true _ ▸ h).symm
        | succ j =>
          have h2 := ih2 j (by simpa using hj)
          simp only [List.getElem?_cons_succ] at h2 ⊢
          rw [← h2]
          have e : i + 1 + j = i + (j + 1) := by omega
          rw [e]
          split
          · rw [List.contains_cons]
            have : (i + (j + 1) == i) = false := by simp
            rw [this, Bool.false_or]
          · rfl

/-- In a sorted list, an element has a later equal one iff its successor is equal. -/
theorem sorted_any_later {cmp : T → T → Ordering} (h : LawfulCmp cmp) {xs : List T}
    (hs : xs.Pairwise (fun a b => leOf cmp a b = true)) (j : Nat) (hj : j < xs.length) :
    (match xs[j]?, xs[j + 1]? with
        | some a, some b => cmp a b == .eq
        | _, _ => false) = (xs.drop (j + 1)).any (fun b => cmp xs[j] b == .eq) := by
  rw [List.getElem?_eq_getElem hj]
  by_cases hj1 : j + 1 < xs.length
  · rw [List.getElem?_eq_getElem hj1]
    simp only
    rw [Bool.eq_iff_iff, List.any_eq_true]
    constructor
    · intro he
      exact ⟨xs[j + 1], List.mem_drop_iff_getElem.2 ⟨0, by omega, by simp⟩, he⟩
    · rintro ⟨b, hb, he⟩
      obtain ⟨k, hk, rfl⟩ := List.mem_drop_iff_getElem.1 hb
      rw [List.pairwise_iff_getElem] at hs
      have h1 := hs j (j + 1) hj hj1 (by omega)
      have h2 : leOf cmp xs[j + 1] xs[j + 1 + k] = true := by
        rcases Nat.eq_zero_or_pos k with rfl | hk0
        · simp [leOf, h.refl]
        · exact hs (j + 1) (j + 1 + k) hj1 (by omega) (by omega)
      simp only [leOf, bne_iff_ne, beq_iff_eq] at *
      have h3 : cmp xs[j + 1 + k] xs[j] ≠ .gt := by rw [h.swap, he]; simp
      have h4 := h.trans _ _ _ h2 h3
      rw [h.swap] at h4
      cases hc : cmp xs[j] xs[j + 1] <;> simp_all
  · rw [List.getElem?_eq_none (by omega), List.drop_eq_nil_iff.2 (by omega)]
    simp

theorem filter_mergeSort_class {cmp : T → T → Ordering} (h : LawfulCmp cmp) (es : List T) (a : T) :
    (es.mergeSort (leOf cmp)).filter (fun b => cmp a b == .eq) = es.filter (fun b => cmp a b == .eq) := by
  have hl := LawfulCmp'.eqLawful h
  have hsub : (es.filter (fun b => cmp a b == .eq)).Sublist (es.mergeSort (leOf cmp)) := by
    apply List.sublist_mergeSort (leOf_trans h) (leOf_total h)
    · rw [List.pairwise_iff_forall_sublist]
      intro x y hxy
      have hx : x ∈ es.filter (fun b => cmp a b == .eq) := hxy.subset (by simp)
      have hy : y ∈ es.filter (fun b => cmp a b == .eq) := hxy.subset (by simp)
      have := (hl.isClass a x y (List.mem_filter.1 hx).2).1 (List.mem_filter.1 hy).2
      simp only [beq_iff_eq] at this
      simp [leOf, this]
    · exact List.filter_sublist
  have hsub2 := hsub.filter (fun b => cmp a b == .eq)
  rw [List.filter_filter] at hsub2
  simp only [Bool.and_self] at hsub2
  symm
  apply hsub2.eq_of_length
  exact ((List.mergeSort_perm es (leOf cmp)).filter _).length_eq.symm

theorem sortedAndDedupped_eq {cmp : T → T → Ordering} (h : LawfulCmp cmp) (es : List T) :
    sortedAndDedupped es cmp =
      keepLast (fun a b => cmp a b == .eq) (es.mergeSort (leOf cmp)) := by
  unfold sortedAndDedupped
  simp only
  refine dedup_finish _ _ (fun _ j hj => ?_)
  have h1 := (mem_adjacentDupes cmp (es.mergeSort (leOf cmp)) 0).2 j hj
  rw [Nat.zero_add] at h1
  rw [h1]
  exact sorted_any_later h (List.pairwise_mergeSort (leOf_trans h) (leOf_total h) es) j hj

theorem sortedAndDedupped_perm {cmp : T → T → Ordering} (h : LawfulCmp cmp) (es : List T) :
    (sortedAndDedupped es cmp).Perm (keepLast (fun a b => cmp a b == .eq) es) := by
  rw [sortedAndDedupped_eq h]
  exact keepLast_perm_of_filter_class (LawfulCmp'.eqLawful h) (filter_mergeSort_class h es)

theorem sortedAndDedupped_strict {cmp : T → T → Ordering} (h : LawfulCmp cmp) (es : List T) :
    (sortedAndDedupped es cmp).Pairwise (fun a b => cmp a b = .lt) := by
  rw [sortedAndDedupped_eq h]
  have h1 : (keepLast (fun a b => cmp a b == .eq) (es.mergeSort (leOf cmp))).Pairwise
      (fun a b => leOf cmp a b = true) :=
    (List.pairwise_mergeSort (leOf_trans h) (leOf_total h) es).sublist (keepLast_sublist _ _)
  have h2 := keepLast_distinct (eq := fun a b => cmp a b == .eq) (es.mergeSort (leOf cmp))
  unfold Distinct at h2
  refine (h1.and h2).imp ?_
  rintro a b ⟨h3, h4⟩
  simp only [leOf, bne_iff_ne, beq_eq_false_iff_ne] at h3 h4
  cases hc : cmp a b <;> simp_all

/-! ### has_duplicates -/

theorem hasDupBefore_spec (eq : T → T → Bool) (values : List T) (vi : T) (fuel j : Nat)
    (h : j + fuel ≤ values.length) :
    hasDupBefore eq values vi fuel j = .ok (((values.drop j).take fuel).any (fun v => eq v vi)) := by
  induction fuel generalizing j with
  | zero => simp [hasDupBefore]
  | succ fuel ih =>
    have hj : j < values.length := by omega
    unfold hasDupBefore idx
    rw [List.getElem?_eq_getElem hj]
    simp only [Except.bind, bind]
    rw [List.drop_eq_getElem_cons hj, List.take_succ_cons, List.any_cons, ih (j + 1) (by omega)]
    cases eq values[j] vi <;> simp

theorem hasDupLoop_spec (eq : T → T → Bool) (values : List T) (fuel i : Nat) (h : i + fuel = values.length) :
    ∃ b, hasDupLoop eq values fuel i = .ok b ∧
      (b = true ↔ ∃ k j a c, j < k ∧ i ≤ k ∧ values[j]? = some a ∧ values[k]? = some c ∧ eq a c = true) := by
  induction fuel generalizing i with
  | zero =>
    refine ⟨false, rfl, ?_⟩
    simp only [Bool.false_eq_true, false_iff, not_exists, not_and]
    intro k j a c _ hk _ hc
    rw [List.getElem?_eq_none (by omega)] at hc
    exact absurd hc (by simp)
  | succ fuel ih =>
    have hi : i < values.length := by omega
    obtain ⟨b, hb, hb'⟩ := ih (i + 1) (by omega)
    unfold hasDupLoop idx
    rw [List.getElem?_eq_getElem hi]
    simp only [Except.bind, bind]
    rw [hasDupBefore_spec eq values values[i] i 0 (by omega)]
    simp only [List.drop_zero]
    have hany : (values.take i).any (fun v => eq v values[i]) = true ↔
        ∃ j a, j < i ∧ values[j]? = some a ∧ eq a values[i] = true := by
      rw [List.any_eq_true]
      constructor
      · rintro ⟨x, hx, he⟩
        obtain ⟨j, hj, rfl⟩ := List.mem_take_iff_getElem.1 hx
        exact ⟨j, _, by omega, List.getElem?_eq_getElem (by omega), he⟩
      · rintro ⟨j, a, hj, ha, he⟩
        refine ⟨a, List.mem_take_iff_getElem.2 ⟨j, by omega, ?_⟩, he⟩
        rw [List.getElem?_eq_getElem (by omega)] at ha
        exact Option.some.inj ha
    cases hc : (values.take i).any (fun v => eq v values[i]) with
    | true =>
      refine ⟨true, by simp, ?_⟩
      simp only [true_iff]
      obtain ⟨j, a, hj, ha, he⟩ := hany.1 hc
      exact ⟨i, j, a, _, hj, Nat.le_refl _, ha, List.getElem?_eq_getElem hi, he⟩
    | false =>
      refine ⟨b, by simpa using hb, ?_⟩
      rw [hb']
      constructor
      · rintro ⟨k, j, a, c, h1, h2, h3⟩; exact ⟨k, j, a, c, h1, by omega, h3⟩
      · rintro ⟨k, j, a, c, h1, h2, h3, h4, h5⟩
        rcases Nat.lt_or_ge i k with h6 | h6
        · exact ⟨k, j, a, c, h1, by omega, h3, h4, h5⟩
        · have : k = i := by omega
          subst this
          rw [List.getElem?_eq_getElem hi] at h4
          cases h4
          rw [hany.2 ⟨j, a, h1, h3, h5⟩] at hc
          exact absurd hc (by simp)

end Frozen.Model
