import Verif.Lemmas.BorrowsExact
import Verif.Props.Borrows

/-! # C59: exactly when `get_disjoint_mut` is allowed by Stacked Borrows -/

namespace Frozen.Props

open Frozen Frozen.Spec Frozen.Model

variable {M Q K V : Type}

/-- A key that is found, then a key for which the entries are borrowed mutably. -/
theorem sb_violated_eager {I : MapImpl M Q K V} {m : M} {inl : Bool} {gm : Q → Nat → Nat → Res Trace}
    (hB : BorrowingKind I m inl gm true) {qs : List Q} {ops : List MemOp} {refs : List (Option (Nat × Nat))}
    (h : disjointB inl gm qs = .ok (ops, refs)) {i j : Nat} (hij : i < j) {q q' : Q} {a : Nat} (hi : qs[i]? = some q)
    (ha : I.getMut m q = .ok (some a)) (hj : qs[j]? = some q') : ¬ SbAllowed ops := by
  unfold disjointB at h
  simp only [bind, Except.bind] at h
  cases hg : getMutsB inl gm qs 1 with
  | error e => simp only [hg] at h; cases h
  | ok x =>
    obtain ⟨o, ptrs, nx⟩ := x
    simp only [hg] at h
    cases h
    obtain ⟨hil, rfl⟩ := List.getElem?_eq_some_iff.1 hi
    obtain ⟨hjl, rfl⟩ := List.getElem?_eq_some_iff.1 hj
    have hsplit : qs = (qs.take i ++ [qs[i]]) ++ qs.drop (i + 1) := by
      rw [List.append_assoc, List.singleton_append, List.cons_getElem_drop_succ, List.take_append_drop]
    rw [hsplit] at hg
    obtain ⟨A, pA, t', B, pB, g1, g2, rfl, rfl⟩ := getMutsB_append hg
    obtain ⟨A1, pA1, t1, A2, pA2, k1, k2, rfl, rfl⟩ := getMutsB_append g1
    have hb := kind_borrowing hB
    have s1 := (mutSteps_of hb _ (by decide) k1).tags
    have s2 := (mutSteps_of hb _ (by omega) k2).tags
    have s3 := (mutSteps_of hb _ (by omega) g2).tags
    obtain ⟨A3, v, r, rfl, rfl, hr⟩ := getMutsB_one hb k2 ha (by omega)
    have hr1 := (s2.2.2 a r (by simp)).1
    have hdrop : ∃ y ys, qs.drop (i + 1) = y :: ys := by
      cases hd : qs.drop (i + 1) with
      | nil => rw [List.drop_eq_nil_iff] at hd; omega
      | cons y ys => exact ⟨y, ys, rfl⟩
    obtain ⟨y, ys, hd⟩ := hdrop
    rw [hd] at g2
    obtain ⟨c, hc⟩ := getMutsB_touch hB g2
    obtain ⟨f1, f2⟩ := asMutsB_tags ((pA1 ++ [some (a, r)]) ++ pB) nx
    obtain ⟨f, hf⟩ := f2 a r (by simp)
    refine not_sbAllowed (r := r) (by omega) ?_ (fun p c k fp h => ?_) hc (fun op ho x hx => ?_) hf
    · intro p c k fp h
      rcases List.mem_append.1 h with h | h
      · exact (s1.2.1 p c k fp h).1
      · have := (s2.2.1 p c k fp h).1
        omega
    · have := (s3.2.1 p c k fp h).1
      omega
    · have := f1 op ho x hx
      omega

/-- One key that is found, if the lookups of the missing keys only look. -/
theorem sb_allowed_lazy {I : MapImpl M Q K V} {m : M} {inl : Bool} {gm : Q → Nat → Nat → Res Trace}
    (hB : BorrowingKind I m inl gm false) {xs ys : List Q} {q : Q} {ops : List MemOp} {refs : List (Option (Nat × Nat))}
    (h : disjointB inl gm (xs ++ q :: ys) = .ok (ops, refs)) {a : Nat} (ha : I.getMut m q = .ok (some a))
    (hxs : ∀ x ∈ xs, I.getMut m x = .ok none) (hys : ∀ y ∈ ys, I.getMut m y = .ok none) (us : List (Nat × Bool)) :
    SbAllowed (ops ++ useOps refs us) := by
  obtain ⟨rfl, hP⟩ := kind_peeks hB
  intro l
  unfold disjointB at h
  simp only [bind, Except.bind] at h
  cases hg : getMutsB false gm (xs ++ q :: ys) 1 with
  | error e => simp only [hg] at h; cases h
  | ok x =>
    obtain ⟨o, ptrs, nx⟩ := x
    simp only [hg] at h
    cases h
    rw [show xs ++ q :: ys = (xs ++ [q]) ++ ys by simp] at hg
    obtain ⟨A, pA, t', B, pB, g1, g2, rfl, rfl⟩ := getMutsB_append hg
    have g1' := g1
    obtain ⟨A1, pA1, t1, A2, pA2, k1, k2, rfl, rfl⟩ := getMutsB_append g1
    have hb := kind_borrowing hB
    have S0 := mutSteps_of hb _ (by decide) g1'
    have S1 := mutSteps_of hb _ (by decide) k1
    have s1 := S1.tags
    have S3 := mutSteps_of hb _ (by have := S0.tags.1; omega) g2
    have none1 : ∀ x ∈ pA1, x = none := by
      intro x hx
      obtain ⟨i, hi⟩ := List.getElem?_of_mem hx
      have hil := (List.getElem?_eq_some_iff.1 hi).1
      rw [S1.length] at hil
      have hm := S1.getMut (List.getElem?_eq_getElem hil) hi
      rw [hxs _ (List.getElem_mem hil)] at hm
      cases x with
      | none => rfl
      | some x => cases hm
    have none3 : ∀ x ∈ pB, x = none := by
      intro x hx
      obtain ⟨i, hi⟩ := List.getElem?_of_mem hx
      have hil := (List.getElem?_eq_some_iff.1 hi).1
      rw [S3.length] at hil
      have hm := S3.getMut (List.getElem?_eq_getElem hil) hi
      rw [hys _ (List.getElem_mem hil)] at hm
      cases x with
      | none => rfl
      | some x => cases hm
    obtain ⟨A3, v, r, rfl, rfl, hr⟩ := getMutsB_one hb k2 ha (by omega)
    have e1 : (pA1 ++ [some (a, r)]) ++ pB = pA1 ++ some (a, r) :: pB := by simp
    rw [e1]
    obtain ⟨m1, m2⟩ := asMutsB_single none1 none3 a r nx
    rw [m1]
    -- up to the pointer
    obtain ⟨L1, n1, h1, h2, h3⟩ := S0.sb (by decide) l (fun i x hi hx => by
      have hlen := S1.length
      simp only [List.length_append, List.length_singleton] at hi
      rw [List.getElem?_append_left (by omega)] at hx
      exact none1 x (List.mem_of_getElem? hx)) [] [] 1 (Nat.le_refl _) (by simp)
    obtain ⟨st, w1, w2⟩ := chRun_sound h1 (st := [(0, .unique)])
      ⟨.keep (fun _ => rfl) (by decide) (.nil _), by simp, by simp⟩
    obtain ⟨S, rfl, e2⟩ := sbRun_root (S := []) w1
    have hS : ∀ x ∈ S.map Prod.fst, x ≠ 0 := by
      intro x hx
      rcases e2 x hx with hx | ⟨op, ho, hx⟩
      · cases hx
      · cases op <;> simp only [MemOp.makes, Option.some.injEq, reduceCtorEq] at hx
        subst hx
        have := (S0.tags.2.1 _ _ _ _ ho).1
        omega
    have hraw : l = .value a → (r, SbPerm.sharedRW) ∈ S := by
      rintro rfl
      rw [← List.append_assoc, sbRun_append] at w1
      cases w3 : sbRun (.value a) [(0, .unique)] (A1 ++ A3) with
      | none => rw [w3] at w1; cases w1
      | some s3 =>
        rw [w3] at w1
        simp only [Option.bind, sbRun, sbStep, valueFp, beq_self_eq_true, if_true] at w1
        cases w4 : sbRaw v r [] [] s3 with
        | none => rw [w4] at w1; cases w1
        | some s4 =>
          rw [w4] at w1
          cases w1
          have := sbRaw_new w4
          rcases List.mem_append.1 this with h | h
          · exact h
          · simp at h
    -- the rest of the keys
    obtain ⟨S', p1, p2, p3⟩ := peeks_run hP l (by have := S0.tags.1; omega) g2 none3 hS
    rw [sbRun_append, sbRun_append, sbRun_append, w1]
    simp only [Option.bind]
    rw [p1]
    simp only
    by_cases hl : l = .value a
    · obtain ⟨s5, q1⟩ := sbWrite_raw (List.mem_append_left [(0, .unique)] (p3 r (hraw hl))) []
      subst hl
      have : sbRun (.value a) (S' ++ [(0, .unique)]) [.retag r nx .mut (valueFp a)] = some ((nx, .unique) :: s5) := by
        simp [sbRun, sbStep, valueFp, q1]
      rw [this]
      simp only
      rw [sbRun_use m2 (fun _ => ⟨s5, rfl⟩)]
      rfl
    · have : sbRun l (S' ++ [(0, .unique)]) [.retag r nx .mut (valueFp a)] = some (S' ++ [(0, .unique)]) := by
        have hv : valueFp a l = false := by
          cases l with
          | key i => rfl
          | value i => simp only [valueFp, beq_eq_false_iff_ne]; exact fun h => hl (by rw [h])
        simp [sbRun, sbStep, hv]
      rw [this]
      simp only
      rw [sbRun_use m2 (fun h => absurd h hl)]
      rfl

/-- **C59** (exactly) Stacked Borrows allows `get_disjoint_mut` if and only if after a key that is present no further key is looked up — or, for the map
types that do not borrow their entries to look for a missing key (ordered, dense and sparse scalar maps outside the macros), if no further
key is present.  If it is allowed at all, the references may be used in any order. -/
theorem c59_stacked_borrows_iff {I : MapImpl M Q K V} {m : M} {inl eager : Bool} {gm : Q → Nat → Nat → Res Trace}
    (hB : BorrowingKind I m inl gm eager) {qs : List Q} {ops : List MemOp} {refs : List (Option (Nat × Nat))}
    (h : disjointB inl gm qs = .ok (ops, refs)) :
    (SbAllowed ops ↔ ∀ (i j : Nat) (q q' : Q) (a : Nat), i < j → qs[i]? = some q → I.getMut m q = .ok (some a) → qs[j]? = some q' →
      eager = false ∧ I.getMut m q' = .ok none) ∧
    (SbAllowed ops → ∀ us, SbAllowed (ops ++ useOps refs us)) := by
  have hb := kind_borrowing hB
  have hget : ∀ q ∈ qs, ∃ r, I.getMut m q = .ok r := by
    intro q hq
    have h' := h
    unfold disjointB at h'
    simp only [bind, Except.bind] at h'
    cases hg : getMutsB inl gm qs 1 with
    | error e => simp only [hg] at h'; cases h'
    | ok x =>
      obtain ⟨o, ptrs, nx⟩ := x
      have hs := mutSteps_of hb qs (by decide) hg
      obtain ⟨i, hi⟩ := List.getElem?_of_mem hq
      have hil := (List.getElem?_eq_some_iff.1 hi).1
      rw [← hs.length] at hil
      exact ⟨_, hs.getMut hi (List.getElem?_eq_getElem hil)⟩
  have back : (∀ (i j : Nat) (q q' : Q) (a : Nat), i < j → qs[i]? = some q → I.getMut m q = .ok (some a) → qs[j]? = some q' →
      eager = false ∧ I.getMut m q' = .ok none) → ∀ us, SbAllowed (ops ++ useOps refs us) := by
    intro hc us
    by_cases hlast : ∀ i q, i + 1 < qs.length → qs[i]? = some q → I.getMut m q = .ok none
    · exact c59_stacked_borrows_partial hb h hlast us
    · simp only [not_forall] at hlast
      obtain ⟨i, q, hi, hq, hne⟩ := hlast
      obtain ⟨r, hr⟩ := hget q (List.mem_of_getElem? hq)
      cases r with
      | none => exact absurd hr hne
      | some a =>
        obtain ⟨rfl, -⟩ := hc i (i + 1) q _ a (by omega) hq hr (List.getElem?_eq_getElem hi)
        obtain ⟨hil, rfl⟩ := List.getElem?_eq_some_iff.1 hq
        have hsplit : qs = qs.take i ++ qs[i] :: qs.drop (i + 1) := by
          rw [List.cons_getElem_drop_succ, List.take_append_drop]
        rw [hsplit] at h
        refine sb_allowed_lazy hB h hr ?_ ?_ us
        · intro x hx
          obtain ⟨k, hk⟩ := List.getElem?_of_mem hx
          have hkl := (List.getElem?_eq_some_iff.1 hk).1
          simp only [List.length_take] at hkl
          rw [List.getElem?_take_of_lt (by omega)] at hk
          obtain ⟨r, hr'⟩ := hget x (List.mem_of_getElem? hk)
          cases r with
          | none => exact hr'
          | some b =>
            have := (hc k i x _ b (by omega) hk hr' hq).2
            rw [hr] at this
            cases this
        · intro y hy
          obtain ⟨k, hk⟩ := List.getElem?_of_mem hy
          rw [List.getElem?_drop] at hk
          exact (hc i (i + 1 + k) _ y a (by omega) hq hr hk).2
  have fwd : SbAllowed ops → ∀ (i j : Nat) (q q' : Q) (a : Nat), i < j → qs[i]? = some q → I.getMut m q = .ok (some a) →
      qs[j]? = some q' → eager = false ∧ I.getMut m q' = .ok none := by
    intro hs i j q q' a hij hi ha hj
    constructor
    · cases eager with
      | false => rfl
      | true => exact absurd hs (sb_violated_eager hB h hij hi ha hj)
    · obtain ⟨r, hr⟩ := hget q' (List.mem_of_getElem? hj)
      cases r with
      | none => exact hr
      | some b => exact absurd hs (c59_stacked_borrows_violated hb h hij hi ha hj hr)
  refine ⟨⟨fwd, fun hc => ?_⟩, fun hs => back (fwd hs)⟩
  have := back hc []
  simpa [useOps] using this

/-- A present and a missing key: a scan map fails, an ordered map does not. -/
example :
    (∃ ops refs, disjointB false (ScanMap.getMutB natEq (ScanMap.new natEq [(3, 'a'), (5, 'b')])) [3, 4] = .ok (ops, refs) ∧
      ¬ SbAllowed ops) ∧
    ∃ ops refs, disjointB false (EytzingerMap.getMutB natCmp ⟨[(5, 'b'), (3, 'a')]⟩) [3, 4] = .ok (ops, refs) ∧
      refs = [some (1, 7), none] ∧ ∀ us, SbAllowed (ops ++ useOps refs us) := by
  constructor
  · obtain ⟨ops, refs, h1⟩ : ∃ ops refs, disjointB false
      (ScanMap.getMutB natEq (ScanMap.new natEq [(3, 'a'), (5, 'b')])) [3, 4] = .ok (ops, refs) := ⟨_, _, rfl⟩
    refine ⟨ops, refs, h1, fun hs => ?_⟩
    have := ((c59_stacked_borrows_iff (.scan natEq _) h1).1.1 hs 0 1 3 4 0 (by decide) rfl (by rfl) rfl).1
    cases this
  · obtain ⟨ops, refs, h1, h2⟩ : ∃ ops refs, disjointB false (EytzingerMap.getMutB natCmp ⟨[(5, 'b'), (3, 'a')]⟩) [3, 4] = .ok (ops, refs) ∧
      refs = [some (1, 7), none] := ⟨_, _, by cbv, by cbv⟩
    have hiff := c59_stacked_borrows_iff (.ordered natCmp _) h1
    refine ⟨ops, refs, h1, h2, hiff.2 (hiff.1.2 ?_)⟩
    intro i j q q' a hij hi ha hj
    have : i = 0 ∧ j = 1 := by
      have hjl := (List.getElem?_eq_some_iff.1 hj).1
      simp at hjl
      omega
    obtain ⟨rfl, rfl⟩ := this
    cases hj
    exact ⟨rfl, by cbv⟩

end Frozen.Props
