import Verif.Lemmas.Borrows
import Verif.Props.History

/-! # C59: the references handed out by `get_disjoint_mut` under Rust's proposed aliasing rules -/

namespace Frozen.Props

open Frozen Frozen.Spec Frozen.Model

variable {M Q K V : Type}

/-- The operations on references are those of the lookups proved elsewhere: same outcome, same entries. -/
theorem c59_same_entries {I : MapImpl M Q K V} {m : M} {inl : Bool} {gm : Q → Nat → Nat → Res Trace}
    (hB : Borrowing I m inl gm) {qs : List Q} {ps : List (Option Nat)} (h : I.getDisjointUncheckedMut m qs = .ok ps) :
    ∃ ops refs, disjointB inl gm qs = .ok (ops, refs) ∧ refs.map (Option.map Prod.fst) = ps := by
  obtain ⟨ops, ptrs, nx, h1, h2⟩ := getMutsB_ok hB qs h 1
  refine ⟨_, _, by unfold disjointB; rw [h1]; rfl, ?_⟩
  rw [asMutsB_pos]
  exact h2

/-- C59 fails under Stacked Borrows: for every map type and contents, as soon as two of the keys are present,
`get_disjoint_mut` itself has undefined behaviour, whatever is done with the references afterwards. -/
theorem c59_stacked_borrows_violated {I : MapImpl M Q K V} {m : M} {inl : Bool} {gm : Q → Nat → Nat → Res Trace}
    (hB : Borrowing I m inl gm) {qs : List Q} {ops : List MemOp} {refs : List (Option (Nat × Nat))}
    (h : disjointB inl gm qs = .ok (ops, refs)) {i j : Nat} (hij : i < j) {q q' : Q} {a b : Nat} (hi : qs[i]? = some q)
    (ha : I.getMut m q = .ok (some a)) (hj : qs[j]? = some q') (hb : I.getMut m q' = .ok (some b)) :
    ¬ SbAllowed ops := by
  intro hall
  unfold disjointB at h
  simp only [bind, Except.bind] at h
  cases hg : getMutsB inl gm qs 1 with
  | error e => simp only [hg] at h; cases h
  | ok x =>
    obtain ⟨o, ptrs, nx⟩ := x
    simp only [hg] at h
    cases h
    have hs := mutSteps_of hB qs (by decide) hg
    obtain ⟨t1, t2, t3⟩ := hs.tags
    obtain ⟨A, B, r, rfl, hr, hBt, c, hc⟩ := hs.two hij hi ha hj hb
    obtain ⟨r1, r2⟩ := t3 a r hr
    obtain ⟨f1, f2⟩ := asMutsB_tags ptrs nx
    obtain ⟨f, hf⟩ := f2 a r hr
    have hl := hall (.value a)
    have mk : ∀ {l : List MemOp} {P : Nat → Prop}, (∀ p c k fp, MemOp.retag p c k fp ∈ l → P c) →
        ∀ op ∈ l, ∀ x, op.makes = some x → P x := by
      intro l P hP op ho x hx
      cases op <;> simp only [MemOp.makes, Option.some.injEq, reduceCtorEq] at hx
      subst hx
      exact hP _ _ _ _ ho
    rw [sbRun_append, sbRun_append] at hl
    cases h1 : sbRun (.value a) [(0, .unique)] A with
    | none => rw [h1] at hl; cases hl
    | some s1 =>
      rw [h1] at hl
      obtain ⟨S1, rfl, e1⟩ := sbRun_root (S := []) h1
      simp only [Option.bind] at hl
      cases h2 : sbRun (.value a) (S1 ++ [(0, .unique)]) B with
      | none => rw [h2] at hl; cases hl
      | some s2 =>
        rw [h2] at hl
        have hS1 : ∀ x ∈ S1.map Prod.fst, x ≠ 0 := by
          intro x hx
          rcases e1 x hx with hx | ⟨op, ho, hx⟩
          · cases hx
          · have := mk (fun p c k fp h => (t2 p c k fp (List.mem_append_left _ h)).1) op ho x hx
            omega
        have habs := sbRun_clears h2 hS1 (r := r) (by omega)
          (fun op ho x hx => by
            have := mk hBt op ho x hx
            omega) hc
        obtain ⟨S2, rfl, -⟩ := sbRun_root h2
        simp only at hl
        rw [sbRun_gone habs (fun op ho x hx => by have := f1 op ho x hx; omega) (by simp [valueFp]) hf] at hl
        cases hl

/-- Two keys of a three-entry map: the first pointer is dead by the time it is used. -/
example : ∃ ops refs, disjointB false (ScanMap.getMutB natEq (ScanMap.new natEq [(3, 'a'), (5, 'b'), (7, 'c')])) [3, 7] =
    .ok (ops, refs) ∧ refs = [some (0, 15), some (2, 16)] ∧ ¬ SbAllowed ops := by
  obtain ⟨ops, refs, h1, h2⟩ : ∃ ops refs, disjointB false
      (ScanMap.getMutB natEq (ScanMap.new natEq [(3, 'a'), (5, 'b'), (7, 'c')])) [3, 7] = .ok (ops, refs) ∧
      refs = [some (0, 15), some (2, 16)] := ⟨_, _, rfl, rfl⟩
  exact ⟨ops, refs, h1, h2, c59_stacked_borrows_violated (.scan natEq _) h1 (i := 0) (j := 1) (by decide) rfl
    (a := 0) (by rfl) rfl (b := 2) (by rfl)⟩

/-- Under Stacked Borrows the references are fine if only the last key is present; in particular for a single key. -/
theorem c59_stacked_borrows_partial {I : MapImpl M Q K V} {m : M} {inl : Bool} {gm : Q → Nat → Nat → Res Trace}
    (hB : Borrowing I m inl gm) {qs : List Q} {ops : List MemOp} {refs : List (Option (Nat × Nat))}
    (h : disjointB inl gm qs = .ok (ops, refs))
    (hlast : ∀ i q, i + 1 < qs.length → qs[i]? = some q → I.getMut m q = .ok none) (us : List (Nat × Bool)) :
    SbAllowed (ops ++ useOps refs us) := by
  intro l
  unfold disjointB at h
  simp only [bind, Except.bind] at h
  cases hg : getMutsB inl gm qs 1 with
  | error e => simp only [hg] at h; cases h
  | ok x =>
    obtain ⟨o, ptrs, nx⟩ := x
    simp only [hg] at h
    cases h
    have hs := mutSteps_of hB qs (by decide) hg
    have hlast' : ∀ i x, i + 1 < qs.length → ptrs[i]? = some x → x = none := by
      intro i x hi hx
      have hq : qs[i]? = some (qs[i]'(by omega)) := List.getElem?_eq_getElem (by omega)
      have h1 := hs.getMut hq hx
      rw [hlast i _ hi hq] at h1
      cases x with
      | none => rfl
      | some x => cases h1
    obtain ⟨L1, n1, h1, h2, h3⟩ := hs.sb (by decide) l hlast' [] [] 1 (Nat.le_refl _) (by simp)
    obtain ⟨L2, n2, k1, k2⟩ := asMutsB_sb ptrs nx l (fun i x hi hx => hlast' i x (by rw [← hs.length]; exact hi) hx)
      L1 [] n1 h2 h3
    have k3 := chRun_use (l := l) (asMutsB ptrs nx).2 us (c := L2 ++ [(0, true)]) (n := n2) (fun p f hp hl => by
      obtain ⟨L3, rfl⟩ := k2 p f hp hl
      exact ⟨L3 ++ [(0, true)], rfl⟩)
    have hrun : chRun l ([(0, true)], 1) (o ++ (asMutsB ptrs nx).1 ++ useOps (asMutsB ptrs nx).2 us) =
        some (L2 ++ [(0, true)], n2) := by
      have h1' : chRun l ([(0, true)], 1) o = some (L1 ++ [(0, true)], n1) := h1
      have k1' : chRun l (L1 ++ [(0, true)], n1) (asMutsB ptrs nx).1 = some (L2 ++ [(0, true)], n2) := k1
      rw [chRun_append, chRun_append, h1']
      simp only [Option.bind]
      rw [k1']
      simp only
      exact k3
    obtain ⟨st', g1, -⟩ := chRun_sound hrun (st := [(0, .unique)])
      ⟨.keep (fun _ => rfl) (by decide) (.nil _), by simp, by simp⟩
    rw [g1]
    rfl

/-- A missing key, then one that is present. -/
example : ∃ ops refs, disjointB false (ScanMap.getMutB natEq (ScanMap.new natEq [(3, 'a'), (5, 'b'), (7, 'c')])) [4, 7] =
    .ok (ops, refs) ∧ refs = [none, some (2, 13)] ∧ SbAllowed (ops ++ useOps refs [(1, true), (0, true), (1, false)]) := by
  obtain ⟨ops, refs, h1, h2⟩ : ∃ ops refs, disjointB false
      (ScanMap.getMutB natEq (ScanMap.new natEq [(3, 'a'), (5, 'b'), (7, 'c')])) [4, 7] = .ok (ops, refs) ∧
      refs = [none, some (2, 13)] := ⟨_, _, rfl, rfl⟩
  refine ⟨ops, refs, h1, h2, c59_stacked_borrows_partial (.scan natEq _) h1 ?_ _⟩
  intro i q hi hq
  have : i = 0 := by simp at hi; omega
  subst this
  cases hq
  rfl

/-- Under Tree Borrows, all references to different entries may be used in any order. -/
theorem c59_tree_borrows {I : MapImpl M Q K V} {m : M} {inl : Bool} {gm : Q → Nat → Nat → Res Trace}
    (hB : Borrowing I m inl gm) {qs : List Q} {ops : List MemOp} {refs : List (Option (Nat × Nat))}
    (h : disjointB inl gm qs = .ok (ops, refs))
    (hd : ∀ (i j p f g : Nat), i < j → refs[i]? = some (some (p, f)) → refs[j]? ≠ some (some (p, g)))
    (us : List (Nat × Bool)) : TbAllowed (ops ++ useOps refs us) := by
  intro l
  unfold disjointB at h
  simp only [bind, Except.bind] at h
  cases hg : getMutsB inl gm qs 1 with
  | error e => simp only [hg] at h; cases h
  | ok x =>
    obtain ⟨o, ptrs, nx⟩ := x
    simp only [hg] at h
    cases h
    have hs := mutSteps_of hB qs (by decide) hg
    obtain ⟨E1, n1, h1, h2, h3, h4⟩ := hs.tb (by decide) l (fun c => if c = 0 then some true else none) 1
      (Nat.le_refl _) rfl
    obtain ⟨E2, n2, k1, k2, k3⟩ := asMutsB_tb ptrs nx (fun p r hr => (hs.tags.2.2 p r hr).2) l E1 n1 h2 h4
    have hrun : envRun l (fun c => if c = 0 then some true else none, 1) (o ++ (asMutsB ptrs nx).1) = some (E2, n2) := by
      rw [envRun_append, h1]
      exact k1
    obtain ⟨st', g1, g2⟩ := envRun_sound hrun (st := [⟨0, [0], .active⟩]) (by
      refine ⟨by simp, by simp, by simp, ?_⟩
      intro c b hc
      simp only at hc
      split at hc
      · rename_i h0
        subst h0
        exact ⟨[0], rfl, by simp, fun _ x hx _ => by simp at hx; subst hx; exact .inr rfl⟩
      · cases hc)
    rw [tbRun_append, g1]
    by_cases hl : ∃ p f, some (p, f) ∈ (asMutsB ptrs nx).2 ∧ l = .value p
    · obtain ⟨p, f, hm, rfl⟩ := hl
      obtain ⟨path, q1, q2, q3⟩ := g2.known f true (k3 p f hm rfl)
      refine tbRun_use _ f path ?_ us (fun _ => q1) (q3 rfl)
      intro p' r hm' hp
      cases hp
      obtain ⟨i, hi⟩ := List.getElem?_of_mem hm
      obtain ⟨j, hj⟩ := List.getElem?_of_mem hm'
      rcases Nat.lt_trichotomy i j with hij | hij | hij
      · exact absurd hj (hd i j _ _ _ hij hi)
      · subst hij
        rw [hi] at hj
        cases hj
        rfl
      · exact absurd hi (hd j i _ _ _ hij hj)
    · refine tbRun_use _ 0 [] ?_ us (fun h => absurd h hl) (fun x _ h => by cases h)
      exact fun p r hm hp => absurd ⟨p, r, hm, hp⟩ hl

/-- In particular for every map this crate builds and queries that are different according to an equality that agrees with
the keys'. -/
theorem c59_tree_borrows_built [Target] {eqK : K → K → Bool} {mt : Q → K → Bool} {es : List (K × V)} {I : MapImpl M Q K V}
    {m : M} (hb : Built eqK mt es I m) {eqQ : Q → Q → Bool} (hc : EqCompatible eqQ mt) {qs : List Q}
    (hdist : Distinct eqQ qs) {inl : Bool} {gm : Q → Nat → Nat → Res Trace} (hB : Borrowing I m inl gm) :
    ∃ (ops : List MemOp) (refs : List (Option (Nat × Nat))), disjointB inl gm qs = .ok (ops, refs) ∧
      I.getDisjointMut eqQ m qs = .ok (refs.map (Option.map Prod.fst)) ∧
      ∀ us, TbAllowed (ops ++ useOps refs us) := by
  obtain ⟨ps, p1, p2, -, -⟩ := c23_results_are_get_mut hb eqQ qs
  obtain ⟨ops, refs, r1, r2⟩ := c59_same_entries hB p1
  refine ⟨ops, refs, r1, by rw [r2]; exact p2 hdist, fun us => c59_tree_borrows hB r1 ?_ us⟩
  intro i j p f g hij hi hj
  have e : ∀ (k : Nat) p f, refs[k]? = some (some (p, f)) → ps[k]? = some (some p) := by
    intro k p f hk
    rw [← r2, List.getElem?_map, hk]
    rfl
  exact c23_no_aliasing_partial hb hc (p2 hdist) hij (e i p f hi) (e j p g hj) rfl

/-- Writing through both references alternately. -/
example : ∃ ops refs, disjointB false (ScanMap.getMutB natEq (ScanMap.new natEq [(3, 'a'), (5, 'b'), (7, 'c')])) [3, 7] =
    .ok (ops, refs) ∧ refs = [some (0, 15), some (2, 16)] ∧
    TbAllowed (ops ++ useOps refs [(0, true), (1, true), (0, false), (1, true), (0, true)]) := by
  obtain ⟨ops, refs, h1, h2⟩ : ∃ ops refs, disjointB false
      (ScanMap.getMutB natEq (ScanMap.new natEq [(3, 'a'), (5, 'b'), (7, 'c')])) [3, 7] = .ok (ops, refs) ∧
      refs = [some (0, 15), some (2, 16)] := ⟨_, _, rfl, rfl⟩
  refine ⟨ops, refs, h1, h2, c59_tree_borrows (.scan natEq _) h1 ?_ _⟩
  subst h2
  intro i j p f g hij hi hj
  match i, j with
  | 0, 0 => omega
  | 0, 1 => simp at hi hj; omega
  | 0, j + 2 => simp at hj
  | 1, 0 => omega
  | 1, 1 => omega
  | 1, j + 2 => simp at hj
  | i + 2, _ => simp at hi

/-- The machines do reject what they should: two references to the same value, both written through. -/
example : ¬ TbAllowed [.retag 0 1 .mut (valueFp 0), .retag 0 2 .mut (valueFp 0), .write 1 (valueFp 0),
    .write 2 (valueFp 0)] := fun h => by
  have := h (.value 0)
  revert this
  decide

end Frozen.Props
