import Verif.Lemmas.Borrows

/-! # Lemmas: when exactly Stacked Borrows allows `get_disjoint_mut` -/

namespace Frozen.Model

open Frozen Frozen.Spec Frozen.Props

variable {M Q K V T : Type}

theorem kind_borrowing {I : MapImpl M Q K V} {m : M} {inl eager : Bool} {gm : Q → Nat → Nat → Res Trace}
    (h : BorrowingKind I m inl gm eager) : Borrowing I m inl gm := by
  cases h <;> constructor

theorem hash_eager (hQ : Q → Res Nat) (eqv : Q → K → Bool) (m : HashMap K V) (q : Q) {base t : Nat} {r : Trace}
    (h : m.getMutB hQ eqv q base t = .ok r) : ∃ c, MemOp.retag base c .mut wholeFp ∈ r.ops := by
  unfold HashMap.getMutB HashTable.findMutB at h
  simp only [bind, Except.bind] at h
  split at h
  · cases h
  · split at h
    · cases h
    · split at h
      · cases h
      · split at h
        · cases h
        · cases h
          exact ⟨t, by simp⟩

theorem kind_touch {I : MapImpl M Q K V} {m : M} {gm : Q → Nat → Nat → Res Trace}
    (h : BorrowingKind I m false gm true) (q : Q) {base t : Nat} {r : Trace} (hg : gm q base t = .ok r) :
    ∃ c, MemOp.retag base c .mut wholeFp ∈ r.ops := by
  cases h with
  | scan eqv m => cases hg; exact ⟨t, by simp⟩
  | hash hQ eqv m => exact hash_eager _ _ m q hg
  | fzHash hQ eqv m => exact hash_eager _ _ m q hg
  | fzScalarHash qindex eqv m => exact hash_eager _ _ m q hg
  | fzString bhStr bhSlice m =>
    cases m with
    | leftRange r m => exact hash_eager _ _ m q hg
    | rightRange r m => exact hash_eager _ _ m q hg
    | hash m => exact hash_eager _ _ m q hg

/-- What a lookup of a missing key does if it does not borrow the entries mutably. -/
def Peeks (base t : Nat) (r : Trace) : Prop :=
  (r.ops = [] ∧ r.next = t) ∨ (r.ops = [.retag base t .shr wholeFp, .read t keysFp] ∧ r.next = t + 1)

theorem eytzinger_peeks (qcmp : Q → K → Ordering) (m : EytzingerMap K V) (q : Q) {base t : Nat} {r : Trace}
    (hg : m.getMutB qcmp q base t = .ok r) (hf : r.found = none) : Peeks base t r := by
  unfold EytzingerMap.getMutB at hg
  simp only [bind, Except.bind] at hg
  split at hg
  · split at hg
    · cases hg
    · cases hg; cases hf
  · cases hg; exact .inr ⟨rfl, rfl⟩

theorem dense_peeks (qindex : Q → Nat) (m : DenseMap K V) (q : Q) {base t : Nat} {r : Trace}
    (hg : m.getMutB qindex q base t = .ok r) (hf : r.found = none) : Peeks base t r := by
  unfold DenseMap.getMutB at hg
  simp only [bind, Except.bind] at hg
  split at hg
  · split at hg
    · cases hg
    · cases hg; cases hf
  · cases hg; exact .inl ⟨rfl, rfl⟩

theorem sparse_peeks (qindex : Q → Nat) (m : SparseMap K V) (q : Q) {base t : Nat} {r : Trace}
    (hg : m.getMutB qindex q base t = .ok r) (hf : r.found = none) : Peeks base t r := by
  unfold SparseMap.getMutB at hg
  simp only [bind, Except.bind] at hg
  split at hg
  · split at hg
    · cases hg
    · split at hg
      · split at hg
        · cases hg
        · cases hg; cases hf
      · cases hg; exact .inl ⟨rfl, rfl⟩
  · cases hg; exact .inl ⟨rfl, rfl⟩

theorem kind_peeks {I : MapImpl M Q K V} {m : M} {inl : Bool} {gm : Q → Nat → Nat → Res Trace}
    (h : BorrowingKind I m inl gm false) : inl = false ∧ ∀ (q : Q) (base t : Nat) (r : Trace), gm q base t = .ok r → r.found = none →
      Peeks base t r := by
  cases h with
  | ordered qcmp m => exact ⟨rfl, fun q base t r => eytzinger_peeks qcmp m q⟩
  | fzOrdered qcmp m => exact ⟨rfl, fun q base t r => eytzinger_peeks qcmp m q⟩
  | dense qindex m => exact ⟨rfl, fun q base t r => dense_peeks qindex m q⟩
  | sparse qindex m => exact ⟨rfl, fun q base t r => sparse_peeks qindex m q⟩
  | fzScalarDense qindex eqv m => exact ⟨rfl, fun q base t r => dense_peeks qindex m q⟩
  | fzScalarSparse qindex eqv m => exact ⟨rfl, fun q base t r => sparse_peeks qindex m q⟩

/-- The lookups for two lists of keys, one after the other. -/
theorem getMutsB_append {inl : Bool} {gm : Q → Nat → Nat → Res Trace} {xs ys : List Q} {t : Nat} {ops : List MemOp}
    {ptrs : List (Option (Nat × Nat))} {nx : Nat} (h : getMutsB inl gm (xs ++ ys) t = .ok (ops, ptrs, nx)) :
    ∃ A pA t' B pB, getMutsB inl gm xs t = .ok (A, pA, t') ∧ getMutsB inl gm ys t' = .ok (B, pB, nx) ∧ ops = A ++ B ∧
      ptrs = pA ++ pB := by
  induction xs generalizing t ops ptrs with
  | nil => exact ⟨[], [], t, ops, ptrs, rfl, h, rfl, rfl⟩
  | cons q xs ih =>
    rw [List.cons_append] at h
    unfold getMutsB at h
    simp only [bind, Except.bind] at h
    cases hg : gm q (if inl = true then t else 0) (if inl = true then t + 1 else t) with
    | error e => simp only [hg] at h; cases h
    | ok r =>
      simp only [hg] at h
      cases hf : r.found with
      | none =>
        simp only [hf] at h
        cases hr : getMutsB inl gm (xs ++ ys) r.next with
        | error e => simp only [hr] at h; cases h
        | ok rs =>
          obtain ⟨o, ps, n⟩ := rs
          simp only [hr] at h
          cases h
          obtain ⟨A, pA, t', B, pB, h1, h2, rfl, rfl⟩ := ih hr
          refine ⟨_, none :: pA, t', B, pB, by unfold getMutsB; simp only [bind, Except.bind, hg, hf, h1]; rfl, h2, ?_, rfl⟩
          simp only [List.append_assoc]
      | some pv =>
        obtain ⟨p, v⟩ := pv
        simp only [hf] at h
        cases hr : getMutsB inl gm (xs ++ ys) (r.next + 1) with
        | error e => simp only [hr] at h; cases h
        | ok rs =>
          obtain ⟨o, ps, n⟩ := rs
          simp only [hr] at h
          cases h
          obtain ⟨A, pA, t', B, pB, h1, h2, rfl, rfl⟩ := ih hr
          refine ⟨_, some (p, r.next) :: pA, t', B, pB, by unfold getMutsB; simp only [bind, Except.bind, hg, hf, h1]; rfl, h2, ?_, rfl⟩
          simp only [List.append_assoc, List.cons_append]

/-- One lookup that finds its key. -/
theorem getMutsB_one {I : MapImpl M Q K V} {m : M} {inl : Bool} {gm : Q → Nat → Nat → Res Trace} (hB : Borrowing I m inl gm)
    {q : Q} {t : Nat} {ops : List MemOp} {ptrs : List (Option (Nat × Nat))} {nx a : Nat}
    (h : getMutsB inl gm [q] t = .ok (ops, ptrs, nx)) (ha : I.getMut m q = .ok (some a)) (ht : 0 < t) :
    ∃ A v r, ops = A ++ [.retag v r .raw (valueFp a)] ∧ ptrs = [some (a, r)] ∧ r < nx := by
  have hs := mutSteps_of hB [q] ht h
  cases hs with
  | found good touch hm hf rest =>
    rw [hm] at ha
    cases ha
    cases rest
    exact ⟨_, _, _, rfl, rfl, by omega⟩
  | missing good hm hf rest => rw [hm] at ha; cases ha

/-- An eager map borrows everything mutably for the first key already. -/
theorem getMutsB_touch {I : MapImpl M Q K V} {m : M} {inl : Bool} {gm : Q → Nat → Nat → Res Trace}
    (hB : BorrowingKind I m inl gm true) {q : Q} {qs : List Q} {t : Nat} {ops : List MemOp} {ptrs : List (Option (Nat × Nat))} {nx : Nat}
    (h : getMutsB inl gm (q :: qs) t = .ok (ops, ptrs, nx)) : ∃ c, MemOp.retag 0 c .mut wholeFp ∈ ops := by
  unfold getMutsB at h
  simp only [bind, Except.bind] at h
  cases hg : gm q (if inl = true then t else 0) (if inl = true then t + 1 else t) with
  | error e => simp only [hg] at h; cases h
  | ok r =>
    simp only [hg] at h
    have key : ∃ c, MemOp.retag 0 c .mut wholeFp ∈ (if inl = true then [.retag 0 t .mut wholeFp] else []) ++ r.ops := by
      cases inl with
      | true => exact ⟨t, by simp⟩
      | false =>
        obtain ⟨c, hc⟩ := kind_touch hB q hg
        exact ⟨c, by simpa using hc⟩
    obtain ⟨c, hc⟩ := key
    refine ⟨c, ?_⟩
    generalize (if inl = true then [MemOp.retag 0 t .mut wholeFp] else []) = pre at h hc
    repeat' split at h
    all_goals cases h
    all_goals simp only [List.mem_append] at hc ⊢
    all_goals exact .inl hc

/-- A pointer obtained before a mutable borrow of everything is dead when it is used. -/
theorem not_sbAllowed {A B F : List MemOp} {a r f : Nat} (hr : 0 < r) (hA : ∀ p c k fp, MemOp.retag p c k fp ∈ A → 0 < c)
    (hB : ∀ p c k fp, MemOp.retag p c k fp ∈ B → r < c) {c : Nat} (hc : MemOp.retag 0 c .mut wholeFp ∈ B)
    (hF : ∀ op ∈ F, ∀ x, op.makes = some x → r < x) (hf : MemOp.retag r f .mut (valueFp a) ∈ F) :
    ¬ SbAllowed (A ++ B ++ F) := by
  intro hall
  have hl := hall (.value a)
  have mk : ∀ {l : List MemOp} {P : Nat → Prop}, (∀ p c k fp, MemOp.retag p c k fp ∈ l → P c) →
      ∀ op ∈ l, ∀ x, op.makes = some x → P x := by
    intro l P hP op ho x hx
    cases op <;> simp only [MemOp.makes, Option.some.injEq, reduceCtorEq] at hx
    subst hx
    exact hP _ _ _ _ ho
  rw [sbRun_append, sbRun_append] at hl
  cases h1 : sbRun (.value a) [(0, .unique)] A with
  | none => rw [h1] at hl; cases hl
  | some s1 =>
    rw [h1] at hl
    obtain ⟨S1, rfl, e1⟩ := sbRun_root (S := []) h1
    simp only [Option.bind] at hl
    cases h2 : sbRun (.value a) (S1 ++ [(0, .unique)]) B with
    | none => rw [h2] at hl; cases hl
    | some s2 =>
      rw [h2] at hl
      have hS1 : ∀ x ∈ S1.map Prod.fst, x ≠ 0 := by
        intro x hx
        rcases e1 x hx with hx | ⟨op, ho, hx⟩
        · cases hx
        · have := mk hA op ho x hx
          omega
      have habs := sbRun_clears h2 hS1 (r := r) (by omega)
        (fun op ho x hx => by
          have := mk hB op ho x hx
          omega) hc
      obtain ⟨S2, rfl, -⟩ := sbRun_root h2
      simp only at hl
      rw [sbRun_gone habs (fun op ho x hx => by have := hF op ho x hx; omega) (by simp [valueFp]) hf] at hl
      cases hl

/-! ## Looking on -/

/-- What a read through the owner does. -/
theorem sbRead_owner {S : SbStack} (hS : ∀ x ∈ S.map Prod.fst, x ≠ 0) :
    sbRead 0 (S ++ [(0, .unique)]) = some (S.map (fun x => if x.2 = .unique then (x.1, .disabled) else x) ++ [(0, .unique)]) := by
  induction S with
  | nil => simp [sbRead]
  | cons x S ih =>
    rw [List.cons_append]
    unfold sbRead
    rw [if_neg (fun h => hS x.1 (by simp) h.1), ih (fun y hy => hS y (by simp only [List.map_cons, List.mem_cons]; exact .inr hy))]
    rfl

/-- Lookups that only look leave raw pointers alone. -/
theorem peeks_run {gm : Q → Nat → Nat → Res Trace}
    (hP : ∀ (q : Q) (base t : Nat) (r : Trace), gm q base t = .ok r → r.found = none → Peeks base t r) (l : Loc) {ys : List Q} {t : Nat}
    (ht : 0 < t) {B : List MemOp} {ptrs : List (Option (Nat × Nat))} {nx : Nat} (h : getMutsB false gm ys t = .ok (B, ptrs, nx))
    (hn : ∀ x ∈ ptrs, x = none) {S : SbStack} (hS : ∀ x ∈ S.map Prod.fst, x ≠ 0) :
    ∃ S', sbRun l (S ++ [(0, .unique)]) B = some (S' ++ [(0, .unique)]) ∧ (∀ x ∈ S'.map Prod.fst, x ≠ 0) ∧
      ∀ r, (r, SbPerm.sharedRW) ∈ S → (r, SbPerm.sharedRW) ∈ S' := by
  induction ys generalizing t B ptrs S with
  | nil => cases h; exact ⟨S, rfl, hS, fun _ h => h⟩
  | cons q ys ih =>
    unfold getMutsB at h
    simp only [bind, Except.bind, Bool.false_eq_true, if_false] at h
    cases hg : gm q 0 t with
    | error e => simp only [hg] at h; cases h
    | ok r =>
      simp only [hg] at h
      cases hf : r.found with
      | some pv =>
        simp only [hf] at h
        split at h
        · cases h
        · cases h
          exact absurd (hn _ (List.mem_cons_self ..)) (by simp)
      | none =>
        simp only [hf] at h
        cases hr : getMutsB false gm ys r.next with
        | error e => simp only [hr] at h; cases h
        | ok rs =>
          obtain ⟨o, ps, n⟩ := rs
          simp only [hr] at h
          cases h
          have hn' : ∀ x ∈ ps, x = none := fun x hx => hn x (List.mem_cons_of_mem _ hx)
          rcases hP q 0 t r hg hf with ⟨e1, e2⟩ | ⟨e1, e2⟩
          · rw [e2] at hr
            obtain ⟨S', h1, h2⟩ := ih ht hr hn' hS
            exact ⟨S', by rw [e1]; exact h1, h2⟩
          · rw [e2] at hr
            let S1 : SbStack := (t, .sharedRO) :: S.map (fun x => if x.2 = .unique then (x.1, .disabled) else x)
            have hS1 : ∀ x ∈ S1.map Prod.fst, x ≠ 0 := by
              intro x hx
              simp only [S1, List.map_cons, List.mem_cons, List.map_map, List.mem_map] at hx
              rcases hx with rfl | ⟨y, hy, rfl⟩
              · omega
              · simp only [Function.comp]
                have := hS y.1 (List.mem_map_of_mem hy)
                split <;> exact this
            obtain ⟨S', h1, h2, h3⟩ := ih (by omega) hr hn' hS1
            refine ⟨S', ?_, h2, fun r hr => h3 r ?_⟩
            · rw [e1, List.nil_append, sbRun_append]
              have : sbRun l (S ++ [(0, .unique)]) [.retag 0 t .shr wholeFp, .read t keysFp] = some (S1 ++ [(0, .unique)]) := by
                simp only [sbRun, sbStep, wholeFp, if_true, sbRead_owner hS, Option.map, Option.bind]
                cases l with
                | value i => simp [keysFp, S1]
                | key i => simp [keysFp, S1, sbRead]
              rw [this]
              exact h1
            · refine List.mem_cons_of_mem _ (List.mem_map.2 ⟨_, hr, by simp⟩)

theorem sbRaw_new {tag new : Nat} {above block st s' : SbStack} (h : sbRaw tag new above block st = some s') :
    (new, SbPerm.sharedRW) ∈ s' := by
  induction st generalizing above block with
  | nil => cases h
  | cons x st ih =>
    unfold sbRaw at h
    split at h
    · cases h; simp
    · split at h
      · exact ih h
      · exact ih h

theorem sbWrite_raw {r : Nat} {st : SbStack} (h : (r, SbPerm.sharedRW) ∈ st) (block : SbStack) :
    ∃ s', sbWrite r block st = some s' := by
  induction st generalizing block with
  | nil => cases h
  | cons x st ih =>
    unfold sbWrite
    split
    · exact ⟨_, rfl⟩
    · rename_i hx
      rcases List.mem_cons.1 h with h | h
      · subst h; exact absurd ⟨rfl, rfl⟩ hx
      · exact ih h _

theorem asMutsB_none {ptrs : List (Option (Nat × Nat))} (h : ∀ x ∈ ptrs, x = none) (t : Nat) :
    (asMutsB ptrs t).1 = [] ∧ ∀ x ∈ (asMutsB ptrs t).2, x = none := by
  induction ptrs with
  | nil => exact ⟨rfl, fun _ h => by cases h⟩
  | cons x ptrs ih =>
    obtain rfl := h x (List.mem_cons_self ..)
    obtain ⟨h1, h2⟩ := ih (fun x hx => h x (List.mem_cons_of_mem _ hx))
    refine ⟨h1, fun x hx => ?_⟩
    rcases List.mem_cons.1 hx with hx | hx
    · exact hx
    · exact h2 x hx

theorem asMutsB_single {as bs : List (Option (Nat × Nat))} (ha : ∀ x ∈ as, x = none) (hb : ∀ x ∈ bs, x = none) (p r t : Nat) :
    (asMutsB (as ++ some (p, r) :: bs) t).1 = [.retag r t .mut (valueFp p)] ∧
    ∀ y, some y ∈ (asMutsB (as ++ some (p, r) :: bs) t).2 → y = (p, t) := by
  induction as with
  | nil =>
    obtain ⟨h1, h2⟩ := asMutsB_none hb (t + 1)
    refine ⟨by simp [asMutsB, h1], fun y hy => ?_⟩
    rcases List.mem_cons.1 hy with hy | hy
    · cases hy; rfl
    · exact absurd (h2 _ hy) (by simp)
  | cons x as ih =>
    obtain rfl := ha x (List.mem_cons_self ..)
    obtain ⟨h1, h2⟩ := ih (fun x hx => ha x (List.mem_cons_of_mem _ hx))
    refine ⟨h1, fun y hy => ?_⟩
    rcases List.mem_cons.1 hy with hy | hy
    · cases hy
    · exact h2 y hy

theorem sbRun_use {l : Loc} {refs : List (Option (Nat × Nat))} {p f : Nat} (hr : ∀ y, some y ∈ refs → y = (p, f)) {st : SbStack}
    (hst : l = .value p → ∃ s, st = (f, .unique) :: s) (us : List (Nat × Bool)) : sbRun l st (useOps refs us) = some st := by
  induction us with
  | nil => rfl
  | cons u us ih =>
    obtain ⟨i, w⟩ := u
    unfold useOps
    split
    · rename_i p' tag hi
      cases hr _ (List.mem_of_getElem? hi)
      unfold sbRun
      have : sbStep l st (if w = true then .write f (valueFp p) else .read f (valueFp p)) = some st := by
        cases hl : valueFp p l with
        | false => cases w <;> simp [sbStep, hl]
        | true =>
          have hl' : l = .value p := by
            cases l <;> simp [valueFp] at hl
            rw [hl]
          obtain ⟨s, rfl⟩ := hst hl'
          cases w <;> simp [sbStep, hl, sbRead, sbWrite, SbPerm.writes]
      rw [this]
      exact ih
    · exact ih

end Frozen.Model
