import Verif.Lemmas.OwnSets
import Verif.Props.Sets

/-!
# C80: set operations work on set types that users write themselves

Everything a user may pass to the set operations is a type with `len`, `contains` and an iterator.  If its iterator stays at its end the operations are
right.  If it does not (nothing in the traits asks for that), three operations are right up to their first `None`, but go on afterwards although they
promise not to, and the union may give elements twice.
-/

namespace Frozen.Props
open Frozen Frozen.Spec Frozen.Model

variable {T σ₁ σ₂ : Type} {eqT : T → T → Bool} {A B : T → Prop}

/-! ## The lists -/

theorem lists_append (he : LawfulEq' eqT) {v1 v2 : SetView T} (h1 : IsSet eqT A v1) (h2 : IsSet eqT B v2) {c : T → Bool}
    (hc : ∀ x, c x = true ↔ A x) : Lists eqT (fun x => A x ∨ B x) (v1.items ++ v2.items.filter (fun x => c x == false)) := by
  have e : (fun x => c x == false) = fun x => !c x := by funext x; cases c x <;> rfl
  rw [e]
  obtain ⟨h3, h4⟩ := union_facts he h1 h2 hc
  exact ⟨distinct_append_missing he h1 h2 hc, fun x hx => (h3 x hx).1, h4⟩

theorem _root_.Frozen.Spec.Lists.swap {items : List T} (h : Lists eqT (fun x => A x ∨ B x) items) : Lists eqT (fun x => B x ∨ A x) items :=
  ⟨h.1, fun x hx => (h.2.1 x hx).symm, fun x hx => h.2.2 x hx.symm⟩

theorem lists_keep {v1 v2 : SetView T} (h1 : IsSet eqT A v1) (h2 : IsSet eqT B v2) {c : T → Bool} (hc : ∀ x, c x = true ↔ B x) :
    Lists eqT (fun x => A x ∧ B x) (v1.items.filter (fun x => c x == true)) := by
  refine ⟨distinct_filter h1.distinct _, fun x hx => ?_, fun x hx => ?_⟩
  · rw [List.mem_filter] at hx
    exact ⟨h1.sound x hx.1, (hc x).1 (by simpa using hx.2)⟩
  · obtain ⟨y, hy, e⟩ := h1.complete x hx.1
    exact ⟨y, List.mem_filter.2 ⟨hy, by simpa using (hc y).2 (h2.congr x y e hx.2)⟩, e⟩

theorem lists_drop (he : LawfulEq' eqT) {v1 v2 : SetView T} (h1 : IsSet eqT A v1) (h2 : IsSet eqT B v2) {c : T → Bool}
    (hc : ∀ x, c x = true ↔ B x) : Lists eqT (fun x => A x ∧ ¬ B x) (v1.items.filter (fun x => c x == false)) := by
  have hn : ∀ y, (c y == false) = true ↔ ¬ B y := fun y => by
    rw [← hc]; cases c y <;> simp
  refine ⟨distinct_filter h1.distinct _, fun x hx => ?_, fun x hx => ?_⟩
  · rw [List.mem_filter] at hx
    exact ⟨h1.sound x hx.1, (hn x).1 hx.2⟩
  · obtain ⟨y, hy, e⟩ := h1.complete x hx.1
    exact ⟨y, List.mem_filter.2 ⟨hy, (hn y).2 fun hb => hx.2 (h2.congr y x (he.symm _ _ e) hb)⟩, e⟩

theorem lists_both (he : LawfulEq' eqT) {v1 v2 : SetView T} (h1 : IsSet eqT A v1) (h2 : IsSet eqT B v2) {l1 l2 : List T}
    (hl1 : Lists eqT (fun x => A x ∧ ¬ B x) l1) (hl2 : Lists eqT (fun x => B x ∧ ¬ A x) l2) :
    Lists eqT (fun x => A x ∧ ¬ B x ∨ B x ∧ ¬ A x) (l1 ++ l2) := by
  refine ⟨List.pairwise_append.2 ⟨hl1.1, hl2.1, fun x hx y hy => ?_⟩, fun x hx => ?_, fun x hx => ?_⟩
  · cases e : eqT x y with
    | false => rfl
    | true => exact absurd (h1.congr x y e (hl1.2.1 x hx).1) (hl2.2.1 y hy).2
  · rcases List.mem_append.1 hx with hx | hx
    · exact .inl (hl1.2.1 x hx)
    · exact .inr (hl2.2.1 x hx)
  · rcases hx with hx | hx
    · obtain ⟨y, hy, e⟩ := hl1.2.2 x hx
      exact ⟨y, List.mem_append_left _ hy, e⟩
    · obtain ⟨y, hy, e⟩ := hl2.2.2 x hx
      exact ⟨y, List.mem_append_right _ hy, e⟩

/-! ## Iterators that stay at their end -/

/-- **C80** `a.union(&b)` on the user's own set types gives exactly the elements of either, each once, and then `None` for ever, if their iterators
stay at their end. -/
theorem c80_union (he : LawfulEq' eqT) {s1 : OwnSet T σ₁} {s2 : OwnSet T σ₂} (h1 : OwnSetOk eqT A s1) (h2 : OwnSetOk eqT B s2) :
    Right eqT (fun x => A x ∨ B x) (UnionStep s1 s2) (s1.start, s2.start) := by
  obtain ⟨l1, g1, i1⟩ := h1
  obtain ⟨l2, g2, i2⟩ := h2
  obtain ⟨c1, d1, e1⟩ := i1.decider
  obtain ⟨c2, d2, e2⟩ := i2.decider
  by_cases hl : s1.len > s2.len
  · refine right_of_inv (step := UnionStep s1 s2) (g := (s1.start, s2.start)) (fun g l => ∃ l1 l2, Gives s1.next g.1 l1 ∧ Gives s2.next g.2 l2 ∧ l = l1 ++ l2.filter (fun x => c1 x == false))
      (fun _ _ _ _ _ h h' => UnionStep.det h h') ?_ ⟨l1, l2, g1, g2, rfl⟩ (lists_append he i1 i2 e1)
    rintro ⟨a, b⟩ _ ⟨l1, l2, g1, g2, rfl⟩
    cases l1 with
    | cons x l1 => exact ⟨_, .left hl (Prod.ext g1.once.now rfl), l1, l2, g1.later, g2, rfl⟩
    | nil =>
      obtain ⟨b', h3, l', h4, h5⟩ := Skim.ever d1 false g2
      exact ⟨_, .leftDone hl (Prod.ext g1.once.now rfl) h3, [], l', g1.later, h4, h5.symm⟩
  · refine right_of_inv (step := UnionStep s1 s2) (g := (s1.start, s2.start)) (fun g l => ∃ l1 l2, Gives s1.next g.1 l1 ∧ Gives s2.next g.2 l2 ∧ l = l2 ++ l1.filter (fun x => c2 x == false))
      (fun _ _ _ _ _ h h' => UnionStep.det h h') ?_ ⟨l1, l2, g1, g2, rfl⟩ (lists_append he i2 i1 e2).swap
    rintro ⟨a, b⟩ _ ⟨l1, l2, g1, g2, rfl⟩
    cases l2 with
    | cons x l2 => exact ⟨_, .right hl (Prod.ext g2.once.now rfl), l1, l2, g1, g2.later, rfl⟩
    | nil =>
      obtain ⟨a', h3, l', h4, h5⟩ := Skim.ever d2 false g1
      exact ⟨_, .rightDone hl (Prod.ext g2.once.now rfl) h3, l', [], h4, g2.later, h5.symm⟩

/-- **C80** `a.intersection(&b)` likewise. -/
theorem c80_intersection {s1 : OwnSet T σ₁} {s2 : OwnSet T σ₂} (h1 : OwnSetOk eqT A s1) (h2 : OwnSetOk eqT B s2) :
    Right eqT (fun x => A x ∧ B x) (IntersectionStep s1 s2) (s1.start, s2.start) := by
  obtain ⟨l1, g1, i1⟩ := h1
  obtain ⟨l2, g2, i2⟩ := h2
  obtain ⟨c1, d1, e1⟩ := i1.decider
  obtain ⟨c2, d2, e2⟩ := i2.decider
  by_cases hl : s1.len < s2.len
  · refine right_of_inv (step := IntersectionStep s1 s2) (g := (s1.start, s2.start)) (fun g l => ∃ l1, Gives s1.next g.1 l1 ∧ l = l1.filter (fun x => c2 x == true))
      (fun _ _ _ _ _ h h' => IntersectionStep.det h h') ?_ ⟨l1, g1, rfl⟩ (lists_keep i1 i2 e2)
    rintro ⟨a, b⟩ _ ⟨l1, g1, rfl⟩
    obtain ⟨a', h3, l', h4, h5⟩ := Skim.ever d2 true g1
    exact ⟨_, .left hl h3, l', h4, h5.symm⟩
  · have := lists_keep i2 i1 e1
    refine right_of_inv (step := IntersectionStep s1 s2) (g := (s1.start, s2.start)) (fun g l => ∃ l2, Gives s2.next g.2 l2 ∧ l = l2.filter (fun x => c1 x == true))
      (fun _ _ _ _ _ h h' => IntersectionStep.det h h') ?_ ⟨l2, g2, rfl⟩
      ⟨this.1, fun x hx => (this.2.1 x hx).symm, fun x hx => this.2.2 x hx.symm⟩
    rintro ⟨a, b⟩ _ ⟨l2, g2, rfl⟩
    obtain ⟨b', h3, l', h4, h5⟩ := Skim.ever d1 true g2
    exact ⟨_, .right hl h3, l', h4, h5.symm⟩

/-- **C80** `a.difference(&b)` likewise; nothing is asked of the second set's iterator. -/
theorem c80_difference (he : LawfulEq' eqT) {s1 : OwnSet T σ₁} {s2 : OwnSet T σ₂} (h1 : OwnSetOk eqT A s1) (h2 : OwnSetOnce eqT B s2) :
    Right eqT (fun x => A x ∧ ¬ B x) (DifferenceStep s1 s2) s1.start := by
  obtain ⟨l1, g1, i1⟩ := h1
  obtain ⟨l2, g2, i2⟩ := h2
  obtain ⟨c2, d2, e2⟩ := i2.decider
  refine right_of_inv (step := DifferenceStep s1 s2) (g := s1.start) (fun g l => ∃ l1, Gives s1.next g l1 ∧ l = l1.filter (fun x => c2 x == false))
    (fun _ _ _ _ _ h h' => DifferenceStep.det h h') ?_ ⟨l1, g1, rfl⟩ (lists_drop he i1 i2 e2)
  rintro a _ ⟨l1, g1, rfl⟩
  obtain ⟨a', h3, l', h4, h5⟩ := Skim.ever d2 false g1
  exact ⟨_, h3, l', h4, h5.symm⟩

/-- **C80** `a.symmetric_difference(&b)` likewise; of the first set's iterator it is not asked that it stays at its end. -/
theorem c80_symmetric_difference (he : LawfulEq' eqT) {s1 : OwnSet T σ₁} {s2 : OwnSet T σ₂} (h1 : OwnSetOnce eqT A s1) (h2 : OwnSetOk eqT B s2) :
    Right eqT (fun x => A x ∧ ¬ B x ∨ B x ∧ ¬ A x) (SymmetricStep s1 s2) (some s1.start, s2.start) := by
  obtain ⟨l1, g1, i1⟩ := h1
  obtain ⟨l2, g2, i2⟩ := h2
  obtain ⟨c1, d1, e1⟩ := i1.decider
  obtain ⟨c2, d2, e2⟩ := i2.decider
  refine right_of_inv (step := SymmetricStep s1 s2) (g := (some s1.start, s2.start)) (fun g l => ∃ l2, Gives s2.next g.2 l2 ∧ ((g.1 = none ∧ l = l2.filter (fun x => c1 x == false)) ∨
      ∃ a l1, g.1 = some a ∧ GivesOnce s1.next a l1 ∧ l = l1.filter (fun x => c2 x == false) ++ l2.filter (fun x => c1 x == false)))
    (fun _ _ _ _ _ h h' => SymmetricStep.det h h') ?_ ⟨l2, g2, .inr ⟨_, l1, rfl, g1, rfl⟩⟩ (lists_both he i1 i2 (lists_drop he i1 i2 e2) (lists_drop he i2 i1 e1))
  rintro ⟨a, b⟩ _ ⟨l2, g2, ⟨ha, rfl⟩ | ⟨a, l1, ha, g1, rfl⟩⟩
  · cases ha
    obtain ⟨b', h3, l', h4, h5⟩ := Skim.ever d1 false g2
    exact ⟨_, .second h3, l', h4, .inl ⟨rfl, h5.symm⟩⟩
  · cases ha
    obtain ⟨a', h3, h4⟩ := Skim.once d2 false g1
    generalize hf : l1.filter (fun x => c2 x == false) = f at h3 h4
    cases f with
    | nil =>
      obtain ⟨b', h5, l', h6, h7⟩ := Skim.ever d1 false g2
      exact ⟨_, .switch h3 h5, l', h6, .inl ⟨rfl, h7.symm⟩⟩
    | cons x f =>
      obtain ⟨l', h5, h6⟩ := h4 (by simp)
      exact ⟨_, .first h3, l2, g2, .inr ⟨a', l', rfl, h5, by rw [h6]; rfl⟩⟩

/-! ## Iterators that need not stay at their end -/

/-- **C80, first answers** With any set types of the user's, an intersection gives exactly the common elements, each once, and then `None`. -/
theorem c80_intersection_once {s1 : OwnSet T σ₁} {s2 : OwnSet T σ₂} (h1 : OwnSetOnce eqT A s1) (h2 : OwnSetOnce eqT B s2) :
    RightOnce eqT (fun x => A x ∧ B x) (IntersectionStep s1 s2) (s1.start, s2.start) := by
  obtain ⟨l1, g1, i1⟩ := h1
  obtain ⟨l2, g2, i2⟩ := h2
  obtain ⟨c1, d1, e1⟩ := i1.decider
  obtain ⟨c2, d2, e2⟩ := i2.decider
  by_cases hl : s1.len < s2.len
  · refine rightOnce_of_inv (step := IntersectionStep s1 s2) (g := (s1.start, s2.start)) (fun g l => ∃ l1, GivesOnce s1.next g.1 l1 ∧ l = l1.filter (fun x => c2 x == true))
      (fun _ _ _ _ _ h h' => IntersectionStep.det h h') ?_ ⟨l1, g1, rfl⟩ (lists_keep i1 i2 e2)
    rintro ⟨a, b⟩ _ ⟨l1, g1, rfl⟩
    obtain ⟨a', h3, h4⟩ := Skim.once d2 true g1
    refine ⟨_, .left hl h3, fun hne => ?_⟩
    obtain ⟨l', h4, h5⟩ := h4 hne
    exact ⟨l', h4, h5.symm⟩
  · have := lists_keep i2 i1 e1
    refine rightOnce_of_inv (step := IntersectionStep s1 s2) (g := (s1.start, s2.start)) (fun g l => ∃ l2, GivesOnce s2.next g.2 l2 ∧ l = l2.filter (fun x => c1 x == true))
      (fun _ _ _ _ _ h h' => IntersectionStep.det h h') ?_ ⟨l2, g2, rfl⟩
      ⟨this.1, fun x hx => (this.2.1 x hx).symm, fun x hx => this.2.2 x hx.symm⟩
    rintro ⟨a, b⟩ _ ⟨l2, g2, rfl⟩
    obtain ⟨b', h3, h4⟩ := Skim.once d1 true g2
    refine ⟨_, .right hl h3, fun hne => ?_⟩
    obtain ⟨l', h4, h5⟩ := h4 hne
    exact ⟨l', h4, h5.symm⟩

/-- **C80, first answers** With any set types of the user's, a difference gives exactly the elements of the first that the second lacks, each once, and
then `None`. -/
theorem c80_difference_once (he : LawfulEq' eqT) {s1 : OwnSet T σ₁} {s2 : OwnSet T σ₂} (h1 : OwnSetOnce eqT A s1) (h2 : OwnSetOnce eqT B s2) :
    RightOnce eqT (fun x => A x ∧ ¬ B x) (DifferenceStep s1 s2) s1.start := by
  obtain ⟨l1, g1, i1⟩ := h1
  obtain ⟨l2, g2, i2⟩ := h2
  obtain ⟨c2, d2, e2⟩ := i2.decider
  refine rightOnce_of_inv (step := DifferenceStep s1 s2) (g := s1.start) (fun g l => ∃ l1, GivesOnce s1.next g l1 ∧ l = l1.filter (fun x => c2 x == false))
    (fun _ _ _ _ _ h h' => DifferenceStep.det h h') ?_ ⟨l1, g1, rfl⟩ (lists_drop he i1 i2 e2)
  rintro a _ ⟨l1, g1, rfl⟩
  obtain ⟨a', h3, h4⟩ := Skim.once d2 false g1
  refine ⟨_, h3, fun hne => ?_⟩
  obtain ⟨l', h4, h5⟩ := h4 hne
  exact ⟨l', h4, h5.symm⟩

/-- **C80, first answers** With any set types of the user's, a symmetric difference gives exactly the elements of just one set, each once, and then
`None`. -/
theorem c80_symmetric_difference_once (he : LawfulEq' eqT) {s1 : OwnSet T σ₁} {s2 : OwnSet T σ₂} (h1 : OwnSetOnce eqT A s1)
    (h2 : OwnSetOnce eqT B s2) :
    RightOnce eqT (fun x => A x ∧ ¬ B x ∨ B x ∧ ¬ A x) (SymmetricStep s1 s2) (some s1.start, s2.start) := by
  obtain ⟨l1, g1, i1⟩ := h1
  obtain ⟨l2, g2, i2⟩ := h2
  obtain ⟨c1, d1, e1⟩ := i1.decider
  obtain ⟨c2, d2, e2⟩ := i2.decider
  refine rightOnce_of_inv (step := SymmetricStep s1 s2) (g := (some s1.start, s2.start)) (fun g l => ∃ l2, GivesOnce s2.next g.2 l2 ∧ ((g.1 = none ∧ l = l2.filter (fun x => c1 x == false)) ∨
      ∃ a l1, g.1 = some a ∧ GivesOnce s1.next a l1 ∧ l = l1.filter (fun x => c2 x == false) ++ l2.filter (fun x => c1 x == false)))
    (fun _ _ _ _ _ h h' => SymmetricStep.det h h') ?_ ⟨l2, g2, .inr ⟨_, l1, rfl, g1, rfl⟩⟩ (lists_both he i1 i2 (lists_drop he i1 i2 e2) (lists_drop he i2 i1 e1))
  rintro ⟨a, b⟩ _ ⟨l2, g2, ⟨ha, rfl⟩ | ⟨a, l1, ha, g1, rfl⟩⟩
  · cases ha
    obtain ⟨b', h3, h4⟩ := Skim.once d1 false g2
    refine ⟨_, .second h3, fun hne => ?_⟩
    obtain ⟨l', h4, h5⟩ := h4 hne
    exact ⟨l', h4, .inl ⟨rfl, h5.symm⟩⟩
  · cases ha
    obtain ⟨a', h3, h4⟩ := Skim.once d2 false g1
    generalize hf : l1.filter (fun x => c2 x == false) = f at h3 h4
    cases f with
    | nil =>
      obtain ⟨b', h5, h6⟩ := Skim.once d1 false g2
      refine ⟨_, .switch h3 h5, fun hne => ?_⟩
      obtain ⟨l', h6, h7⟩ := h6 hne
      exact ⟨l', h6, .inl ⟨rfl, h7.symm⟩⟩
    | cons x f =>
      obtain ⟨l', h5, h6⟩ := h4 (by simp)
      exact ⟨_, .first h3, fun _ => ⟨l2, g2, .inr ⟨a', l', rfl, h5, by rw [h6]; rfl⟩⟩⟩

/-- **C80, first answers** A union gives exactly the elements of either set, each once, and then `None`, if at least the iterator of the larger set (of
the second, if they are equally large) stays at its end.  Missing: sets in general; see `c80_union_violated`. -/
theorem c80_union_once_partial (he : LawfulEq' eqT) {s1 : OwnSet T σ₁} {s2 : OwnSet T σ₂} (h1 : OwnSetOnce eqT A s1) (h2 : OwnSetOnce eqT B s2)
    (hl1 : s1.len > s2.len → OwnSetOk eqT A s1) (hl2 : ¬ s1.len > s2.len → OwnSetOk eqT B s2) :
    RightOnce eqT (fun x => A x ∨ B x) (UnionStep s1 s2) (s1.start, s2.start) := by
  by_cases hl : s1.len > s2.len
  · obtain ⟨l1, g1, i1⟩ := hl1 hl
    obtain ⟨l2, g2, i2⟩ := h2
    obtain ⟨c1, d1, e1⟩ := i1.decider
    refine rightOnce_of_inv (step := UnionStep s1 s2) (g := (s1.start, s2.start)) (fun g l => ∃ l1 l2, Gives s1.next g.1 l1 ∧ GivesOnce s2.next g.2 l2 ∧ l = l1 ++ l2.filter (fun x => c1 x == false))
      (fun _ _ _ _ _ h h' => UnionStep.det h h') ?_ ⟨l1, l2, g1, g2, rfl⟩ (lists_append he i1 i2 e1)
    rintro ⟨a, b⟩ _ ⟨l1, l2, g1, g2, rfl⟩
    cases l1 with
    | cons x l1 => exact ⟨_, .left hl (Prod.ext g1.once.now rfl), fun _ => ⟨l1, l2, g1.later, g2, rfl⟩⟩
    | nil =>
      obtain ⟨b', h3, h4⟩ := Skim.once d1 false g2
      refine ⟨_, .leftDone hl (Prod.ext g1.once.now rfl) h3, fun hne => ?_⟩
      obtain ⟨l', h4, h5⟩ := h4 hne
      exact ⟨[], l', g1.later, h4, h5.symm⟩
  · obtain ⟨l1, g1, i1⟩ := h1
    obtain ⟨l2, g2, i2⟩ := hl2 hl
    obtain ⟨c2, d2, e2⟩ := i2.decider
    refine rightOnce_of_inv (step := UnionStep s1 s2) (g := (s1.start, s2.start)) (fun g l => ∃ l1 l2, GivesOnce s1.next g.1 l1 ∧ Gives s2.next g.2 l2 ∧ l = l2 ++ l1.filter (fun x => c2 x == false))
      (fun _ _ _ _ _ h h' => UnionStep.det h h') ?_ ⟨l1, l2, g1, g2, rfl⟩ (lists_append he i2 i1 e2).swap
    rintro ⟨a, b⟩ _ ⟨l1, l2, g1, g2, rfl⟩
    cases l2 with
    | cons x l2 => exact ⟨_, .right hl (Prod.ext g2.once.now rfl), fun _ => ⟨l1, l2, g1, g2.later, rfl⟩⟩
    | nil =>
      obtain ⟨a', h3, h4⟩ := Skim.once d2 false g1
      refine ⟨_, .rightDone hl (Prod.ext g2.once.now rfl) h3, fun hne => ?_⟩
      obtain ⟨l', h4, h5⟩ := h4 hne
      exact ⟨l', [], h4, g2.later, h5.symm⟩

/-! ## Checks -/

/-- **C80** `a.is_subset(&b)`, `a.is_superset(&b)`, `a.is_disjoint(&b)` and `a == b` are right for any set types of the user's. -/
theorem c80_checks (he : LawfulEq' eqT) {s1 : OwnSet T σ₁} {s2 : OwnSet T σ₂} (h1 : OwnSetOnce eqT A s1) (h2 : OwnSetOnce eqT B s2) :
    (∃ b, (∀ b', OwnSubset s1 s2 b' ↔ b' = b) ∧ (b = true ↔ ∀ x, A x → B x)) ∧
    (∃ b, (∀ b', OwnSuperset s1 s2 b' ↔ b' = b) ∧ (b = true ↔ ∀ x, B x → A x)) ∧
    (∃ b, (∀ b', OwnDisjoint s1 s2 b' ↔ b' = b) ∧ (b = true ↔ ∀ x, ¬ (A x ∧ B x))) ∧
    ∃ b, (∀ b', OwnEq s1 s2 b' ↔ b' = b) ∧ (b = true ↔ ∀ x, A x ↔ B x) := by
  obtain ⟨l1, g1, i1⟩ := h1
  obtain ⟨l2, g2, i2⟩ := h2
  have t1 : ∀ x, ∃ b, s1.contains x = .ok b := fun x => let ⟨b, h, _⟩ := i1.contains x; ⟨b, h⟩
  have t2 : ∀ x, ∃ b, s2.contains x = .ok b := fun x => let ⟨b, h, _⟩ := i2.contains x; ⟨b, h⟩
  have t1' : ∀ x, ∃ b, s1.lacks x = .ok b := fun x => let ⟨b, h⟩ := t1 x; ⟨!b, by simp only [OwnSet.lacks, bind, Except.bind, h]⟩
  have t2' : ∀ x, ∃ b, s2.lacks x = .ok b := fun x => let ⟨b, h⟩ := t2 x; ⟨!b, by simp only [OwnSet.lacks, bind, Except.bind, h]⟩
  have e : ∀ b b' : Bool, (Except.ok b : Res Bool) = .ok b' ↔ b' = b := fun b b' => ⟨fun h => (Except.ok.inj h).symm, fun h => h ▸ rfl⟩
  have e' : ∀ b' : Bool, b' = false ↔ (Except.ok false : Res Bool) = .ok b' := fun b' => (e _ _).symm
  refine ⟨?_, ?_, ?_, ?_⟩
  · obtain ⟨b, h, hb⟩ := c29_is_subset he i1 i2
    refine ⟨b, fun b' => ?_, hb⟩
    rw [← e, ← h]
    unfold OwnSubset isSubset
    split
    · exact allOf_iff t2 g1 b'
    · exact e' b'
  · obtain ⟨b, h, hb⟩ := c29_is_superset he i1 i2
    refine ⟨b, fun b' => ?_, hb⟩
    rw [← e, ← h]
    unfold OwnSuperset isSuperset
    split
    · exact allOf_iff t1 g2 b'
    · exact e' b'
  · obtain ⟨b, h, hb⟩ := c29_is_disjoint he i1 i2
    refine ⟨b, fun b' => ?_, hb⟩
    rw [← e, ← h]
    unfold OwnDisjoint isDisjoint
    split
    · exact allOf_iff t2' g1 b'
    · exact allOf_iff t1' g2 b'
  · obtain ⟨b, h, hb⟩ := c30_set_eq he i1 i2
    refine ⟨b, fun b' => ?_, hb⟩
    rw [← e, ← h]
    unfold OwnEq setEq
    split
    · exact e' b'
    · exact allOf_iff t2 g1 b'

/-! ## Where the code breaks its promises -/

/-- The set `{1, 2}` with an iterator that starts over after its end. -/
def startsOver : OwnSet Nat Nat where
  len := 2
  contains := fun x => .ok (x == 1 || x == 2)
  start := 0
  next := fun n => (if n % 3 = 0 then some 1 else if n % 3 = 1 then some 2 else none, n + 1)

/-- The set `{3}` with an iterator that stays at its end. -/
def justThree : OwnSet Nat Nat where
  len := 1
  contains := fun x => .ok (x == 3)
  start := 0
  next := fun n => (if n = 0 then some 3 else none, n + 1)

theorem nat_eq : LawfulEq' (fun a b : Nat => a == b) where
  refl := fun a => by simp
  symm := fun a b h => by simp at h ⊢; exact h.symm
  trans := fun a b c h h' => by simp at h h' ⊢; exact h.trans h'

theorem startsOver_set : OwnSetOnce (fun a b => a == b) (fun x => x = 1 ∨ x = 2) startsOver := by
  refine ⟨[1, 2], ?_, ?_⟩
  · intro n hn
    match n, hn with
    | 0, _ => rfl
    | 1, _ => rfl
    | 2, _ => rfl
  · exact {
      contains := fun x => ⟨_, rfl, by simp⟩
      sound := fun x hx => by simpa using hx
      complete := fun x hx => ⟨x, by simpa using hx, by simp⟩
      distinct := by unfold Distinct; decide
      len := rfl
      congr := fun x y h hx => by simp at h; exact h ▸ hx }

theorem justThree_set : OwnSetOk (fun a b => a == b) (fun x => x = 3) justThree := by
  refine ⟨[3], ?_, ?_⟩
  · have later : ∀ n s, 0 < s → answer justThree.next s n = none := by
      intro n
      induction n with
      | zero => intro s hs; exact if_neg (by omega)
      | succ n ih => intro s hs; exact ih _ (Nat.succ_pos _)
    intro n
    cases n with
    | zero => rfl
    | succ n => exact later n 1 (by decide)
  · exact {
      contains := fun x => ⟨_, rfl, by simp⟩
      sound := fun x hx => by simpa using hx
      complete := fun x hx => ⟨x, by simpa using hx, by simp⟩
      distinct := by unfold Distinct; decide
      len := rfl
      congr := fun x y h hx => by simp at h; exact h ▸ hx }

theorem ownSet_once {s : OwnSet T σ₁} (h : OwnSetOk eqT A s) : OwnSetOnce eqT A s := by
  obtain ⟨l, g, i⟩ := h
  exact ⟨l, g.once, i⟩

/-- The union of `startsOver` and `justThree` answers 1, 2, 3, 1. -/
theorem startsOver_union : Answers (UnionStep startsOver justThree) (startsOver.start, justThree.start) [some 1, some 2, some 3, some 1] :=
  .cons (.left (by decide) rfl) (.cons (.left (by decide) rfl)
    (.cons (.leftDone (by decide) rfl (.found rfl rfl)) (.cons (.left (by decide) rfl) .nil)))

/-- **C80 is violated by unions.** There are two sets, one of whose iterators does not stay at its end, whose union does not give each element once
before its first `None`. -/
theorem c80_union_violated : ∃ (s1 s2 : OwnSet Nat Nat) (A B : Nat → Prop), OwnSetOnce (fun a b => a == b) A s1 ∧ OwnSetOk (fun a b => a == b) B s2 ∧
    ¬ RightOnce (fun a b => a == b) (fun x => A x ∨ B x) (UnionStep s1 s2) (s1.start, s2.start) := by
  refine ⟨startsOver, justThree, _, _, startsOver_set, justThree_set, ?_⟩
  rintro ⟨items, ⟨hd, _, _⟩, _, h⟩
  have h := h _ startsOver_union
  have h0 := h 0 (some 1) (Nat.zero_le _) rfl
  cases items with
  | nil => cases h0
  | cons a l =>
    have h1 := h 1 (some 2) (by simp) rfl
    cases l with
    | nil => cases h1
    | cons b l =>
      have h2 := h 2 (some 3) (by simp) rfl
      cases l with
      | nil => cases h2
      | cons c l =>
        have h3 := h 3 (some 1) (by simp) rfl
        cases l with
        | nil => cases h3
        | cons d l =>
          simp at h0 h3
          subst h0 h3
          unfold Distinct at hd
          simp at hd

/-- **C80 is violated after the first `None`.** All four operations promise (`FusedIterator`) that they stay at their end.  There are two sets for which
a difference, an intersection and a symmetric difference give exactly the right elements, then `None`, and then elements again. -/
theorem c80_fused_violated : ∃ (s1 s2 : OwnSet Nat Nat) (A B : Nat → Prop), OwnSetOnce (fun a b => a == b) A s1 ∧ OwnSetOk (fun a b => a == b) B s2 ∧
    ¬ Right (fun a b => a == b) (fun x => A x ∧ ¬ B x) (DifferenceStep s1 s2) s1.start ∧
    ¬ Right (fun a b => a == b) (fun x => A x ∧ A x) (IntersectionStep s1 s1) (s1.start, s1.start) ∧
    ¬ Right (fun a b => a == b) (fun x => B x ∧ ¬ A x ∨ A x ∧ ¬ B x) (SymmetricStep s2 s1) (some s2.start, s1.start) ∧
    ¬ Right (fun a b => a == b) (fun x => A x ∨ B x) (UnionStep s1 s2) (s1.start, s2.start) := by
  have key : ∀ {n : Nat} {items : List Nat} {x : Nat}, (none : Option Nat) = items[n]? → some x = items[n + 1]? → False := by
    intro n items x h1 h2
    have h1 := List.getElem?_eq_none_iff.1 h1.symm
    have : items[n + 1]? = none := List.getElem?_eq_none (by omega)
    rw [this] at h2; cases h2
  refine ⟨startsOver, justThree, _, _, startsOver_set, justThree_set, ?_, ?_, ?_, ?_⟩
  · rintro ⟨items, _, _, h⟩
    have h := h [some 1, some 2, none, some 1] (.cons (.found rfl rfl) (.cons (.found rfl rfl) (.cons (.stop rfl) (.cons (.found rfl rfl) .nil))))
    exact key (h 2 _ rfl) (h 3 (some 1) rfl)
  · rintro ⟨items, _, _, h⟩
    have h := h [some 1, some 2, none, some 1] (.cons (.right (by decide) (.found rfl rfl)) (.cons (.right (by decide) (.found rfl rfl))
      (.cons (.right (by decide) (.stop rfl)) (.cons (.right (by decide) (.found rfl rfl)) .nil))))
    exact key (h 2 _ rfl) (h 3 (some 1) rfl)
  · rintro ⟨items, _, _, h⟩
    have h := h [some 3, some 1, some 2, none, some 1] (.cons (.first (.found rfl rfl)) (.cons (.switch (.stop rfl) (.found rfl rfl))
      (.cons (.second (.found rfl rfl)) (.cons (.second (.stop rfl)) (.cons (.second (.found rfl rfl)) .nil)))))
    exact key (h 3 _ rfl) (h 4 (some 1) rfl)
  · rintro ⟨items, ⟨hd, _, _⟩, _, h⟩
    have h := h _ startsOver_union
    have h0 := h 0 (some 1) rfl
    have h3 := h 3 (some 1) rfl
    unfold Distinct at hd
    rw [List.pairwise_iff_getElem] at hd
    obtain ⟨l0, e0⟩ := List.getElem?_eq_some_iff.1 h0.symm
    obtain ⟨l3, e3⟩ := List.getElem?_eq_some_iff.1 h3.symm
    have := hd 0 3 l0 l3 (by decide)
    rw [e0, e3] at this
    cases this

/-! ## Cases -/

/-- The union and the difference of two sets whose iterators stay at their end. -/
example : Right (fun a b => a == b) (fun x => x = 3 ∨ x = 3) (UnionStep justThree justThree) (justThree.start, justThree.start) := c80_union nat_eq justThree_set justThree_set

/-- Sets with a non-trivial intersection, difference and symmetric difference, one of them with an iterator that starts over. -/
example : RightOnce (fun a b => a == b) (fun x => (x = 1 ∨ x = 2) ∧ (x = 1 ∨ x = 2)) (IntersectionStep startsOver startsOver) (startsOver.start, startsOver.start) :=
  c80_intersection_once startsOver_set startsOver_set

example : RightOnce (fun a b => a == b) (fun x => (x = 1 ∨ x = 2) ∧ ¬ x = 3) (DifferenceStep startsOver justThree) startsOver.start :=
  c80_difference_once nat_eq startsOver_set (ownSet_once justThree_set)

example : Right (fun a b => a == b) (fun x => (x = 1 ∨ x = 2) ∧ ¬ x = 3 ∨ x = 3 ∧ ¬ (x = 1 ∨ x = 2)) (SymmetricStep startsOver justThree)
    (some startsOver.start, justThree.start) := c80_symmetric_difference nat_eq startsOver_set justThree_set

/-- A check of a set whose iterator starts over: `{1, 2}` is a subset of itself, and only that answer is possible. -/
example : ∃ b, (∀ b', OwnSubset startsOver startsOver b' ↔ b' = b) ∧ (b = true ↔ ∀ x, (x = 1 ∨ x = 2) → x = 1 ∨ x = 2) :=
  (c80_checks nat_eq startsOver_set startsOver_set).1

end Frozen.Props
