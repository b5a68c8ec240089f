import Verif.Lemmas.EffectSteps
import Verif.Props.EffectSetSpec
import Verif.Props.Effects

/-!
# Set operations with trait functions that have effects

Every set iterator takes the next element of a list of elements, each with a test that says whether to give it.
-/

namespace Frozen.Props

open Frozen.Spec Frozen.Model

variable {W S T M : Type}

/-- What an iterator still has to look at: elements, whether they ought to be given, and the test that is made. -/
abbrev Plan (W T : Type) := List (T × Bool × Eff W Bool)

/-- The next call, on the plan. -/
def planNext : Plan W T → W → Res (Option T) × Plan W T × W
  | [], w => (.ok none, [], w)
  | e :: r, w =>
    match e.2.2 w with
    | (.ok true, w') => (.ok (some e.1), r, w')
    | (.ok false, w') => planNext r w'
    | (.error f, w') => (.error f, r, w')

/-- The elements that ought to be given. -/
def wanted (p : Plan W T) : List T := (p.filter (fun e => e.2.1)).map (fun e => e.1)

/-- `next` does what is planned. -/
def Follows (next : S → W → Res (Option T) × S × W) (plan : S → Plan W T) : Prop :=
  ∀ s w, planNext (plan s) w = ((next s w).1, plan (next s w).2.1, (next s w).2.2)

theorem Follows.calls {next : S → W → Res (Option T) × S × W} {plan : S → Plan W T} (h : Follows next plan) :
    ∀ (fs : List (W → W)) (s : S) (w : W), callsE planNext (plan s) fs w =
      ((callsE next s fs w).1, plan (callsE next s fs w).2.1, (callsE next s fs w).2.2)
  | [], _, _ => rfl
  | f :: fs, s, w => by
    simp only [callsE]
    rw [h s (f w)]
    simp only [h.calls fs]

/-! ## What the plan says -/

theorem planNext_sub : ∀ (p : Plan W T) (w : W),
    ((planNext p w).1 = .ok none ∧ (planNext p w).2.1 = []) ∨
    (∃ a, (planNext p w).1 = .ok (some a) ∧ (a :: (planNext p w).2.1.map (fun e => e.1)).Sublist (p.map (fun e => e.1)) ∧
      (planNext p w).2.1.length < p.length) ∨
    (∃ f, (planNext p w).1 = .error f ∧ ((planNext p w).2.1.map (fun e => e.1)).Sublist (p.map (fun e => e.1)) ∧
      (planNext p w).2.1.length < p.length)
  | [], w => .inl ⟨rfl, rfl⟩
  | e :: r, w => by
    unfold planNext
    rcases e.2.2 w with ⟨o, w'⟩
    match o with
    | .ok true => exact .inr (.inl ⟨e.1, rfl, by simp, by simp⟩)
    | .error f => exact .inr (.inr ⟨f, rfl, by simp, by simp⟩)
    | .ok false =>
      rcases planNext_sub r w' with h | ⟨a, h1, h2, h3⟩ | ⟨f, h1, h2, h3⟩
      · exact .inl h
      · exact .inr (.inl ⟨a, h1, .cons _ h2, by simp; omega⟩)
      · exact .inr (.inr ⟨f, h1, .cons _ h2, by simp; omega⟩)

theorem planNext_mem : ∀ (p : Plan W T) (w : W), ∀ e ∈ (planNext p w).2.1, e ∈ p
  | [], w => fun e he => by cases he
  | e :: r, w => by
    unfold planNext
    rcases e.2.2 w with ⟨o, w'⟩
    match o with
    | .ok true => exact fun e' he => List.mem_cons_of_mem _ he
    | .error f => exact fun e' he => List.mem_cons_of_mem _ he
    | .ok false => exact fun e' he => List.mem_cons_of_mem _ (planNext_mem r w' e' he)

theorem planNext_noUb : ∀ (p : Plan W T) (w : W), (∀ e ∈ p, SafeCode e.2.2) → NoUb (planNext p w).1
  | [], w, _ => NoUb.ok _
  | e :: r, w, h => by
    unfold planNext
    have h1 := h e (by simp) w
    generalize e.2.2 w = x at h1 ⊢
    obtain ⟨o, w'⟩ := x
    match o with
    | .ok true => exact NoUb.ok _
    | .error f =>
      intro msg hm
      cases hm
      exact h1 msg rfl
    | .ok false => exact planNext_noUb r w' (fun e' he => h e' (List.mem_cons_of_mem _ he))

theorem plan_ended (fs : List (W → W)) : ∀ w, (callsE (planNext (W := W) (T := T)) [] fs w).1 = List.replicate fs.length (.ok none) := by
  induction fs with
  | nil => intro w; rfl
  | cons f fs ih =>
    intro w
    simp only [callsE, planNext, List.length_cons, List.replicate_succ]
    rw [ih]

theorem staysEnded_replicate (n : Nat) : StaysEnded (List.replicate n (.ok none) : List (Res (Option T))) := by
  intro i j _ _ hj
  rw [List.length_replicate] at hj
  rw [List.getElem?_replicate, if_pos hj]

theorem StaysEnded.cons {o : Res (Option T)} {os : List (Res (Option T))} (ho : o ≠ .ok none) (h : StaysEnded os) : StaysEnded (o :: os) := by
  intro i j hij hi hj
  cases i with
  | zero =>
    rw [List.getElem?_cons_zero] at hi
    exact absurd (Option.some.inj hi) ho
  | succ i =>
    cases j with
    | zero => omega
    | succ j =>
      rw [List.getElem?_cons_succ] at hi ⊢
      exact h i j (by omega) hi (by simpa using hj)

theorem callsE_length (next : S → W → Res (Option T) × S × W) : ∀ (fs : List (W → W)) (s : S) (w : W), (callsE next s fs w).1.length = fs.length
  | [], _, _ => rfl
  | f :: fs, s, w => by simp [callsE, callsE_length next fs]

theorem givenItems_replicate (n : Nat) : givenItems (List.replicate n (.ok none) : List (Res (Option T))) = [] := by
  induction n with
  | zero => rfl
  | succ n ih => simpa [List.replicate_succ, givenItems] using ih

theorem failedCalls_replicate (n : Nat) : failedCalls (List.replicate n (.ok none) : List (Res (Option T))) = 0 := by
  induction n with
  | zero => rfl
  | succ n ih => simpa [List.replicate_succ, failedCalls] using ih

theorem plan_wellBehaved (fs : List (W → W)) : ∀ (p : Plan W T) (w : W), (∀ e ∈ p, SafeCode e.2.2) →
    (∀ o ∈ (callsE planNext p fs w).1, NoUb o) ∧ (givenItems (callsE planNext p fs w).1).Sublist (p.map (fun e => e.1)) ∧
      (p.length < fs.length → .ok none ∈ (callsE planNext p fs w).1) ∧ StaysEnded (callsE planNext p fs w).1 := by
  induction fs with
  | nil =>
    intro p w _
    refine ⟨fun o ho => ?_, ?_, fun h => ?_, fun i j _ hi _ => ?_⟩
    · cases ho
    · simp [callsE, givenItems]
    · simp at h
    · simp [callsE] at hi
  | cons f fs ih =>
    intro p w hp
    have hub := planNext_noUb p (f w) hp
    have hp' : ∀ e ∈ (planNext p (f w)).2.1, SafeCode e.2.2 := fun e he => hp e (planNext_mem p _ e he)
    obtain ⟨i1, i2, i3, i4⟩ := ih _ (planNext p (f w)).2.2 hp'
    simp only [callsE]
    refine ⟨fun o ho => ?_, ?_⟩
    · rcases List.mem_cons.1 ho with rfl | ho
      · exact hub
      · exact i1 o ho
    · rcases planNext_sub p (f w) with ⟨h1, h2⟩ | ⟨a, h1, h2, h3⟩ | ⟨g, h1, h2, h3⟩
      · rw [h1, h2, plan_ended]
        refine ⟨?_, fun _ => by simp, ?_⟩
        · simp [givenItems, givenItems_replicate]
        · exact staysEnded_replicate (fs.length + 1)
      · rw [h1]
        refine ⟨?_, fun hl => ?_, i4.cons (by simp)⟩
        · exact (List.Sublist.cons_cons a i2).trans h2
        · exact List.mem_cons_of_mem _ (i3 (by simp at hl; omega))
      · rw [h1]
        refine ⟨i2.trans h2, fun hl => ?_, i4.cons (by simp)⟩
        exact List.mem_cons_of_mem _ (i3 (by simp at hl; omega))

/-! ## Tests that answer correctly or panic -/

theorem wanted_cons (e : T × Bool × Eff W Bool) (p : Plan W T) : wanted (e :: p) = if e.2.1 then e.1 :: wanted p else wanted p := by
  unfold wanted
  by_cases h : e.2.1 = true <;> simp [h]

theorem planNext_honest : ∀ (p : Plan W T) (w : W), (∀ e ∈ p, PanicsOr e.2.2 (.ok e.2.1)) →
    ((planNext p w).1 = .ok none ∧ (planNext p w).2.1 = [] ∧ wanted p = []) ∨
    (∃ a, (planNext p w).1 = .ok (some a) ∧ wanted p = a :: wanted (planNext p w).2.1) ∨
    (∃ f, (planNext p w).1 = .error f ∧ (wanted p = wanted (planNext p w).2.1 ∨ ∃ a, wanted p = a :: wanted (planNext p w).2.1))
  | [], w, _ => .inl ⟨rfl, rfl, rfl⟩
  | e :: r, w, h => by
    rw [wanted_cons]
    unfold planNext
    have h1 := h e (by simp) w
    generalize e.2.2 w = x at h1 ⊢
    obtain ⟨o, w'⟩ := x
    match o with
    | .ok true =>
      rcases h1 with ⟨m, h1⟩ | h1
      · cases h1
      · rw [← Except.ok.inj h1]
        exact .inr (.inl ⟨e.1, rfl, rfl⟩)
    | .error f =>
      refine .inr (.inr ⟨f, rfl, ?_⟩)
      by_cases hb : e.2.1 = true
      · rw [if_pos hb]; exact .inr ⟨_, rfl⟩
      · rw [if_neg hb]; exact .inl rfl
    | .ok false =>
      rcases h1 with ⟨m, h1⟩ | h1
      · cases h1
      · rw [← Except.ok.inj h1]
        exact planNext_honest r w' (fun e' he => h e' (List.mem_cons_of_mem _ he))

theorem plan_honest (fs : List (W → W)) : ∀ (p : Plan W T) (w : W), (∀ e ∈ p, PanicsOr e.2.2 (.ok e.2.1)) →
    (givenItems (callsE planNext p fs w).1).Sublist (wanted p) ∧
      (.ok none ∈ (callsE planNext p fs w).1 →
        (wanted p).length ≤ (givenItems (callsE planNext p fs w).1).length + failedCalls (callsE planNext p fs w).1) := by
  induction fs with
  | nil => intro p w _; exact ⟨by simp [callsE, givenItems], fun h => by simp [callsE] at h⟩
  | cons f fs ih =>
    intro p w hp
    have hp' : ∀ e ∈ (planNext p (f w)).2.1, PanicsOr e.2.2 (.ok e.2.1) := fun e he => hp e (planNext_mem p _ e he)
    obtain ⟨i1, i2⟩ := ih _ (planNext p (f w)).2.2 hp'
    simp only [callsE]
    rcases planNext_honest p (f w) hp with ⟨h1, h2, h3⟩ | ⟨a, h1, h2⟩ | ⟨g, h1, h2⟩
    · rw [h1, h2, h3, plan_ended]
      simp [givenItems, givenItems_replicate]
    · rw [h1, h2]
      refine ⟨List.Sublist.cons_cons a i1, fun hm => ?_⟩
      have := i2 (by simpa using hm)
      simp only [givenItems, failedCalls, List.length_cons]
      omega
    · rw [h1]
      have hm' : (.ok none : Res (Option T)) ∈ (.error g :: (callsE planNext (planNext p (f w)).2.1 fs (planNext p (f w)).2.2).1) →
          (wanted (planNext p (f w)).2.1).length ≤ _ := fun hm => i2 (by simpa using hm)
      simp only [givenItems, failedCalls]
      rcases h2 with h2 | ⟨a, h2⟩
      · rw [h2]
        exact ⟨i1, fun hm => by have := hm' hm; omega⟩
      · rw [h2]
        exact ⟨.cons _ i1, fun hm => by have := hm' hm; rw [List.length_cons]; omega⟩

/-! ## Tests that answer correctly -/

theorem planNext_quiet : ∀ (p : Plan W T) (w : W), (∀ e ∈ p, Always e.2.2 (.ok e.2.1)) →
    (wanted p = [] ∧ (planNext p w).1 = .ok none ∧ (planNext p w).2.1 = []) ∨
    (∃ a, (planNext p w).1 = .ok (some a) ∧ wanted p = a :: wanted (planNext p w).2.1)
  | [], w, _ => .inl ⟨rfl, rfl, rfl⟩
  | e :: r, w, h => by
    rw [wanted_cons]
    unfold planNext
    have h1 := h e (by simp) w
    generalize e.2.2 w = x at h1 ⊢
    obtain ⟨o, w'⟩ := x
    match o with
    | .ok true =>
      rw [← Except.ok.inj h1]
      exact .inr ⟨e.1, rfl, rfl⟩
    | .error f => cases h1
    | .ok false =>
      rw [← Except.ok.inj h1]
      exact planNext_quiet r w' (fun e' he => h e' (List.mem_cons_of_mem _ he))

theorem plan_quiet (fs : List (W → W)) : ∀ (p : Plan W T) (w : W), (∀ e ∈ p, Always e.2.2 (.ok e.2.1)) →
    (callsE planNext p fs w).1 =
      (((wanted p).map fun a => (Except.ok (some a) : Res (Option T))) ++ List.replicate fs.length (Except.ok none)).take fs.length := by
  induction fs with
  | nil => intro p w _; simp [callsE]
  | cons f fs ih =>
    intro p w hp
    have hp' : ∀ e ∈ (planNext p (f w)).2.1, Always e.2.2 (.ok e.2.1) := fun e he => hp e (planNext_mem p _ e he)
    have i := ih _ (planNext p (f w)).2.2 hp'
    simp only [callsE]
    rcases planNext_quiet p (f w) hp with ⟨h1, h2, h3⟩ | ⟨a, h1, h2⟩
    · rw [h1, h2, h3, plan_ended]
      simp [List.replicate_succ]
    · rw [h1, h2, i]
      simp only [List.map_cons, List.cons_append, List.length_cons, List.take_succ_cons, List.cons.injEq, true_and]
      rw [List.replicate_succ', ← List.append_assoc]
      exact (List.take_append_of_le_length (by simp)).symm

/-! ## Tests that leave a mark when they panic -/

theorem planNext_marks {bad : W → Prop} : ∀ (p : Plan W T) (w : W), (∀ e ∈ p, Marks bad e.2.2 (.ok e.2.1)) → ¬ bad w →
    (bad (planNext p w).2.2 ∧ Panics (planNext p w).1) ∨ (¬ bad (planNext p w).2.2 ∧ ∃ o, (planNext p w).1 = .ok o)
  | [], w, _, hw => .inr ⟨hw, _, rfl⟩
  | e :: r, w, h, hw => by
    unfold planNext
    have h1 := h e (by simp) w hw
    generalize e.2.2 w = x at h1 ⊢
    obtain ⟨o, w'⟩ := x
    match o with
    | .ok true =>
      rcases h1 with ⟨_, m, h1⟩ | ⟨h1, _⟩
      · cases h1
      · exact .inr ⟨h1, _, rfl⟩
    | .error f =>
      rcases h1 with ⟨h1, m, h2⟩ | ⟨_, h1⟩
      · cases h2
        exact .inl ⟨h1, m, rfl⟩
      · cases h1
    | .ok false =>
      rcases h1 with ⟨_, m, h1⟩ | ⟨h1, _⟩
      · cases h1
      · exact planNext_marks r w' (fun e' he => h e' (List.mem_cons_of_mem _ he)) h1

theorem plan_mem (fs : List (W → W)) : ∀ (p : Plan W T) (w : W), ∀ e ∈ (callsE planNext p fs w).2.1, e ∈ p := by
  induction fs with
  | nil => intro p w e he; exact he
  | cons f fs ih => intro p w e he; exact planNext_mem p _ e (ih _ _ e he)

/-! ## The iterators follow plans -/

/-- Elements to be given if they are not in the set. -/
def notInPlan (c : T → Bool) (s : SetViewE W T) (l : List T) : Plan W T := l.map fun x => (x, !c x, s.lacks x)

/-- Elements to be given if they are in the set. -/
def inPlan (c : T → Bool) (s : SetViewE W T) (l : List T) : Plan W T := l.map fun x => (x, c x, s.contains x)

/-- Elements to be given. -/
def allPlan (l : List T) : Plan W T := l.map fun x => (x, true, fun w => (.ok true, w))

theorem lacks_run (s : SetViewE W T) (x : T) (w : W) :
    s.lacks x w = ((s.contains x w).1.map (fun c => !c), (s.contains x w).2) := by
  show Eff.bind (s.contains x) _ w = _
  unfold Eff.bind
  rcases s.contains x w with ⟨o, w'⟩
  cases o <;> rfl

theorem notIn_follows (c : T → Bool) (s : SetViewE W T) : Follows (nextNotInE s) (notInPlan c s) := by
  intro l
  induction l with
  | nil => intro w; rfl
  | cons a r ih =>
    intro w
    simp only [notInPlan, List.map_cons, planNext, nextNotInE, lacks_run]
    rcases s.contains a w with ⟨o, w'⟩
    match o with
    | .ok true => exact ih w'
    | .ok false => rfl
    | .error f => rfl

theorem in_follows (c : T → Bool) (s : SetViewE W T) : Follows (nextInE s) (inPlan c s) := by
  intro l
  induction l with
  | nil => intro w; rfl
  | cons a r ih =>
    intro w
    simp only [inPlan, List.map_cons, planNext, nextInE]
    rcases s.contains a w with ⟨o, w'⟩
    match o with
    | .ok false => exact ih w'
    | .ok true => rfl
    | .error f => rfl

/-- The plan of a union. -/
def unionPlan (c1 c2 : T → Bool) (u : UnionE W T) : Plan W T :=
  if u.s1.len > u.s2.len then allPlan u.iter1 ++ notInPlan c1 u.s1 u.iter2 else allPlan u.iter2 ++ notInPlan c2 u.s2 u.iter1

theorem union_follows (c1 c2 : T → Bool) : Follows (UnionE.next (W := W)) (unionPlan c1 c2) := by
  intro u w
  obtain ⟨s1, i1, s2, i2⟩ := u
  unfold unionPlan UnionE.next
  by_cases h : s1.len > s2.len
  · simp only [if_pos h]
    cases i1 with
    | nil => simpa [allPlan, h] using notIn_follows c1 s1 i2 w
    | cons a r => simp [allPlan, planNext, h]
  · simp only [if_neg h]
    cases i2 with
    | nil => simpa [allPlan, h] using notIn_follows c2 s2 i1 w
    | cons a r => simp [allPlan, planNext, h]

/-- The plan of an intersection. -/
def interPlan (c1 c2 : T → Bool) (u : IntersectionE W T) : Plan W T :=
  if u.s1.len < u.s2.len then inPlan c2 u.s2 u.iter1 else inPlan c1 u.s1 u.iter2

theorem inter_follows (c1 c2 : T → Bool) : Follows (IntersectionE.next (W := W)) (interPlan c1 c2) := by
  intro u w
  obtain ⟨s1, i1, s2, i2⟩ := u
  unfold interPlan IntersectionE.next
  by_cases h : s1.len < s2.len
  · simpa [h] using in_follows c2 s2 i1 w
  · simpa [h] using in_follows c1 s1 i2 w

/-- The plan of a difference. -/
def diffPlan (c2 : T → Bool) (d : DifferenceE W T) : Plan W T := notInPlan c2 d.s2 d.iter1

theorem diff_follows (c2 : T → Bool) : Follows (DifferenceE.next (W := W)) (diffPlan c2) :=
  fun d w => notIn_follows c2 d.s2 d.iter1 w

theorem planNext_append : ∀ (p q : Plan W T) (w : W), planNext (p ++ q) w =
    match planNext p w with
    | (.ok none, _, w') => planNext q w'
    | (o, p', w') => (o, p' ++ q, w')
  | [], q, w => rfl
  | e :: r, q, w => by
    simp only [List.cons_append, planNext]
    rcases e.2.2 w with ⟨o, w'⟩
    match o with
    | .ok true => rfl
    | .ok false => exact planNext_append r q w'
    | .error f => rfl

/-- The plan of a chained difference. -/
def diffPlan? (c : T → Bool) : Option (DifferenceE W T) → Plan W T
  | none => []
  | some d => diffPlan c d

/-- The plan of a symmetric difference. -/
def symPlan (c1 c2 : T → Bool) (s : SymmetricDifferenceE W T) : Plan W T := diffPlan? c2 s.a ++ diffPlan? c1 s.b

theorem symB_follows (c1 c2 : T → Bool) (b : Option (DifferenceE W T)) (w : W) :
    planNext (diffPlan? c1 b) w = ((SymmetricDifferenceE.nextB ⟨none, b⟩ w).1, symPlan c1 c2 (SymmetricDifferenceE.nextB ⟨none, b⟩ w).2.1,
      (SymmetricDifferenceE.nextB ⟨none, b⟩ w).2.2) := by
  cases b with
  | none => rfl
  | some d => exact diff_follows c1 d w

theorem sym_follows (c1 c2 : T → Bool) : Follows (SymmetricDifferenceE.next (W := W)) (symPlan c1 c2) := by
  intro s w
  obtain ⟨a, b⟩ := s
  cases a with
  | none => exact symB_follows c1 c2 b w
  | some d =>
    show planNext (diffPlan c2 d ++ diffPlan? c1 b) w = _
    rw [planNext_append, diff_follows c2 d w]
    simp only [SymmetricDifferenceE.next]
    rcases d.next w with ⟨o, d', w'⟩
    match o with
    | .ok none => exact symB_follows c1 c2 b w'
    | .ok (some x) => rfl
    | .error f => rfl

/-! ## What the plans want -/

theorem wanted_append (p q : Plan W T) : wanted (p ++ q) = wanted p ++ wanted q := by simp [wanted]

theorem wanted_all (l : List T) : wanted (allPlan l : Plan W T) = l := by
  induction l with
  | nil => rfl
  | cons a r ih => rw [allPlan, List.map_cons, wanted_cons]; exact congrArg (a :: ·) ih

theorem wanted_notIn (c : T → Bool) (s : SetViewE W T) (l : List T) : wanted (notInPlan c s l) = l.filter (fun x => !c x) := by
  induction l with
  | nil => rfl
  | cons a r ih =>
    rw [notInPlan, List.map_cons, wanted_cons, List.filter_cons]
    rw [notInPlan] at ih
    rw [ih]

theorem wanted_in (c : T → Bool) (s : SetViewE W T) (l : List T) : wanted (inPlan c s l) = l.filter c := by
  induction l with
  | nil => rfl
  | cons a r ih =>
    rw [inPlan, List.map_cons, wanted_cons, List.filter_cons]
    rw [inPlan] at ih
    rw [ih]

/-! ## From plans to iterators -/

theorem Follows.wellBehaved {next : S → W → Res (Option T) × S × W} {plan : S → Plan W T} (h : Follows next plan) {s : S}
    (hs : ∀ e ∈ plan s, SafeCode e.2.2) : WellBehaved next s ((plan s).map (fun e => e.1)) := by
  intro fs w
  have := plan_wellBehaved fs (plan s) w hs
  rw [h.calls, ← List.length_map (fun e : T × Bool × Eff W Bool => e.1) (as := plan s)] at this
  exact this

theorem Follows.producesOrPanics {eqT : T → T → Bool} {next : S → W → Res (Option T) × S × W} {plan : S → Plan W T} (h : Follows next plan)
    {s : S} (hs : ∀ e ∈ plan s, PanicsOr e.2.2 (.ok e.2.1)) {mem : T → Prop} {src : List T}
    (hf : Distinct eqT (wanted (plan s)) ∧ (∀ x ∈ wanted (plan s), mem x ∧ x ∈ src) ∧ ∀ x, mem x → ∃ y ∈ wanted (plan s), eqT x y = true) :
    ProducesOrPanics eqT next s mem src := by
  refine ⟨_, hf.1, hf.2.1, hf.2.2, fun fs w => ?_⟩
  have := plan_honest fs (plan s) w hs
  rw [h.calls] at this
  exact this

theorem Follows.producesQuietly {eqT : T → T → Bool} {next : S → W → Res (Option T) × S × W} {plan : S → Plan W T} (h : Follows next plan)
    {s : S} (hs : ∀ e ∈ plan s, Always e.2.2 (.ok e.2.1)) {mem : T → Prop} {src : List T}
    (hf : Distinct eqT (wanted (plan s)) ∧ (∀ x ∈ wanted (plan s), mem x ∧ x ∈ src) ∧ ∀ x, mem x → ∃ y ∈ wanted (plan s), eqT x y = true) :
    ProducesQuietly eqT next s mem src := by
  refine ⟨_, hf.1, hf.2.1, hf.2.2, fun fs w => ?_⟩
  have := plan_quiet fs (plan s) w hs
  rw [h.calls] at this
  exact this

theorem Follows.blames {bad : W → Prop} {next : S → W → Res (Option T) × S × W} {plan : S → Plan W T} (h : Follows next plan) {s : S}
    (hs : ∀ e ∈ plan s, Marks bad e.2.2 (.ok e.2.1)) : Blames bad next s := by
  intro fs w v hv
  have hm := plan_mem fs (plan s) w
  rw [h.calls] at hm
  have := planNext_marks (plan (callsE next s fs w).2.1) v (fun e he => hs e (hm e he)) hv
  rw [h] at this
  exact this

/-! ## The tests of the plans -/

theorem EffRel.lacks (E : EffRel W) {s : SetViewE W T} {c : T → Bool} (h : ∀ x, E.R Bool (s.contains x) (.ok (c x))) (x : T) :
    E.R Bool (s.lacks x) (.ok (!c x)) := E.bindOk (h x) (E.pure _)

section tests

variable {R : Eff W Bool → Res Bool → Prop} {a b : SetViewE W T} {c1 c2 : T → Bool}

theorem notInPlan_tests {s : SetViewE W T} {c : T → Bool} {l : List T} (h : ∀ x, R (s.lacks x) (.ok (!c x))) :
    ∀ e ∈ notInPlan c s l, R e.2.2 (.ok e.2.1) := by
  intro e he
  obtain ⟨x, -, rfl⟩ := List.mem_map.1 he
  exact h x

theorem inPlan_tests {s : SetViewE W T} {c : T → Bool} {l : List T} (h : ∀ x, R (s.contains x) (.ok (c x))) :
    ∀ e ∈ inPlan c s l, R e.2.2 (.ok e.2.1) := by
  intro e he
  obtain ⟨x, -, rfl⟩ := List.mem_map.1 he
  exact h x

theorem allPlan_tests {l : List T} (h : R (fun w => (.ok true, w)) (.ok true)) : ∀ e ∈ (allPlan l : Plan W T), R e.2.2 (.ok e.2.1) := by
  intro e he
  obtain ⟨x, -, rfl⟩ := List.mem_map.1 he
  exact h

theorem append_tests {p q : Plan W T} (h1 : ∀ e ∈ p, R e.2.2 (.ok e.2.1)) (h2 : ∀ e ∈ q, R e.2.2 (.ok e.2.1)) :
    ∀ e ∈ p ++ q, R e.2.2 (.ok e.2.1) := by
  intro e he
  rcases List.mem_append.1 he with he | he
  · exact h1 e he
  · exact h2 e he

/-- The tests of all four iterators. -/
theorem plans_tests (ht : R (fun w => (.ok true, w)) (.ok true)) (h1 : ∀ x, R (a.contains x) (.ok (c1 x))) (h2 : ∀ x, R (b.contains x) (.ok (c2 x)))
    (l1 : ∀ x, R (a.lacks x) (.ok (!c1 x))) (l2 : ∀ x, R (b.lacks x) (.ok (!c2 x))) :
    (∀ e ∈ unionPlan c1 c2 (UnionE.new a b), R e.2.2 (.ok e.2.1)) ∧ (∀ e ∈ interPlan c1 c2 (IntersectionE.new a b), R e.2.2 (.ok e.2.1)) ∧
    (∀ e ∈ diffPlan c2 (DifferenceE.new a b), R e.2.2 (.ok e.2.1)) ∧
    (∀ e ∈ symPlan c1 c2 (SymmetricDifferenceE.new a b), R e.2.2 (.ok e.2.1)) := by
  refine ⟨?_, ?_, notInPlan_tests l2, append_tests (notInPlan_tests l2) (notInPlan_tests l1)⟩
  · unfold unionPlan
    split
    · exact append_tests (allPlan_tests ht) (notInPlan_tests l1)
    · exact append_tests (allPlan_tests ht) (notInPlan_tests l2)
  · unfold interPlan
    split
    · exact inPlan_tests h2
    · exact inPlan_tests h1

theorem EffRel.plans (E : EffRel W) (h1 : ∀ x, E.R Bool (a.contains x) (.ok (c1 x))) (h2 : ∀ x, E.R Bool (b.contains x) (.ok (c2 x))) :
    (∀ e ∈ unionPlan c1 c2 (UnionE.new a b), E.R Bool e.2.2 (.ok e.2.1)) ∧
    (∀ e ∈ interPlan c1 c2 (IntersectionE.new a b), E.R Bool e.2.2 (.ok e.2.1)) ∧
    (∀ e ∈ diffPlan c2 (DifferenceE.new a b), E.R Bool e.2.2 (.ok e.2.1)) ∧
    (∀ e ∈ symPlan c1 c2 (SymmetricDifferenceE.new a b), E.R Bool e.2.2 (.ok e.2.1)) :=
  plans_tests (R := E.R Bool) (E.pure true) h1 h2 (E.lacks h1) (E.lacks h2)

end tests

theorem lacks_safe {s : SetViewE W T} (h : ∀ x, SafeCode (s.contains x)) (x : T) : SafeCode (s.lacks x) := by
  intro w
  rw [lacks_run]
  have := h x w
  generalize s.contains x w = y at this ⊢
  obtain ⟨o, w'⟩ := y
  cases o with
  | ok c => exact NoUb.ok _
  | error f => exact fun msg hm => by cases hm; exact this msg rfl

theorem allE_safe {f : T → Eff W Bool} (h : ∀ x, SafeCode (f x)) : ∀ (l : List T), SafeCode (allE f l)
  | [], w => NoUb.ok _
  | a :: r, w => by
    show NoUb (Eff.bind (f a) (fun c => if c then allE f r else pure false) w).1
    unfold Eff.bind
    have h1 := h a w
    generalize f a w = y at h1 ⊢
    obtain ⟨o, w'⟩ := y
    match o with
    | .ok true => exact allE_safe h r w'
    | .ok false => exact NoUb.ok _
    | .error f => exact fun msg hm => by cases hm; exact h1 msg rfl

/-! ## Comparisons -/

section compare

variable (E : EffRel W) {a b : SetViewE W T} {s1 s2 : SetView T}

theorem EffRel.all {f : T → Eff W Bool} {g : T → Res Bool} (h : ∀ x, E.R Bool (f x) (g x)) (l : List T) : E.R Bool (allE f l) (allM g l) := by
  induction l with
  | nil => exact E.pure true
  | cons a r ih =>
    refine E.bind (h a) (fun c _ => ?_)
    exact E.ite (fun _ => ih) (fun _ => E.pure false)

theorem EffRel.compare {c1 c2 : T → Bool} (h1 : ∀ x, E.R Bool (a.contains x) (.ok (c1 x))) (h2 : ∀ x, E.R Bool (b.contains x) (.ok (c2 x))) :
    let s1 : SetView T := ⟨a.len, a.items, fun x => .ok (c1 x)⟩
    let s2 : SetView T := ⟨b.len, b.items, fun x => .ok (c2 x)⟩
    E.R Bool (isSubsetE a b) (isSubset s1 s2) ∧ E.R Bool (isSupersetE a b) (isSuperset s1 s2) ∧
    E.R Bool (isDisjointE a b) (isDisjoint s1 s2) ∧ E.R Bool (setEqE a b) (setEq s1 s2) :=
  ⟨E.ite (fun _ => E.all h2 _) (fun _ => E.pure _), E.ite (fun _ => E.all h1 _) (fun _ => E.pure _),
    E.ite (fun _ => E.all (E.lacks h2) _) (fun _ => E.all (E.lacks h1) _), E.ite (fun _ => E.pure _) (fun _ => E.all h2 _)⟩

end compare

end Frozen.Props
