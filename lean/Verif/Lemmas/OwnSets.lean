import Verif.Props.OwnSetSpec

/-!
# Set operations on the user's own set types: runs against lists
-/

namespace Frozen.Props
open Frozen Frozen.Spec Frozen.Model

variable {T σ σ₁ σ₂ G : Type}

theorem _root_.Frozen.Spec.GivesOnce.now {next : σ → Option T × σ} {i : σ} {l : List T} (h : GivesOnce next i l) : (next i).1 = l.head? := by
  have := h 0 (Nat.zero_le _)
  rw [List.head?_eq_getElem?]; exact this

theorem _root_.Frozen.Spec.GivesOnce.later {next : σ → Option T × σ} {i : σ} {x : T} {l : List T} (h : GivesOnce next i (x :: l)) : GivesOnce next (next i).2 l := by
  intro n hn
  have := h (n + 1) (by simp; omega)
  simpa [answer] using this

theorem _root_.Frozen.Spec.Gives.once {next : σ → Option T × σ} {i : σ} {l : List T} (h : Gives next i l) : GivesOnce next i l := fun n _ => h n

theorem _root_.Frozen.Spec.Gives.later {next : σ → Option T × σ} {i : σ} {l : List T} (h : Gives next i l) : Gives next (next i).2 l.tail := by
  intro n
  have := h (n + 1)
  rw [List.getElem?_tail]
  exact this

/-- A loop reaches one result only. -/
theorem _root_.Frozen.Model.Skim.det {next : σ → Option T × σ} {c : T → Res Bool} {w : Bool} {i i' i'' : σ} {r r' : Option T} (h : Skim next c w i r i')
    (h' : Skim next c w i r' i'') : r = r' ∧ i' = i'' := by
  induction h with
  | stop e =>
    cases h' with
    | stop e' => rw [e] at e'; exact ⟨rfl, (Prod.mk.inj e').2⟩
    | found e' _ => rw [e] at e'; cases (Prod.mk.inj e').1
    | skip e' _ _ => rw [e] at e'; cases (Prod.mk.inj e').1
  | found e t =>
    cases h' with
    | stop e' => rw [e] at e'; cases (Prod.mk.inj e').1
    | found e' _ => rw [e] at e'; exact ⟨(Prod.mk.inj e').1, (Prod.mk.inj e').2⟩
    | skip e' t' _ =>
      rw [e] at e'
      cases (Prod.mk.inj e').1
      rw [t] at t'
      have := Except.ok.inj t'
      cases w <;> cases this
  | skip e t _ ih =>
    cases h' with
    | stop e' => rw [e] at e'; cases (Prod.mk.inj e').1
    | found e' t' =>
      rw [e] at e'
      cases (Prod.mk.inj e').1
      rw [t] at t'
      have := Except.ok.inj t'
      cases w <;> cases this
    | skip e' t' h' =>
      rw [e] at e'
      cases (Prod.mk.inj e').2
      exact ih h'

/-- A loop over an iterator that gives `l` answers the first element of `l` that passes the test, and leaves the rest. -/
theorem _root_.Frozen.Model.Skim.once {next : σ → Option T × σ} {c : T → Bool} {cr : T → Res Bool} (hc : ∀ x, cr x = .ok (c x)) (w : Bool) {l : List T} :
    ∀ {i : σ}, GivesOnce next i l → ∃ i', Skim next cr w i (l.filter (fun x => c x == w)).head? i' ∧
      (l.filter (fun x => c x == w) ≠ [] → ∃ l', GivesOnce next i' l' ∧ l'.filter (fun x => c x == w) = (l.filter (fun x => c x == w)).tail) := by
  induction l with
  | nil =>
    intro i h
    refine ⟨(next i).2, .stop ?_, fun h => absurd rfl h⟩
    have := h.now
    exact Prod.ext this rfl
  | cons x l ih =>
    intro i h
    have e : next i = (some x, (next i).2) := Prod.ext h.now rfl
    by_cases hx : c x = w
    · refine ⟨(next i).2, ?_, fun _ => ⟨l, h.later, ?_⟩⟩
      · rw [List.filter_cons_of_pos (by simpa using hx)]
        exact .found e (by rw [hc, hx])
      · rw [List.filter_cons_of_pos (by simpa using hx)]; rfl
    · obtain ⟨i', h1, h2⟩ := ih h.later
      rw [List.filter_cons_of_neg (by simpa using hx)]
      refine ⟨i', .skip e ?_ h1, h2⟩
      rw [hc]
      cases w <;> cases h3 : c x <;> first | rfl | exact absurd h3 hx

/-- The same with an iterator that stays at its end. -/
theorem _root_.Frozen.Model.Skim.ever {next : σ → Option T × σ} {c : T → Bool} {cr : T → Res Bool} (hc : ∀ x, cr x = .ok (c x)) (w : Bool) {l : List T} :
    ∀ {i : σ}, Gives next i l → ∃ i', Skim next cr w i (l.filter (fun x => c x == w)).head? i' ∧
      ∃ l', Gives next i' l' ∧ l'.filter (fun x => c x == w) = (l.filter (fun x => c x == w)).tail := by
  induction l with
  | nil =>
    intro i h
    exact ⟨(next i).2, .stop (Prod.ext h.once.now rfl), [], h.later, rfl⟩
  | cons x l ih =>
    intro i h
    have e : next i = (some x, (next i).2) := Prod.ext h.once.now rfl
    by_cases hx : c x = w
    · refine ⟨(next i).2, ?_, l, h.later, ?_⟩
      · rw [List.filter_cons_of_pos (by simpa using hx)]
        exact .found e (by rw [hc, hx])
      · rw [List.filter_cons_of_pos (by simpa using hx)]; rfl
    · obtain ⟨i', h1, h2⟩ := ih h.later
      rw [List.filter_cons_of_neg (by simpa using hx)]
      refine ⟨i', .skip e ?_ h1, h2⟩
      rw [hc]
      cases w <;> cases h3 : c x <;> first | rfl | exact absurd h3 hx

theorem _root_.Frozen.Model.DifferenceStep.det {s1 : OwnSet T σ₁} {s2 : OwnSet T σ₂} {i i' i'' : σ₁} {r r' : Option T} (h : DifferenceStep s1 s2 i r i')
    (h' : DifferenceStep s1 s2 i r' i'') : r = r' ∧ i' = i'' := Skim.det h h'

theorem _root_.Frozen.Model.IntersectionStep.det {s1 : OwnSet T σ₁} {s2 : OwnSet T σ₂} {g g' g'' : σ₁ × σ₂} {r r' : Option T} (h : IntersectionStep s1 s2 g r g')
    (h' : IntersectionStep s1 s2 g r' g'') : r = r' ∧ g' = g'' := by
  cases h with
  | left hl h =>
    cases h' with
    | left _ h' => obtain ⟨e, rfl⟩ := h.det h'; exact ⟨e, rfl⟩
    | right hl' _ => exact absurd hl hl'
  | right hl h =>
    cases h' with
    | left hl' _ => exact absurd hl' hl
    | right _ h' => obtain ⟨e, rfl⟩ := h.det h'; exact ⟨e, rfl⟩

theorem _root_.Frozen.Model.SymmetricStep.det {s1 : OwnSet T σ₁} {s2 : OwnSet T σ₂} {g g' g'' : Option σ₁ × σ₂} {r r' : Option T} (h : SymmetricStep s1 s2 g r g')
    (h' : SymmetricStep s1 s2 g r' g'') : r = r' ∧ g' = g'' := by
  cases h with
  | first h =>
    cases h' with
    | first h' => obtain ⟨e, rfl⟩ := h.det h'; exact ⟨e, rfl⟩
    | switch h' _ => cases (h.det h').1
  | switch h h2 =>
    cases h' with
    | first h' => cases (h.det h').1
    | switch _ h2' => obtain ⟨e, rfl⟩ := h2.det h2'; exact ⟨e, rfl⟩
  | second h =>
    cases h' with
    | second h' => obtain ⟨e, rfl⟩ := h.det h'; exact ⟨e, rfl⟩

theorem _root_.Frozen.Model.UnionStep.det {s1 : OwnSet T σ₁} {s2 : OwnSet T σ₂} {g g' g'' : σ₁ × σ₂} {r r' : Option T} (h : UnionStep s1 s2 g r g')
    (h' : UnionStep s1 s2 g r' g'') : r = r' ∧ g' = g'' := by
  cases h with
  | left hl e =>
    cases h' with
    | left _ e' => rw [e] at e'; cases e'; exact ⟨rfl, rfl⟩
    | leftDone _ e' _ => rw [e] at e'; cases e'
    | right hl' _ => exact absurd hl hl'
    | rightDone hl' _ _ => exact absurd hl hl'
  | leftDone hl e h =>
    cases h' with
    | left _ e' => rw [e] at e'; cases e'
    | leftDone _ e' h' =>
      rw [e] at e'; cases e'
      obtain ⟨e, rfl⟩ := h.det h'; exact ⟨e, rfl⟩
    | right hl' _ => exact absurd hl hl'
    | rightDone hl' _ _ => exact absurd hl hl'
  | right hl e =>
    cases h' with
    | left hl' _ => exact absurd hl' hl
    | leftDone hl' _ _ => exact absurd hl' hl
    | right _ e' => rw [e] at e'; cases e'; exact ⟨rfl, rfl⟩
    | rightDone _ e' _ => rw [e] at e'; cases e'
  | rightDone hl e h =>
    cases h' with
    | left hl' _ => exact absurd hl' hl
    | leftDone hl' _ _ => exact absurd hl' hl
    | right _ e' => rw [e] at e'; cases e'
    | rightDone _ e' h' =>
      rw [e] at e'; cases e'
      obtain ⟨e, rfl⟩ := h.det h'; exact ⟨e, rfl⟩

/-- Steps that follow lists follow them for ever. -/
theorem right_of_inv {eqT : T → T → Bool} {mem : T → Prop} {step : G → Option T → G → Prop} (Inv : G → List T → Prop)
    (det : ∀ g r g' r' g'', step g r g' → step g r' g'' → r = r' ∧ g' = g'')
    (h : ∀ g l, Inv g l → ∃ g', step g l.head? g' ∧ Inv g' l.tail) {g : G} {items : List T} (h0 : Inv g items) (hl : Lists eqT mem items) :
    Right eqT mem step g := by
  refine ⟨items, hl, fun n => ?_, fun as ha => ?_⟩
  · clear hl
    induction n generalizing g items with
    | zero => exact ⟨[], .nil, rfl⟩
    | succ n ih =>
      obtain ⟨g', hs, hi⟩ := h _ _ h0
      obtain ⟨as, h1, h2⟩ := ih hi
      exact ⟨_ :: as, .cons hs h1, by simp [h2]⟩
  · clear hl
    induction ha generalizing items with
    | nil => intro n r hr; cases hr
    | cons hs _ ih =>
      obtain ⟨g', hs', hi⟩ := h _ _ h0
      obtain ⟨rfl, rfl⟩ := det _ _ _ _ _ hs hs'
      intro n r hr
      cases n with
      | zero => rw [← List.head?_eq_getElem?]; exact (Option.some.inj hr).symm
      | succ n =>
        have := ih hi n r hr
        rw [this, List.getElem?_tail]

/-- Steps that follow lists up to their end follow them up to the first `None`. -/
theorem rightOnce_of_inv {eqT : T → T → Bool} {mem : T → Prop} {step : G → Option T → G → Prop} (Inv : G → List T → Prop)
    (det : ∀ g r g' r' g'', step g r g' → step g r' g'' → r = r' ∧ g' = g'')
    (h : ∀ g l, Inv g l → ∃ g', step g l.head? g' ∧ (l ≠ [] → Inv g' l.tail)) {g : G} {items : List T} (h0 : Inv g items)
    (hl : Lists eqT mem items) : RightOnce eqT mem step g := by
  refine ⟨items, hl, fun n hn => ?_, fun as ha => ?_⟩
  · clear hl
    induction n generalizing g items with
    | zero => exact ⟨[], .nil, rfl⟩
    | succ n ih =>
      obtain ⟨g', hs, hi⟩ := h _ _ h0
      by_cases he : items = []
      · subst he
        cases n with
        | zero => exact ⟨[none], .cons hs .nil, rfl⟩
        | succ n => simp at hn
      · obtain ⟨as, h1, h2⟩ := ih (hi he) (by
          cases items with
          | nil => exact absurd rfl he
          | cons x l => simpa using hn)
        exact ⟨_ :: as, .cons hs h1, by simp [h2]⟩
  · clear hl
    induction ha generalizing items with
    | nil => intro n r _ hr; cases hr
    | cons hs _ ih =>
      obtain ⟨g', hs', hi⟩ := h _ _ h0
      obtain ⟨rfl, rfl⟩ := det _ _ _ _ _ hs hs'
      intro n r hn hr
      cases n with
      | zero => rw [← List.head?_eq_getElem?]; exact (Option.some.inj hr).symm
      | succ n =>
        cases items with
        | nil => simp at hn
        | cons x l =>
          have := ih (hi (by simp)) n r (by simpa using hn) hr
          rw [this, List.getElem?_tail]

/-- A check over an iterator that gives `l` is the check of the list. -/
theorem allOf_iff {next : σ → Option T × σ} {test : T → Res Bool} (ht : ∀ x, ∃ b, test x = .ok b) {l : List T} :
    ∀ {i : σ}, GivesOnce next i l → ∀ b, AllOf next test i b ↔ allM test l = .ok b := by
  induction l with
  | nil =>
    intro i h b
    have e : next i = (none, (next i).2) := Prod.ext h.now rfl
    constructor
    · intro ha
      cases ha with
      | stop _ => rfl
      | fail e' _ => rw [e] at e'; cases (Prod.mk.inj e').1
      | pass e' _ _ => rw [e] at e'; cases (Prod.mk.inj e').1
    · intro hb
      cases Except.ok.inj hb
      exact .stop e
  | cons x l ih =>
    intro i h b
    have e : next i = (some x, (next i).2) := Prod.ext h.now rfl
    obtain ⟨t, ht'⟩ := ht x
    have ha : allM test (x :: l) = if t then allM test l else .ok false := by
      simp only [allM, bind, Except.bind, ht']
    rw [ha]
    cases t with
    | false =>
      constructor
      · intro h'
        cases h' with
        | stop e' => rw [e] at e'; cases (Prod.mk.inj e').1
        | fail _ _ => rfl
        | pass e' t' _ =>
          rw [e] at e'; cases (Prod.mk.inj e').1
          rw [ht'] at t'; cases t'
      · intro hb
        cases Except.ok.inj hb
        exact .fail e ht'
    | true =>
      constructor
      · intro h'
        cases h' with
        | stop e' => rw [e] at e'; cases (Prod.mk.inj e').1
        | fail e' t' =>
          rw [e] at e'; cases (Prod.mk.inj e').1
          rw [ht'] at t'; cases t'
        | pass e' _ h' =>
          rw [e] at e'; cases (Prod.mk.inj e').2
          exact (ih h.later b).1 h'
      · intro hb
        exact .pass e ht' ((ih h.later b).2 hb)

end Frozen.Props
