import Verif.Model.Probes
import Verif.Lemmas.Sets

/-!
# Lemmas on the lookups of the set operations
-/

namespace Frozen.Model

open Frozen Frozen.Spec

variable {T S A : Type}

/-! ## The recording variants compute the same -/

theorem nextNotInT_fst (tag : T → Probe T) (s : SetView T) (l : List T) : (nextNotInT tag s l).map Prod.fst = nextNotIn s l := by
  induction l with
  | nil => rfl
  | cons a r ih =>
    simp only [nextNotInT, nextNotIn, bind, Except.bind]
    cases s.contains a with
    | error e => rfl
    | ok b =>
      cases b with
      | false => rfl
      | true =>
        simp only [Bool.not_true, Bool.false_eq_true, if_false]
        rw [← ih]
        cases nextNotInT tag s r <;> rfl

theorem nextInT_fst (tag : T → Probe T) (s : SetView T) (l : List T) : (nextInT tag s l).map Prod.fst = nextIn s l := by
  induction l with
  | nil => rfl
  | cons a r ih =>
    simp only [nextInT, nextIn, bind, Except.bind]
    cases s.contains a with
    | error e => rfl
    | ok b =>
      cases b with
      | true => rfl
      | false =>
        simp only [Bool.false_eq_true, if_false]
        rw [← ih]
        cases nextInT tag s r <;> rfl

theorem Union.nextT_fst (u : Union T) : u.nextT.map Prod.fst = u.next := by
  unfold Union.nextT Union.next
  split
  · cases u.iter1 with
    | cons => rfl
    | nil =>
      simp only [bind, Except.bind]
      rw [← nextNotInT_fst .first]
      cases nextNotInT .first u.s1 u.iter2 <;> rfl
  · cases u.iter2 with
    | cons => rfl
    | nil =>
      simp only [bind, Except.bind]
      rw [← nextNotInT_fst .second]
      cases nextNotInT .second u.s2 u.iter1 <;> rfl

theorem Difference.nextT_fst (tag : T → Probe T) (d : Difference T) : (d.nextT tag).map Prod.fst = d.next := by
  unfold Difference.nextT Difference.next
  simp only [bind, Except.bind]
  rw [← nextNotInT_fst tag]
  cases nextNotInT tag d.s2 d.iter1 <;> rfl

theorem SymmetricDifference.nextBT_fst (s : SymmetricDifference T) : s.nextBT.map Prod.fst = s.nextB := by
  unfold SymmetricDifference.nextBT SymmetricDifference.nextB
  cases s.b with
  | none => rfl
  | some d =>
    simp only [bind, Except.bind]
    rw [← Difference.nextT_fst .first]
    cases d.nextT .first <;> rfl

theorem SymmetricDifference.nextT_fst (s : SymmetricDifference T) : s.nextT.map Prod.fst = s.next := by
  unfold SymmetricDifference.nextT SymmetricDifference.next
  cases s.a with
  | none => exact s.nextBT_fst
  | some d =>
    simp only [bind, Except.bind]
    rw [← Difference.nextT_fst .second]
    cases d.nextT .second with
    | error e => rfl
    | ok p =>
      simp only [Except.map, SymmetricDifference.afterAT, SymmetricDifference.afterA]
      cases p.1.1 with
      | some x => rfl
      | none =>
        simp only [bind, Except.bind]
        rw [← SymmetricDifference.nextBT_fst]
        cases SymmetricDifference.nextBT { s with a := none } <;> rfl

theorem Intersection.nextT_fst (u : Intersection T) : u.nextT.map Prod.fst = u.next := by
  unfold Intersection.nextT Intersection.next
  split
  · simp only [bind, Except.bind]
    rw [← nextInT_fst .second]
    cases nextInT .second u.s2 u.iter1 <;> rfl
  · simp only [bind, Except.bind]
    rw [← nextInT_fst .first]
    cases nextInT .first u.s1 u.iter2 <;> rfl

theorem allMT_fst (tag : T → Probe T) (f : T → Res Bool) (l : List T) : (allMT tag f l).map Prod.fst = allM f l := by
  induction l with
  | nil => rfl
  | cons a r ih =>
    simp only [allMT, allM, bind, Except.bind]
    cases f a with
    | error e => rfl
    | ok b =>
      cases b with
      | false => rfl
      | true =>
        simp only [if_true]
        rw [← ih]
        cases allMT tag f r <;> rfl

theorem isDisjointT_fst (s1 s2 : SetView T) : (isDisjointT s1 s2).map Prod.fst = isDisjoint s1 s2 := by
  unfold isDisjointT isDisjoint
  split <;> exact allMT_fst _ _ _

theorem isSubsetT_fst (s1 s2 : SetView T) : (isSubsetT s1 s2).map Prod.fst = isSubset s1 s2 := by
  unfold isSubsetT isSubset
  split
  · exact allMT_fst _ _ _
  · rfl

theorem isSupersetT_fst (s1 s2 : SetView T) : (isSupersetT s1 s2).map Prod.fst = isSuperset s1 s2 := by
  unfold isSupersetT isSuperset
  split
  · exact allMT_fst _ _ _
  · rfl

theorem setEqT_fst (s1 s2 : SetView T) : (setEqT s1 s2).map Prod.fst = setEq s1 s2 := by
  unfold setEqT setEq
  split
  · rfl
  · exact allMT_fst _ _ _

theorem collectT_fst {next : S → Res (Option A × S)} {nextT : S → Res ((Option A × S) × List (Probe T))}
    (h : ∀ s, (nextT s).map Prod.fst = next s) (fuel : Nat) (s : S) : (collectT nextT fuel s).map Prod.fst = collect next fuel s := by
  induction fuel generalizing s with
  | zero => rfl
  | succ n ih =>
    simp only [collectT, collect, bind, Except.bind]
    rw [← h]
    cases nextT s with
    | error e => rfl
    | ok p =>
      obtain ⟨⟨o, s'⟩, log⟩ := p
      cases o with
      | none => rfl
      | some a =>
        simp only [Except.map]
        rw [← ih]
        cases collectT nextT n s' <;> rfl

/-! ## What is looked up -/

/-- The elements taken from the iterator are looked up, once each, in order. -/
theorem nextNotInT_log {tag : T → Probe T} {s : SetView T} {l : List T} {p : (Option T × List T) × List (Probe T)}
    (h : nextNotInT tag s l = .ok p) : p.2 ++ p.1.2.map tag = l.map tag ∧ (p.1.1 = none → p.1.2 = []) := by
  induction l generalizing p with
  | nil => cases h; exact ⟨rfl, fun _ => rfl⟩
  | cons a r ih =>
    simp only [nextNotInT, bind, Except.bind] at h
    split at h
    · cases h
    · rename_i b hb
      cases b with
      | false => cases h; exact ⟨rfl, by intro h; cases h⟩
      | true =>
        simp only [Bool.not_true, Bool.false_eq_true, if_false] at h
        split at h
        · cases h
        · rename_i q hq
          cases h
          obtain ⟨h1, h2⟩ := ih hq
          exact ⟨by simp only [List.cons_append, List.map_cons, h1], h2⟩

theorem nextInT_log {tag : T → Probe T} {s : SetView T} {l : List T} {p : (Option T × List T) × List (Probe T)}
    (h : nextInT tag s l = .ok p) : p.2 ++ p.1.2.map tag = l.map tag ∧ (p.1.1 = none → p.1.2 = []) := by
  induction l generalizing p with
  | nil => cases h; exact ⟨rfl, fun _ => rfl⟩
  | cons a r ih =>
    simp only [nextInT, bind, Except.bind] at h
    split at h
    · cases h
    · rename_i b hb
      cases b with
      | true => cases h; exact ⟨rfl, by intro h; cases h⟩
      | false =>
        simp only [Bool.false_eq_true, if_false] at h
        split at h
        · cases h
        · rename_i q hq
          cases h
          obtain ⟨h1, h2⟩ := ih hq
          exact ⟨by simp only [List.cons_append, List.map_cons, h1], h2⟩

/-- `todo s` are the lookups still to come: a step makes some of them, from the front, and the last step makes them all. -/
structure Schedule (next : S → Res ((Option A × S) × List (Probe T))) (inv : S → Prop) (todo : S → List (Probe T)) : Prop where
  step : ∀ s p, inv s → next s = .ok p → inv p.1.2 ∧ p.2 ++ todo p.1.2 = todo s ∧ (p.1.1 = none → todo p.1.2 = [])

theorem Schedule.steps {next : S → Res ((Option A × S) × List (Probe T))} {inv : S → Prop} {todo : S → List (Probe T)} (hs : Schedule next inv todo)
    {n : Nat} {s : S} (hi : inv s) {r : List (Option A) × S × List (Probe T)} (h : stepsT next n s = .ok r) :
    r.2.2 ++ todo r.2.1 = todo s ∧ (none ∈ r.1 → todo r.2.1 = []) := by
  induction n generalizing s r with
  | zero => cases h; exact ⟨rfl, by intro h; cases h⟩
  | succ n ih =>
    simp only [stepsT, bind, Except.bind] at h
    split at h
    · cases h
    · rename_i p hp
      split at h
      · cases h
      · rename_i q hq
        cases h
        obtain ⟨h1, h2, h3⟩ := hs.step s p hi hp
        obtain ⟨h4, h5⟩ := ih h1 hq
        refine ⟨by rw [List.append_assoc]; simp only; rw [h4, h2], ?_⟩
        intro hm
        rcases List.mem_cons.1 hm with hm | hm
        · have := h3 hm.symm
          rw [this] at h4
          exact (List.append_eq_nil_iff.1 h4).2
        · exact h5 hm

theorem Schedule.collect {next : S → Res ((Option A × S) × List (Probe T))} {inv : S → Prop} {todo : S → List (Probe T)} (hs : Schedule next inv todo)
    {fuel : Nat} {s : S} (hi : inv s) {l : List A} {log : List (Probe T)} (h : collectT next fuel s = .ok (some l, log)) : log = todo s := by
  induction fuel generalizing s l log with
  | zero => cases h
  | succ n ih =>
    simp only [collectT, bind, Except.bind] at h
    split at h
    · cases h
    · rename_i p hp
      obtain ⟨h1, h2, h3⟩ := hs.step s p hi hp
      split at h
      · rename_i hn
        cases h
        rw [h3 hn, List.append_nil] at h2
        exact h2
      · split at h
        · cases h
        · rename_i q hq
          obtain ⟨o, lg⟩ := q
          cases o with
          | none => cases h
          | some l' =>
            cases h
            rw [← h2, ih h1 hq]

/-- The lookups of a union still to come. -/
def Union.todo (u : Union T) : List (Probe T) := if u.s1.len > u.s2.len then u.iter2.map .first else u.iter1.map .second

theorem Union.schedule : Schedule (T := T) Union.nextT (fun _ => True) Union.todo where
  step := by
    intro s p _ h
    refine ⟨trivial, ?_⟩
    unfold Union.nextT at h
    split at h
    · rename_i hlt
      split at h
      · cases h
        exact ⟨by simp only [Union.todo, if_pos hlt, List.nil_append], by intro h; cases h⟩
      · simp only [bind, Except.bind] at h
        split at h
        · cases h
        · rename_i q hq
          cases h
          obtain ⟨h1, h2⟩ := nextNotInT_log hq
          simp only [Union.todo, if_pos hlt]
          exact ⟨h1, fun h => by rw [h2 h]; rfl⟩
    · rename_i hlt
      split at h
      · cases h
        exact ⟨by simp only [Union.todo, if_neg hlt, List.nil_append], by intro h; cases h⟩
      · simp only [bind, Except.bind] at h
        split at h
        · cases h
        · rename_i q hq
          cases h
          obtain ⟨h1, h2⟩ := nextNotInT_log hq
          simp only [Union.todo, if_neg hlt]
          exact ⟨h1, fun h => by rw [h2 h]; rfl⟩

/-- The lookups of an intersection still to come. -/
def Intersection.todo (u : Intersection T) : List (Probe T) := if u.s1.len < u.s2.len then u.iter1.map .second else u.iter2.map .first

theorem Intersection.schedule : Schedule (T := T) Intersection.nextT (fun _ => True) Intersection.todo where
  step := by
    intro s p _ h
    refine ⟨trivial, ?_⟩
    unfold Intersection.nextT at h
    split at h
    · rename_i hlt
      simp only [bind, Except.bind] at h
      split at h
      · cases h
      · rename_i q hq
        cases h
        obtain ⟨h1, h2⟩ := nextInT_log hq
        simp only [Intersection.todo, if_pos hlt]
        exact ⟨h1, fun h => by rw [h2 h]; rfl⟩
    · rename_i hlt
      simp only [bind, Except.bind] at h
      split at h
      · cases h
      · rename_i q hq
        cases h
        obtain ⟨h1, h2⟩ := nextInT_log hq
        simp only [Intersection.todo, if_neg hlt]
        exact ⟨h1, fun h => by rw [h2 h]; rfl⟩

theorem Difference.nextT_log {tag : T → Probe T} {d : Difference T} {p : (Option T × Difference T) × List (Probe T)} (h : d.nextT tag = .ok p) :
    p.2 ++ p.1.2.iter1.map tag = d.iter1.map tag ∧ (p.1.1 = none → p.1.2.iter1 = []) := by
  unfold Difference.nextT at h
  simp only [bind, Except.bind] at h
  split at h
  · cases h
  · rename_i q hq
    cases h
    exact nextNotInT_log hq

theorem Difference.schedule (tag : T → Probe T) : Schedule (Difference.nextT tag) (fun _ => True) (fun d => d.iter1.map tag) where
  step := by
    intro s p _ h
    obtain ⟨h1, h2⟩ := Difference.nextT_log h
    exact ⟨trivial, h1, fun h => by rw [h2 h]; rfl⟩

/-- The lookups of a symmetric difference still to come. -/
def SymmetricDifference.todo (s : SymmetricDifference T) : List (Probe T) :=
  (match s.a with | none => [] | some d => d.iter1.map .second) ++ (match s.b with | none => [] | some d => d.iter1.map .first)

theorem SymmetricDifference.nextBT_log {s : SymmetricDifference T} (ha : s.a = none) {p : (Option T × SymmetricDifference T) × List (Probe T)}
    (h : s.nextBT = .ok p) : p.2 ++ p.1.2.todo = s.todo ∧ (p.1.1 = none → p.1.2.todo = []) := by
  unfold SymmetricDifference.nextBT at h
  split at h
  · rename_i hb
    cases h
    simp only [SymmetricDifference.todo, ha, hb]
    exact ⟨rfl, fun _ => rfl⟩
  · rename_i d hb
    simp only [bind, Except.bind] at h
    split at h
    · cases h
    · rename_i q hq
      cases h
      obtain ⟨h1, h2⟩ := Difference.nextT_log hq
      simp only [SymmetricDifference.todo, ha, hb, List.nil_append]
      exact ⟨h1, fun h => by rw [h2 h]; rfl⟩

theorem SymmetricDifference.schedule : Schedule (T := T) SymmetricDifference.nextT (fun _ => True) SymmetricDifference.todo where
  step := by
    intro s p _ h
    refine ⟨trivial, ?_⟩
    unfold SymmetricDifference.nextT at h
    split at h
    · rename_i ha
      exact SymmetricDifference.nextBT_log ha h
    · rename_i d ha
      simp only [bind, Except.bind] at h
      split at h
      · cases h
      · rename_i q hq
        obtain ⟨h1, h2⟩ := Difference.nextT_log hq
        unfold SymmetricDifference.afterAT at h
        split at h
        · rename_i x hx
          cases h
          refine ⟨?_, by intro h; cases h⟩
          simp only [SymmetricDifference.todo, ha]
          rw [← List.append_assoc, h1]
        · rename_i hx
          simp only [bind, Except.bind] at h
          split at h
          · cases h
          · rename_i r hr
            cases h
            obtain ⟨h3, h4⟩ := SymmetricDifference.nextBT_log rfl hr
            refine ⟨?_, h4⟩
            have h5 := h2 hx
            rw [h5, List.map_nil, List.append_nil] at h1
            show (q.2 ++ r.2) ++ r.1.2.todo = _
            rw [List.append_assoc, h3, h1]
            simp only [SymmetricDifference.todo, ha, List.nil_append]

/-- The elements up to and including the first for which `p` is false. -/
theorem allMT_log {tag : T → Probe T} {f : T → Res Bool} {c : T → Bool} (hf : ∀ x, f x = .ok (c x)) (l : List T) :
    allMT tag f l = .ok (l.all c, (l.take ((l.takeWhile c).length + 1)).map tag) := by
  induction l with
  | nil => rfl
  | cons a r ih =>
    simp only [allMT, hf, bind, Except.bind]
    cases hc : c a with
    | false => simp [hc]
    | true => simp [hc, ih]

theorem allMT_prefix {tag : T → Probe T} {f : T → Res Bool} {l : List T} {p : Bool × List (Probe T)} (h : allMT tag f l = .ok p) :
    p.2 <+: l.map tag := by
  induction l generalizing p with
  | nil => cases h; exact List.prefix_rfl
  | cons a r ih =>
    simp only [allMT, bind, Except.bind] at h
    split at h
    · cases h
    · rename_i b hb
      cases b with
      | false =>
        cases h
        exact ⟨r.map tag, rfl⟩
      | true =>
        simp only [if_true] at h
        split at h
        · cases h
        · rename_i q hq
          cases h
          obtain ⟨t, ht⟩ := ih hq
          exact ⟨t, by simp only [List.cons_append, ht, List.map_cons]⟩

end Frozen.Model
