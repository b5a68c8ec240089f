import Verif.Props.BuiltSets

/-!
# C28: size hints are machine words

The hints of the set operations add two lengths.  They stay within `usize`, and an upper bound is missing only if the sum of the two lengths does not
fit.
-/

namespace Frozen.Props

open Frozen Frozen.Spec Frozen.Model

variable {T S : Type}

/-- At every point of an iteration that starts in `s0` both bounds are `usize` values, and there is an upper bound if `n` is one. -/
def HintsFit [Target] (next : S → Res (Option T × S)) (sizeHint : S → Nat × Option Nat) (s0 : S) (n : Nat) : Prop :=
  ∀ given s, Reaches next s0 given s →
    (sizeHint s).1 ≤ usizeMax ∧ (∀ u, (sizeHint s).2 = some u → u ≤ usizeMax) ∧ (n ≤ usizeMax → (sizeHint s).2.isSome = true)

theorem reaches_inv {next : S → Res (Option T × S)} {P : S → Prop} (hP : ∀ s o s', P s → next s = .ok (o, s') → P s') {s s' : S}
    {given : List T} (h : Reaches next s given s') : P s → P s' := by
  induction h with
  | refl => exact id
  | step hn _ ih => exact fun hs => ih (hP _ _ _ hs hn)

theorem nextNotIn_length {s : SetView T} : ∀ {l : List T} {p : Option T × List T}, nextNotIn s l = .ok p → p.2.length ≤ l.length
  | [], p, h => by cases h; simp
  | a :: r, p, h => by
    simp only [nextNotIn, bind, Except.bind] at h
    split at h
    · cases h
    · split at h
      · cases h; simp
      · have := nextNotIn_length h
        simp only [List.length_cons]
        omega

theorem checkedAdd_fits [Target] {a b n : Nat} (hn : a + b ≤ n) :
    (∀ u, checkedAdd a b = some u → u ≤ usizeMax) ∧ (n ≤ usizeMax → (checkedAdd a b).isSome = true) := by
  unfold checkedAdd
  refine ⟨fun u hu => ?_, fun h => ?_⟩
  · split at hu
    · cases hu; assumption
    · cases hu
  · rw [if_pos (by omega)]; rfl

theorem difference_length {d d' : Difference T} {o : Option T} (h : Difference.next d = .ok (o, d')) : d'.iter1.length ≤ d.iter1.length := by
  unfold Difference.next at h
  simp only [bind, Except.bind] at h
  split at h
  · cases h
  · rename_i p hp
    cases h
    exact nextNotIn_length hp

/-- **C28** (difference, representable) -/
theorem c28_difference_fits [Target] {s1 s2 : SetView T} (h1 : s1.items.length ≤ usizeMax) :
    HintsFit Difference.next Difference.sizeHint (Difference.new s1 s2) s1.items.length := by
  intro given s hr
  have hl : s.iter1.length ≤ s1.items.length :=
    reaches_inv (P := fun d => d.iter1.length ≤ s1.items.length) (fun d o d' hd h => Nat.le_trans (difference_length h) hd) hr (Nat.le_refl _)
  refine ⟨Nat.zero_le _, ?_, fun _ => rfl⟩
  rintro u ⟨⟩
  omega

theorem union_length {u u' : Model.Union T} {o : Option T} (h : Union.next u = .ok (o, u')) :
    u'.iter1.length ≤ u.iter1.length ∧ u'.iter2.length ≤ u.iter2.length := by
  unfold Union.next at h
  split at h
  · split at h
    · rename_i a r hu
      cases h
      rw [hu]
      exact ⟨by simp, Nat.le_refl _⟩
    · simp only [bind, Except.bind] at h
      split at h
      · cases h
      · rename_i p hp
        cases h
        exact ⟨Nat.le_refl _, nextNotIn_length hp⟩
  · split at h
    · rename_i a r hu
      cases h
      rw [hu]
      exact ⟨Nat.le_refl _, by simp⟩
    · simp only [bind, Except.bind] at h
      split at h
      · cases h
      · rename_i p hp
        cases h
        exact ⟨nextNotIn_length hp, Nat.le_refl _⟩

/-- **C28** (union, representable) -/
theorem c28_union_fits [Target] {s1 s2 : SetView T} (h1 : s1.items.length ≤ usizeMax) (h2 : s2.items.length ≤ usizeMax) :
    HintsFit Union.next Union.sizeHint (Union.new s1 s2) (s1.items.length + s2.items.length) := by
  intro given s hr
  obtain ⟨a, b⟩ : s.iter1.length ≤ s1.items.length ∧ s.iter2.length ≤ s2.items.length :=
    reaches_inv (P := fun d => d.iter1.length ≤ s1.items.length ∧ d.iter2.length ≤ s2.items.length)
      (fun d o d' hd h => ⟨Nat.le_trans (union_length h).1 hd.1, Nat.le_trans (union_length h).2 hd.2⟩) hr ⟨Nat.le_refl _, Nat.le_refl _⟩
  exact ⟨Nat.max_le.2 ⟨Nat.le_trans a h1, Nat.le_trans b h2⟩, checkedAdd_fits (by omega)⟩

theorem intersection_same {u u' : Intersection T} {o : Option T} (h : Intersection.next u = .ok (o, u')) : u'.s1 = u.s1 ∧ u'.s2 = u.s2 := by
  unfold Intersection.next at h
  split at h <;>
    · simp only [bind, Except.bind] at h
      split at h
      · cases h
      · cases h
        exact ⟨rfl, rfl⟩

/-- **C28** (intersection, representable) -/
theorem c28_intersection_fits [Target] {s1 s2 : SetView T} (h1 : s1.len ≤ usizeMax) (h2 : s2.len ≤ usizeMax) :
    HintsFit Intersection.next Intersection.sizeHint (Intersection.new s1 s2) (min s1.len s2.len) := by
  intro given s hr
  obtain ⟨a, b⟩ : s.s1 = s1 ∧ s.s2 = s2 :=
    reaches_inv (P := fun d => d.s1 = s1 ∧ d.s2 = s2) (fun d o d' hd h => ⟨(intersection_same h).1.trans hd.1, (intersection_same h).2.trans hd.2⟩)
      hr ⟨rfl, rfl⟩
  refine ⟨Nat.zero_le _, ?_, fun _ => rfl⟩
  rintro u ⟨⟩
  rw [a, b]
  omega

theorem symdiff_length {n1 n2 : Nat} {s s' : SymmetricDifference T} {o : Option T} (h : SymmetricDifference.next s = .ok (o, s'))
    (hs : (∀ d, s.a = some d → d.iter1.length ≤ n1) ∧ ∀ d, s.b = some d → d.iter1.length ≤ n2) :
    (∀ d, s'.a = some d → d.iter1.length ≤ n1) ∧ ∀ d, s'.b = some d → d.iter1.length ≤ n2 := by
  have hB : ∀ t : SymmetricDifference T, ((∀ d, t.a = some d → d.iter1.length ≤ n1) ∧ ∀ d, t.b = some d → d.iter1.length ≤ n2) →
      t.nextB = .ok (o, s') → (∀ d, s'.a = some d → d.iter1.length ≤ n1) ∧ ∀ d, s'.b = some d → d.iter1.length ≤ n2 := by
    intro t ht h
    unfold SymmetricDifference.nextB at h
    split at h
    · cases h; exact ht
    · rename_i d hd
      simp only [bind, Except.bind] at h
      split at h
      · cases h
      · rename_i p hp
        cases h
        refine ⟨ht.1, ?_⟩
        rintro d' ⟨⟩
        exact Nat.le_trans (difference_length hp) (ht.2 d hd)
  unfold SymmetricDifference.next at h
  split at h
  · exact hB s hs h
  · rename_i d hd
    simp only [bind, Except.bind] at h
    split at h
    · cases h
    · rename_i p hp
      unfold SymmetricDifference.afterA at h
      split at h
      · cases h
        refine ⟨?_, hs.2⟩
        rintro d' ⟨⟩
        exact Nat.le_trans (difference_length hp) (hs.1 d hd)
      · exact hB { s with a := none } ⟨fun d h => (by cases h), hs.2⟩ h

/-- **C28** (symmetric difference, representable) -/
theorem c28_symmetric_difference_fits [Target] {s1 s2 : SetView T} (h1 : s1.items.length ≤ usizeMax) (h2 : s2.items.length ≤ usizeMax) :
    HintsFit SymmetricDifference.next SymmetricDifference.sizeHint (SymmetricDifference.new s1 s2) (s1.items.length + s2.items.length) := by
  intro given s hr
  obtain ⟨a, b⟩ := reaches_inv
    (P := fun s : SymmetricDifference T => (∀ d, s.a = some d → d.iter1.length ≤ s1.items.length) ∧ ∀ d, s.b = some d → d.iter1.length ≤ s2.items.length)
    (fun d o d' hd h => symdiff_length h hd) hr ⟨by rintro d ⟨⟩; exact Nat.le_refl _, by rintro d ⟨⟩; exact Nat.le_refl _⟩
  obtain ⟨x, y⟩ := s
  cases x with
  | none =>
    cases y with
    | none =>
      refine ⟨Nat.zero_le _, ?_, fun _ => rfl⟩
      rintro u ⟨⟩
      exact Nat.zero_le _
    | some y =>
      refine ⟨Nat.zero_le _, ?_, fun _ => rfl⟩
      rintro u ⟨⟩
      exact Nat.le_trans (b y rfl) h2
  | some x =>
    cases y with
    | none =>
      refine ⟨Nat.zero_le _, ?_, fun _ => rfl⟩
      rintro u ⟨⟩
      exact Nat.le_trans (a x rfl) h1
    | some y =>
      exact ⟨Nat.min_le_right _ _, checkedAdd_fits (by have := a x rfl; have := b y rfl; omega)⟩

/-- **C28** (the crate's sets)  Sizes of sets in memory are `usize` values; so are all the hints. -/
theorem c28_built_fits [Target] {eqT : T → T → Bool} {xs ys : List T} {a b : SetView T} (h : TwoSets eqT xs ys a b) (hx : xs.length ≤ usizeMax)
    (hy : ys.length ≤ usizeMax) :
    HintsFit Union.next Union.sizeHint (Union.new a b) (xs.length + ys.length) ∧
    HintsFit Intersection.next Intersection.sizeHint (Intersection.new a b) (min xs.length ys.length) ∧
    HintsFit Difference.next Difference.sizeHint (Difference.new a b) xs.length ∧
    HintsFit SymmetricDifference.next SymmetricDifference.sizeHint (SymmetricDifference.new a b) (xs.length + ys.length) := by
  obtain ⟨he, h1, h2, s1, s2⟩ := h.facts
  have l1 : a.items.length ≤ xs.length := distinct_length_le he h1.distinct fun x hx => ⟨x, s1 x hx, he.refl x⟩
  have l2 : b.items.length ≤ ys.length := distinct_length_le he h2.distinct fun x hx => ⟨x, s2 x hx, he.refl x⟩
  have e1 := h1.len
  have e2 := h2.len
  have mono : ∀ {S : Type} {next : S → Res (Option T × S)} {f : S → Nat × Option Nat} {s0 : S} {n m : Nat}, n ≤ m →
      HintsFit next f s0 n → HintsFit next f s0 m :=
    fun hnm hf given s hr => ⟨(hf given s hr).1, (hf given s hr).2.1, fun h => (hf given s hr).2.2 (Nat.le_trans hnm h)⟩
  exact ⟨mono (by omega) (c28_union_fits (by omega) (by omega)), mono (by omega) (c28_intersection_fits (by omega) (by omega)),
    mono l1 (c28_difference_fits (by omega)), mono (by omega) (c28_symmetric_difference_fits (by omega) (by omega))⟩

/-- Two sets of three and two elements on a 32-bit target. -/
example : @HintsFit _ _ w32 Union.next (@Union.sizeHint _ w32) (Union.new (scanSet [1, 2, 3]) (scanSet [3, 4])) 5 :=
  @c28_union_fits _ w32 _ _ (by decide) (by decide)

end Frozen.Props
