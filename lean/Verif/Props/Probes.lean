import Verif.Lemmas.Probes
import Verif.Props.BuiltSets

/-!
# Property theorems: the set operations make few lookups (C90)
-/

namespace Frozen.Props

open Frozen Frozen.Spec Frozen.Model

variable {T : Type} {eqT : T → T → Bool} {xs ys : List T} {a b : SetView T}

/-! ## Specification -/

/-- The lookups are made for elements of one set in the other, in the order of iteration and at most once for each; the set whose elements are looked up is
not the larger one. -/
def AsksSmaller (a b : SetView T) (log : List (Probe T)) : Prop :=
  (a.items.length ≤ b.items.length ∧ log <+: a.items.map .second) ∨ (b.items.length ≤ a.items.length ∧ log <+: b.items.map .first)

/-- As `AsksSmaller`, and every element has been looked up. -/
def AskedSmaller (a b : SetView T) (log : List (Probe T)) : Prop :=
  (a.items.length ≤ b.items.length ∧ log = a.items.map .second) ∨ (b.items.length ≤ a.items.length ∧ log = b.items.map .first)

/-- The number of lookups. -/
theorem AsksSmaller.le {log : List (Probe T)} (h : AsksSmaller a b log) : log.length ≤ min a.items.length b.items.length := by
  rcases h with ⟨h1, h2⟩ | ⟨h1, h2⟩
  · have := h2.length_le
    rw [List.length_map] at this
    omega
  · have := h2.length_le
    rw [List.length_map] at this
    omega

theorem AskedSmaller.eq {log : List (Probe T)} (h : AskedSmaller a b log) : log.length = min a.items.length b.items.length := by
  rcases h with ⟨h1, rfl⟩ | ⟨h1, rfl⟩
  · rw [List.length_map]; omega
  · rw [List.length_map]; omega

/-! ## The recording variants -/

/-- **C90** (the recording functions compute what the plain ones do) -/
theorem c90_recorded :
    (∀ u : Model.Union T, u.nextT.map Prod.fst = u.next) ∧ (∀ u : Intersection T, u.nextT.map Prod.fst = u.next) ∧
    (∀ (tag : T → Probe T) (d : Difference T), (d.nextT tag).map Prod.fst = d.next) ∧
    (∀ s : SymmetricDifference T, s.nextT.map Prod.fst = s.next) ∧
    (∀ a b : SetView T, (isSubsetT a b).map Prod.fst = isSubset a b ∧ (isSupersetT a b).map Prod.fst = isSuperset a b ∧
      (isDisjointT a b).map Prod.fst = isDisjoint a b ∧ (setEqT a b).map Prod.fst = setEq a b) :=
  ⟨Union.nextT_fst, Intersection.nextT_fst, Difference.nextT_fst, SymmetricDifference.nextT_fst,
    fun a b => ⟨isSubsetT_fst a b, isSupersetT_fst a b, isDisjointT_fst a b, setEqT_fst a b⟩⟩

/-! ## Iterators -/

/-- **C90** (`union`)  However often `next` is called, only elements of the smaller set are looked up, each at most once; and nothing is looked up while the
elements of the larger set are given. -/
theorem c90_union [Target] (h : TwoSets eqT xs ys a b) {n : Nat} {r : List (Option T) × Model.Union T × List (Probe T)}
    (hr : stepsT Union.nextT n (Union.new a b) = .ok r) :
    AsksSmaller a b r.2.2 ∧ (none ∈ r.1 → AskedSmaller a b r.2.2) ∧ (n ≤ max a.items.length b.items.length → r.2.2 = []) := by
  obtain ⟨-, h1, h2, -, -⟩ := h.facts
  obtain ⟨e1, e2⟩ := Union.schedule.steps trivial hr
  have hn : ∀ (n : Nat) (u : Model.Union T) (r : List (Option T) × Model.Union T × List (Probe T)), stepsT Union.nextT n u = .ok r →
      n ≤ (if u.s1.len > u.s2.len then u.iter1.length else u.iter2.length) → r.2.2 = [] := by
    intro n
    induction n with
    | zero => intro u r h _; cases h; rfl
    | succ n ih =>
      intro u r h hle
      simp only [stepsT, bind, Except.bind] at h
      split at h
      · cases h
      · rename_i p hp
        split at h
        · cases h
        · rename_i q hq
          cases h
          unfold Union.nextT at hp
          by_cases hlt : u.s1.len > u.s2.len
          · rw [if_pos hlt] at hp hle
            cases hu : u.iter1 with
            | nil => rw [hu] at hle; simp at hle
            | cons x l =>
              rw [hu] at hp hle
              cases hp
              have := ih _ _ hq (by
                show n ≤ if u.s1.len > u.s2.len then _ else _
                rw [if_pos hlt]; simp at hle; omega)
              simpa using this
          · rw [if_neg hlt] at hp hle
            cases hu : u.iter2 with
            | nil => rw [hu] at hle; simp at hle
            | cons x l =>
              rw [hu] at hp hle
              cases hp
              have := ih _ _ hq (by
                show n ≤ if u.s1.len > u.s2.len then _ else _
                rw [if_neg hlt]; simp at hle; omega)
              simpa using this
  have hl : Union.todo (Union.new a b) = if a.len > b.len then b.items.map .first else a.items.map .second := rfl
  rw [h1.len, h2.len] at hl
  refine ⟨?_, ?_, ?_⟩
  · rw [hl] at e1
    by_cases hlt : a.items.length > b.items.length
    · rw [if_pos hlt] at e1
      exact .inr ⟨by omega, ⟨_, e1⟩⟩
    · rw [if_neg hlt] at e1
      exact .inl ⟨by omega, ⟨_, e1⟩⟩
  · intro hm
    rw [e2 hm, List.append_nil, hl] at e1
    by_cases hlt : a.items.length > b.items.length
    · rw [if_pos hlt] at e1
      exact .inr ⟨by omega, e1⟩
    · rw [if_neg hlt] at e1
      exact .inl ⟨by omega, e1⟩
  · intro hle
    refine hn n _ r hr ?_
    show n ≤ if a.len > b.len then a.items.length else b.items.length
    rw [h1.len, h2.len]
    split <;> omega

/-- **C90** (`intersection`)  Only elements of the smaller set are looked up, each at most once. -/
theorem c90_intersection [Target] (h : TwoSets eqT xs ys a b) {n : Nat} {r : List (Option T) × Intersection T × List (Probe T)}
    (hr : stepsT Intersection.nextT n (Intersection.new a b) = .ok r) :
    AsksSmaller a b r.2.2 ∧ (none ∈ r.1 → AskedSmaller a b r.2.2) := by
  obtain ⟨-, h1, h2, -, -⟩ := h.facts
  obtain ⟨e1, e2⟩ := Intersection.schedule.steps trivial hr
  have hl : Intersection.todo (Intersection.new a b) = if a.len < b.len then a.items.map .second else b.items.map .first := rfl
  rw [h1.len, h2.len] at hl
  refine ⟨?_, ?_⟩
  · rw [hl] at e1
    by_cases hlt : a.items.length < b.items.length
    · rw [if_pos hlt] at e1
      exact .inl ⟨by omega, ⟨_, e1⟩⟩
    · rw [if_neg hlt] at e1
      exact .inr ⟨by omega, ⟨_, e1⟩⟩
  · intro hm
    rw [e2 hm, List.append_nil, hl] at e1
    by_cases hlt : a.items.length < b.items.length
    · rw [if_pos hlt] at e1
      exact .inl ⟨by omega, e1⟩
    · rw [if_neg hlt] at e1
      exact .inr ⟨by omega, e1⟩

/-- **C90** (`difference`)  The elements of the first set are looked up in the second, each at most once. -/
theorem c90_difference {a b : SetView T} {n : Nat} {r : List (Option T) × Difference T × List (Probe T)}
    (hr : stepsT (Difference.nextT .second) n (Difference.new a b) = .ok r) :
    r.2.2 <+: a.items.map .second ∧ (none ∈ r.1 → r.2.2 = a.items.map .second) := by
  obtain ⟨e1, e2⟩ := (Difference.schedule (T := T) .second).steps trivial hr
  refine ⟨⟨_, e1⟩, fun hm => ?_⟩
  rw [e2 hm, List.append_nil] at e1
  exact e1

/-- **C90** (`symmetric_difference`)  The elements of each set are looked up in the other, each at most once, those of the first set first. -/
theorem c90_symmetric_difference {a b : SetView T} {n : Nat} {r : List (Option T) × SymmetricDifference T × List (Probe T)}
    (hr : stepsT SymmetricDifference.nextT n (SymmetricDifference.new a b) = .ok r) :
    r.2.2 <+: a.items.map .second ++ b.items.map .first ∧ (none ∈ r.1 → r.2.2 = a.items.map .second ++ b.items.map .first) := by
  obtain ⟨e1, e2⟩ := SymmetricDifference.schedule.steps trivial hr
  refine ⟨⟨_, e1⟩, fun hm => ?_⟩
  rw [e2 hm, List.append_nil] at e1
  exact e1

/-! ## Operators -/

theorem collectT_of {S A : Type} {next : S → Res (Option A × S)} {nextT : S → Res ((Option A × S) × List (Probe T))}
    (h : ∀ s, (nextT s).map Prod.fst = next s) {inv : S → Prop} {todo : S → List (Probe T)} (hs : Schedule nextT inv todo) {fuel : Nat} {s : S}
    (hi : inv s) {l : List A} (hc : collect next fuel s = .ok (some l)) : collectT nextT fuel s = .ok (some l, todo s) := by
  have := collectT_fst h fuel s
  rw [hc] at this
  cases hT : collectT nextT fuel s with
  | error e => rw [hT] at this; cases this
  | ok p =>
    obtain ⟨o, log⟩ := p
    rw [hT] at this
    have h1 : o = some l := Except.ok.inj this
    subst h1
    rw [hs.collect hi hT]

/-- **C90** (operators)  `&a | &b` and `&a & &b` look up the elements of the smaller set, once each; `&a - &b` those of the first set, and `&a ^ &b` those of
both. -/
theorem c90_operators [Target] (h : TwoSets eqT xs ys a b) :
    ∃ lo la ls lx : List T, ∃ go ga : List (Probe T),
      collectT Union.nextT (a.items.length + b.items.length + 1) (Union.new a b) = .ok (some lo, go) ∧ AskedSmaller a b go ∧
      bitOr eqT a b = .ok (some (HbSet.fromIter eqT lo)) ∧
      collectT Intersection.nextT (a.items.length + b.items.length + 1) (Intersection.new a b) = .ok (some la, ga) ∧ AskedSmaller a b ga ∧
      bitAnd eqT a b = .ok (some (HbSet.fromIter eqT la)) ∧
      collectT (Difference.nextT .second) (a.items.length + b.items.length + 1) (Difference.new a b) = .ok (some ls, a.items.map .second) ∧
      bitSub eqT a b = .ok (some (HbSet.fromIter eqT ls)) ∧
      collectT SymmetricDifference.nextT (a.items.length + b.items.length + 1) (SymmetricDifference.new a b) =
        .ok (some lx, a.items.map .second ++ b.items.map .first) ∧
      bitXor eqT a b = .ok (some (HbSet.fromIter eqT lx)) := by
  obtain ⟨-, h1, h2, -, -⟩ := h.facts
  have inv : ∀ {S : Type} {next : S → Res (Option T × S)} {fuel : Nat} {s : S} {r : HbSet T}, collectHb eqT next fuel s = .ok (some r) →
      ∃ l, collect next fuel s = .ok (some l) ∧ r = HbSet.fromIter eqT l := by
    intro S next fuel s r h
    unfold collectHb at h
    simp only [bind, Except.bind] at h
    split at h
    · cases h
    · rename_i o ho
      cases o with
      | none => cases h
      | some l => cases h; exact ⟨l, ho, rfl⟩
  obtain ⟨⟨ro, ho, -⟩, ⟨ra, ha, -⟩, ⟨rs, hs, -⟩, ⟨rx, hx, -⟩⟩ := c31_built h
  obtain ⟨lo, co, rfl⟩ := inv ho
  obtain ⟨la, ca, rfl⟩ := inv ha
  obtain ⟨ls, cs, rfl⟩ := inv hs
  obtain ⟨lx, cx, rfl⟩ := inv hx
  refine ⟨lo, la, ls, lx, _, _, collectT_of Union.nextT_fst Union.schedule trivial co, ?_, ho,
    collectT_of Intersection.nextT_fst Intersection.schedule trivial ca, ?_, ha,
    collectT_of (Difference.nextT_fst _) (Difference.schedule .second) trivial cs, hs,
    collectT_of SymmetricDifference.nextT_fst SymmetricDifference.schedule trivial cx, hx⟩
  · show AskedSmaller a b (if a.len > b.len then b.items.map .first else a.items.map .second)
    rw [h1.len, h2.len]
    split
    · exact .inr ⟨by omega, rfl⟩
    · exact .inl ⟨by omega, rfl⟩
  · show AskedSmaller a b (if a.len < b.len then a.items.map .second else b.items.map .first)
    rw [h1.len, h2.len]
    split
    · exact .inl ⟨by omega, rfl⟩
    · exact .inr ⟨by omega, rfl⟩

/-! ## Comparisons -/

/-- The elements of `l` that are looked up if the search ends at the first that lacks the property: those before it that have the property, and itself. -/
def UpToFirstNot (p : T → Prop) (l looked : List T) : Prop :=
  (looked = l ∧ ∀ x ∈ l, p x) ∨ ∃ pre x post, l = pre ++ x :: post ∧ looked = pre ++ [x] ∧ (∀ y ∈ pre, p y) ∧ ¬ p x

theorem upToFirstNot_takeWhile (c : T → Bool) (l : List T) :
    UpToFirstNot (fun x => c x = true) l (l.take ((l.takeWhile c).length + 1)) := by
  induction l with
  | nil => exact .inl ⟨rfl, by intro x hx; cases hx⟩
  | cons a r ih =>
    cases hc : c a with
    | false =>
      refine .inr ⟨[], a, r, rfl, by simp [hc], (by intro y hy; cases hy), by simp [hc]⟩
    | true =>
      have ht : (a :: r).take (((a :: r).takeWhile c).length + 1) = a :: r.take ((r.takeWhile c).length + 1) := by simp [hc]
      rw [ht]
      rcases ih with ⟨h1, h2⟩ | ⟨pre, x, post, h1, h2, h3, h4⟩
      · refine .inl ⟨by rw [h1], ?_⟩
        intro x hx
        rcases List.mem_cons.1 hx with rfl | hx
        · exact hc
        · exact h2 x hx
      · refine .inr ⟨a :: pre, x, post, by rw [h1]; rfl, by rw [h2]; rfl, ?_, h4⟩
        intro y hy
        rcases List.mem_cons.1 hy with rfl | hy
        · exact hc
        · exact h3 y hy

theorem UpToFirstNot.congr {p q : T → Prop} (h : ∀ x, p x ↔ q x) {l m : List T} (hu : UpToFirstNot p l m) : UpToFirstNot q l m := by
  rcases hu with ⟨h1, h2⟩ | ⟨pre, x, post, h1, h2, h3, h4⟩
  · exact .inl ⟨h1, fun x hx => (h x).1 (h2 x hx)⟩
  · exact .inr ⟨pre, x, post, h1, h2, fun y hy => (h y).1 (h3 y hy), fun hx => h4 ((h x).2 hx)⟩

theorem allMT_upTo {tag : T → Probe T} {f : T → Res Bool} {c : T → Bool} (hf : ∀ x, f x = .ok (c x)) {p : T → Prop} (hp : ∀ x, c x = true ↔ p x)
    (l : List T) : ∃ r looked, allMT tag f l = .ok (r, looked.map tag) ∧ UpToFirstNot p l looked :=
  ⟨_, _, allMT_log hf l, (upToFirstNot_takeWhile c l).congr hp⟩

/-- **C90** (`is_subset`, `==`)  Nothing is looked up if the lengths decide; otherwise the elements of the first set are looked up in the second until one is
missing. -/
theorem c90_is_subset [Target] (h : TwoSets eqT xs ys a b) :
    (b.items.length < a.items.length → ∃ r, isSubsetT a b = .ok (r, [])) ∧
    (a.items.length ≤ b.items.length → ∃ r looked, isSubsetT a b = .ok (r, looked.map .second) ∧ UpToFirstNot (Among eqT ys) a.items looked) ∧
    (a.items.length ≠ b.items.length → ∃ r, setEqT a b = .ok (r, [])) ∧
    (a.items.length = b.items.length → ∃ r looked, setEqT a b = .ok (r, looked.map .second) ∧ UpToFirstNot (Among eqT ys) a.items looked) := by
  obtain ⟨-, h1, h2, -, -⟩ := h.facts
  obtain ⟨c2, d2, e2⟩ := h2.decider
  unfold isSubsetT setEqT
  rw [h1.len, h2.len]
  refine ⟨fun hl => ⟨_, if_neg (by omega)⟩, fun hl => ?_, fun hl => ⟨_, if_pos (by simpa using hl)⟩, fun hl => ?_⟩
  · rw [if_pos hl]
    exact allMT_upTo d2 e2 _
  · rw [if_neg (by simpa using hl)]
    exact allMT_upTo d2 e2 _

/-- **C90** (`is_superset`) -/
theorem c90_is_superset [Target] (h : TwoSets eqT xs ys a b) :
    (a.items.length < b.items.length → ∃ r, isSupersetT a b = .ok (r, [])) ∧
    (b.items.length ≤ a.items.length → ∃ r looked, isSupersetT a b = .ok (r, looked.map .first) ∧ UpToFirstNot (Among eqT xs) b.items looked) := by
  obtain ⟨-, h1, h2, -, -⟩ := h.facts
  obtain ⟨c1, d1, e1⟩ := h1.decider
  unfold isSupersetT
  rw [h1.len, h2.len]
  refine ⟨fun hl => ⟨_, if_neg (by omega)⟩, fun hl => ?_⟩
  rw [if_pos hl]
  exact allMT_upTo d1 e1 _

/-- **C90** (`is_disjoint`)  The elements of the smaller set are looked up in the other until one is found. -/
theorem c90_is_disjoint [Target] (h : TwoSets eqT xs ys a b) :
    (a.items.length ≤ b.items.length → ∃ r looked, isDisjointT a b = .ok (r, looked.map .second) ∧
      UpToFirstNot (fun x => ¬ Among eqT ys x) a.items looked) ∧
    (b.items.length < a.items.length → ∃ r looked, isDisjointT a b = .ok (r, looked.map .first) ∧
      UpToFirstNot (fun x => ¬ Among eqT xs x) b.items looked) := by
  obtain ⟨-, h1, h2, -, -⟩ := h.facts
  obtain ⟨c1, d1, e1⟩ := h1.decider
  obtain ⟨c2, d2, e2⟩ := h2.decider
  have lacks : ∀ {s : SetView T} {c : T → Bool}, (∀ x, s.contains x = .ok (c x)) → ∀ x, s.lacks x = .ok (!c x) := by
    intro s c h x
    simp only [SetView.lacks, h, bind, Except.bind]
  unfold isDisjointT
  rw [h1.len, h2.len]
  refine ⟨fun hl => ?_, fun hl => ?_⟩
  · rw [if_pos hl]
    exact allMT_upTo (lacks d2) (fun x => by rw [← e2 x]; simp) _
  · rw [if_neg (by omega)]
    exact allMT_upTo (lacks d1) (fun x => by rw [← e1 x]; simp) _

/-! ## Examples -/

/-- Three elements and two: two lookups, none before the third element has been given. -/
example : stepsT Union.nextT 5 (Union.new (scanSet [1, 2, 3]) (scanSet [3, 4])) =
      .ok ([some 1, some 2, some 3, some 4, none], ⟨scanSet [1, 2, 3], [], scanSet [3, 4], []⟩, [.first 3, .first 4]) ∧
    stepsT Intersection.nextT 1 (Intersection.new (scanSet [1, 2, 3]) (scanSet [3, 4])) =
      .ok ([some 3], ⟨scanSet [1, 2, 3], [1, 2, 3], scanSet [3, 4], [4]⟩, [.first 3]) ∧
    isSubsetT (scanSet [5, 1]) (scanSet [1, 2, 3]) = .ok (false, [.second 5]) ∧
    isSubsetT (scanSet [1, 2, 3]) (scanSet [5, 1]) = .ok (false, []) ∧
    isDisjointT (scanSet [5, 1, 2]) (scanSet [1, 2, 3, 4]) = .ok (false, [.second 5, .second 1]) :=
  ⟨rfl, rfl, rfl, rfl, rfl⟩

attribute [local instance] w64 in
/-- An ordered set made from 3, 1, 3 and a scan set made from 2: one lookup for the whole union. -/
example : ∃ m : EytzingerMap Nat Unit, FzOrderedSet.new natCmp [3, 1, 3] = .ok m ∧
    ∃ l log, collectT Union.nextT 4 (Union.new ((fzSetImpl (FzOrderedMap.impl natCmp)).view m)
      ((inlineSetImpl (ScanMap.impl (fun a b => natCmp a b == .eq))).view (ScanMap.new (fun a b => natCmp a b == .eq) (unitEntries [2])))) =
        .ok (some l, log) ∧ log.length = 1 := by
  obtain ⟨m, hm⟩ : ∃ m, FzOrderedSet.new natCmp [3, 1, 3] = .ok m := ⟨_, by cbv⟩
  have hm' : m = ⟨[(3, ()), (1, ())]⟩ := by
    have e : FzOrderedSet.new natCmp [3, 1, 3] = .ok ⟨[(3, ()), (1, ())]⟩ := by cbv
    exact Except.ok.inj (hm.symm.trans e)
  have h2 : TwoSets (fun a b => natCmp a b == .eq) [3, 1, 3] [2] ((fzSetImpl (FzOrderedMap.impl natCmp)).view m)
      ((inlineSetImpl (ScanMap.impl (fun a b => natCmp a b == .eq))).view (ScanMap.new (fun a b => natCmp a b == .eq) (unitEntries [2]))) :=
    ⟨⟨_, _, _, _, _, _, _, _, .fzOrdered natCmp_lawful natCmp_query hm,
      .ofMap (.scan (LawfulCmp'.eqLawful natCmp_lawful) (LawfulEq'.query (LawfulCmp'.eqLawful natCmp_lawful))), fun _ _ => rfl, fun _ _ => rfl, rfl, rfl⟩⟩
  subst hm'
  obtain ⟨lo, _, _, _, go, _, h3, h4, -⟩ := c90_operators h2
  exact ⟨_, hm, lo, go, h3, h4.eq⟩

end Frozen.Props
