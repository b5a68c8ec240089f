import Verif.Lemmas.Equality
import Verif.Lemmas.Iterators
import Verif.Props.SetSpec

/-! # Lemmas about sets and set operations -/

namespace Frozen.Model

open Frozen Frozen.Spec Frozen.Props

variable {T Q M S A : Type}

/-! ## Iterators whose `next` may fail -/

/-- On states satisfying `Inv`, the iterator walks the list `toList`, without failing. -/
structure WalksM (next : S → Res (Option A × S)) (Inv : S → Prop) (toList : S → List A) : Prop where
  nil : ∀ s, Inv s → toList s = [] → ∃ s', next s = .ok (none, s') ∧ Inv s' ∧ toList s' = []
  cons : ∀ s a r, Inv s → toList s = a :: r → ∃ s', next s = .ok (some a, s') ∧ Inv s' ∧ toList s' = r

theorem WalksM.none {next : S → Res (Option A × S)} {Inv : S → Prop} {toList : S → List A} (w : WalksM next Inv toList) :
    ∀ (n : Nat) (s : S), Inv s → toList s = [] → NoneFor next n s
  | 0, _, _, _ => trivial
  | n + 1, s, hi, h => by
    obtain ⟨s', h1, h2, h3⟩ := w.nil s hi h
    exact ⟨s', h1, w.none n s' h2 h3⟩

theorem WalksM.yields {next : S → Res (Option A × S)} {Inv : S → Prop} {toList : S → List A} (w : WalksM next Inv toList) :
    ∀ (l : List A) (s : S), Inv s → toList s = l → ∃ s', Yields next s l s' ∧ (∀ n, NoneFor next n s') ∧ Inv s'
  | [], s, hi, h => by
    obtain ⟨s', h1, h2, h3⟩ := w.nil s hi h
    exact ⟨s', .nil h1, fun n => w.none n s' h2 h3, h2⟩
  | a :: r, s, hi, h => by
    obtain ⟨s1, h1, h2, h3⟩ := w.cons s a r hi h
    obtain ⟨s', h4, h5, h6⟩ := w.yields r s1 h2 h3
    exact ⟨s', .cons h1 h4, h5, h6⟩

theorem WalksM.reaches {next : S → Res (Option A × S)} {Inv : S → Prop} {toList : S → List A} (w : WalksM next Inv toList)
    {s s' : S} {p : List A} (h : Reaches next s p s') (hi : Inv s) : toList s = p ++ toList s' ∧ Inv s' := by
  induction h with
  | refl => exact ⟨rfl, hi⟩
  | @step s s1 s' a as h1 _ ih =>
    cases hl : toList s with
    | nil =>
      obtain ⟨t, h2, _⟩ := w.nil s hi hl
      rw [h2] at h1; cases h1
    | cons b r =>
      obtain ⟨t, h3, h4, h5⟩ := w.cons s b r hi hl
      rw [h3] at h1
      cases h1
      obtain ⟨h6, h7⟩ := ih h4
      exact ⟨by rw [List.cons_append, ← h6, h5], h7⟩

theorem WalksM.collect {next : S → Res (Option A × S)} {Inv : S → Prop} {toList : S → List A} (w : WalksM next Inv toList) :
    ∀ (fuel : Nat) (s : S), Inv s → (toList s).length < fuel → Model.collect next fuel s = .ok (some (toList s))
  | 0, _, _, h => by omega
  | fuel + 1, s, hi, h => by
    unfold Model.collect
    cases hl : toList s with
    | nil =>
      obtain ⟨s', h1, _⟩ := w.nil s hi hl
      simp only [h1, bind, Except.bind]
    | cons a r =>
      obtain ⟨s', h1, h2, h3⟩ := w.cons s a r hi hl
      have := w.collect fuel s' h2 (by rw [h3]; rw [hl] at h; simp at h; omega)
      simp only [h1, bind, Except.bind, this, h3, Option.map_some]

/-! ## The skipping loops -/

theorem nextNotIn_nil {s : SetView T} {c : T → Bool} (hc : ∀ x, s.contains x = .ok (c x)) :
    ∀ {l : List T}, l.filter (fun x => !c x) = [] → nextNotIn s l = .ok (none, [])
  | [], _ => rfl
  | a :: r, h => by
    cases hca : c a with
    | false => rw [List.filter_cons_of_pos (by simp [hca])] at h; cases h
    | true =>
      rw [List.filter_cons_of_neg (by simp [hca])] at h
      simp only [nextNotIn, hc, bind, Except.bind, hca, Bool.not_true, Bool.false_eq_true, if_false]
      exact nextNotIn_nil hc h

theorem nextNotIn_cons {s : SetView T} {c : T → Bool} (hc : ∀ x, s.contains x = .ok (c x)) :
    ∀ {l r : List T} {a : T}, l.filter (fun x => !c x) = a :: r →
      ∃ l', nextNotIn s l = .ok (some a, l') ∧ l'.filter (fun x => !c x) = r
  | [], _, _, h => by cases h
  | b :: t, r, a, h => by
    cases hcb : c b with
    | false =>
      rw [List.filter_cons_of_pos (by simp [hcb])] at h
      cases h
      exact ⟨t, by simp only [nextNotIn, hc, bind, Except.bind, hcb, Bool.not_false, if_true], rfl⟩
    | true =>
      rw [List.filter_cons_of_neg (by simp [hcb])] at h
      obtain ⟨l', h1, h2⟩ := nextNotIn_cons hc h
      exact ⟨l', by simp only [nextNotIn, hc, bind, Except.bind, hcb, Bool.not_true, Bool.false_eq_true, if_false, h1], h2⟩

theorem nextIn_nil {s : SetView T} {c : T → Bool} (hc : ∀ x, s.contains x = .ok (c x)) :
    ∀ {l : List T}, l.filter c = [] → nextIn s l = .ok (none, [])
  | [], _ => rfl
  | a :: r, h => by
    cases hca : c a with
    | true => rw [List.filter_cons_of_pos hca] at h; cases h
    | false =>
      rw [List.filter_cons_of_neg (by simp [hca])] at h
      simp only [nextIn, hc, bind, Except.bind, hca, Bool.false_eq_true, if_false]
      exact nextIn_nil hc h

theorem nextIn_cons {s : SetView T} {c : T → Bool} (hc : ∀ x, s.contains x = .ok (c x)) :
    ∀ {l r : List T} {a : T}, l.filter c = a :: r → ∃ l', nextIn s l = .ok (some a, l') ∧ l'.filter c = r
  | [], _, _, h => by cases h
  | b :: t, r, a, h => by
    cases hcb : c b with
    | true =>
      rw [List.filter_cons_of_pos hcb] at h
      cases h
      exact ⟨t, by simp only [nextIn, hc, bind, Except.bind, hcb, if_true], rfl⟩
    | false =>
      rw [List.filter_cons_of_neg (by simp [hcb])] at h
      obtain ⟨l', h1, h2⟩ := nextIn_cons hc h
      exact ⟨l', by simp only [nextIn, hc, bind, Except.bind, hcb, Bool.false_eq_true, if_false, h1], h2⟩

/-! ## The iterators -/

/-- The items a union still has to give. -/
def unionList (c1 c2 : T → Bool) (u : Union T) : List T :=
  if u.s1.len > u.s2.len then u.iter1 ++ u.iter2.filter (fun x => !c1 x)
  else u.iter2 ++ u.iter1.filter (fun x => !c2 x)

theorem union_walks {s1 s2 : SetView T} {c1 c2 : T → Bool} (h1 : ∀ x, s1.contains x = .ok (c1 x))
    (h2 : ∀ x, s2.contains x = .ok (c2 x)) :
    WalksM Union.next (fun u => u.s1 = s1 ∧ u.s2 = s2) (unionList c1 c2) where
  nil u hi h := by
    obtain ⟨e1, e2⟩ := hi
    unfold unionList at h
    unfold Union.next
    by_cases hlen : u.s1.len > u.s2.len
    · rw [if_pos hlen] at h ⊢
      obtain ⟨h3, h4⟩ := List.append_eq_nil_iff.1 h
      rw [← e1] at h1
      refine ⟨{ u with iter2 := [] }, ?_, ⟨e1, e2⟩, ?_⟩
      · simp only [h3, nextNotIn_nil h1 h4, bind, Except.bind]
      · simp [unionList, hlen, h3]
    · rw [if_neg hlen] at h ⊢
      obtain ⟨h3, h4⟩ := List.append_eq_nil_iff.1 h
      rw [← e2] at h2
      refine ⟨{ u with iter1 := [] }, ?_, ⟨e1, e2⟩, ?_⟩
      · simp only [h3, nextNotIn_nil h2 h4, bind, Except.bind]
      · simp [unionList, hlen, h3]
  cons u a r hi h := by
    obtain ⟨e1, e2⟩ := hi
    unfold unionList at h
    unfold Union.next
    by_cases hlen : u.s1.len > u.s2.len
    · rw [if_pos hlen] at h ⊢
      cases hit : u.iter1 with
      | cons b t =>
        rw [hit] at h
        cases h
        exact ⟨{ u with iter1 := t }, rfl, ⟨e1, e2⟩, by simp [unionList, hlen]⟩
      | nil =>
        rw [hit, List.nil_append] at h
        rw [← e1] at h1
        obtain ⟨l', h3, h4⟩ := nextNotIn_cons h1 h
        refine ⟨{ u with iter2 := l' }, ?_, ⟨e1, e2⟩, ?_⟩
        · simp only [h3, bind, Except.bind, hit]
        · simp [unionList, hlen, hit, h4]
    · rw [if_neg hlen] at h ⊢
      cases hit : u.iter2 with
      | cons b t =>
        rw [hit] at h
        cases h
        exact ⟨{ u with iter2 := t }, rfl, ⟨e1, e2⟩, by simp [unionList, hlen]⟩
      | nil =>
        rw [hit, List.nil_append] at h
        rw [← e2] at h2
        obtain ⟨l', h3, h4⟩ := nextNotIn_cons h2 h
        refine ⟨{ u with iter1 := l' }, ?_, ⟨e1, e2⟩, ?_⟩
        · simp only [h3, bind, Except.bind, hit]
        · simp [unionList, hlen, hit, h4]

theorem difference_walks {s2 : SetView T} {c2 : T → Bool} (h2 : ∀ x, s2.contains x = .ok (c2 x)) :
    WalksM Difference.next (fun d => d.s2 = s2) (fun d => d.iter1.filter (fun x => !c2 x)) where
  nil d hi h := by
    subst hi
    exact ⟨⟨[], d.s2⟩, by simp only [Difference.next, nextNotIn_nil h2 h, bind, Except.bind], rfl, rfl⟩
  cons d a r hi h := by
    subst hi
    obtain ⟨l', h3, h4⟩ := nextNotIn_cons h2 h
    exact ⟨⟨l', d.s2⟩, by simp only [Difference.next, h3, bind, Except.bind], rfl, h4⟩

/-- The items a chained difference still has to give. -/
def diffList (c : T → Bool) : Option (Difference T) → List T
  | none => []
  | some d => d.iter1.filter (fun x => !c x)

theorem symdiff_nextB_nil {s1 : SetView T} {c1 : T → Bool} (h1 : ∀ x, s1.contains x = .ok (c1 x))
    (s : SymmetricDifference T) (hi : ∀ d, s.b = some d → d.s2 = s1) (h : diffList c1 s.b = []) :
    ∃ s', s.nextB = .ok (none, s') ∧ s'.a = s.a ∧ (∀ d, s'.b = some d → d.s2 = s1) ∧ diffList c1 s'.b = [] := by
  unfold SymmetricDifference.nextB
  cases hb : s.b with
  | none =>
    refine ⟨s, rfl, rfl, hi, by rw [hb]; rfl⟩
  | some d =>
    rw [hb] at h
    obtain ⟨d', h3, h4, h5⟩ := (difference_walks h1).nil d (hi d hb) h
    refine ⟨{ s with b := some d' }, by simp only [h3, bind, Except.bind], rfl, ?_, h5⟩
    intro d'' hd''
    cases hd''
    exact h4

theorem symdiff_nextB_cons {s1 : SetView T} {c1 : T → Bool} (h1 : ∀ x, s1.contains x = .ok (c1 x))
    (s : SymmetricDifference T) (hi : ∀ d, s.b = some d → d.s2 = s1) {a : T} {r : List T}
    (h : diffList c1 s.b = a :: r) :
    ∃ s', s.nextB = .ok (some a, s') ∧ s'.a = s.a ∧ (∀ d, s'.b = some d → d.s2 = s1) ∧ diffList c1 s'.b = r := by
  unfold SymmetricDifference.nextB
  cases hb : s.b with
  | none => rw [hb] at h; cases h
  | some d =>
    rw [hb] at h
    obtain ⟨d', h3, h4, h5⟩ := (difference_walks h1).cons d a r (hi d hb) h
    refine ⟨{ s with b := some d' }, by simp only [h3, bind, Except.bind], rfl, ?_, h5⟩
    intro d'' hd''
    cases hd''
    exact h4

theorem symdiff_walks {s1 s2 : SetView T} {c1 c2 : T → Bool} (h1 : ∀ x, s1.contains x = .ok (c1 x))
    (h2 : ∀ x, s2.contains x = .ok (c2 x)) :
    WalksM SymmetricDifference.next (fun s => (∀ d, s.a = some d → d.s2 = s2) ∧ (∀ d, s.b = some d → d.s2 = s1))
      (fun s => diffList c2 s.a ++ diffList c1 s.b) where
  nil s hi h := by
    obtain ⟨e1, e2⟩ := List.append_eq_nil_iff.1 h
    unfold SymmetricDifference.next
    cases ha : s.a with
    | none =>
      obtain ⟨s', h3, h4, h5, h6⟩ := symdiff_nextB_nil h1 s hi.2 e2
      exact ⟨s', h3, ⟨fun d hd => (by rw [h4, ha] at hd; cases hd), h5⟩, by rw [h4, ha, h6]; rfl⟩
    | some d =>
      rw [ha] at e1
      obtain ⟨d', h3, h4, h5⟩ := (difference_walks h2).nil d (hi.1 d ha) e1
      obtain ⟨s', h6, h7, h8, h9⟩ := symdiff_nextB_nil h1 { s with a := none } hi.2 e2
      refine ⟨s', by simp only [h3, bind, Except.bind, SymmetricDifference.afterA, h6], ⟨?_, h8⟩, by rw [h7, h9]; rfl⟩
      intro d hd; rw [h7] at hd; cases hd
  cons s a r hi h := by
    unfold SymmetricDifference.next
    cases ha : s.a with
    | none =>
      rw [ha] at h
      obtain ⟨s', h3, h4, h5, h6⟩ := symdiff_nextB_cons h1 s hi.2 h
      exact ⟨s', h3, ⟨fun d hd => (by rw [h4, ha] at hd; cases hd), h5⟩, by rw [h4, ha, h6]; rfl⟩
    | some d =>
      rw [ha] at h
      cases hl : diffList c2 (some d) with
      | nil =>
        rw [hl, List.nil_append] at h
        obtain ⟨d', h3, h4, h5⟩ := (difference_walks h2).nil d (hi.1 d ha) hl
        obtain ⟨s', h6, h7, h8, h9⟩ := symdiff_nextB_cons h1 { s with a := none } hi.2 h
        refine ⟨s', by simp only [h3, bind, Except.bind, SymmetricDifference.afterA, h6], ⟨?_, h8⟩, by rw [h7, h9]; rfl⟩
        intro d hd; rw [h7] at hd; cases hd
      | cons b t =>
        rw [hl] at h
        cases h
        obtain ⟨d', h3, h4, h5⟩ := (difference_walks h2).cons d a t (hi.1 d ha) hl
        refine ⟨{ s with a := some d' }, by simp only [h3, bind, Except.bind, SymmetricDifference.afterA], ⟨?_, hi.2⟩, ?_⟩
        · intro d'' hd''; cases hd''; exact h4
        · show d'.iter1.filter _ ++ _ = _
          rw [h5]
          rfl

/-- The items an intersection still has to give. -/
def interList (c1 c2 : T → Bool) (u : Intersection T) : List T :=
  if u.s1.len < u.s2.len then u.iter1.filter c2 else u.iter2.filter c1

theorem intersection_walks {s1 s2 : SetView T} {c1 c2 : T → Bool} (h1 : ∀ x, s1.contains x = .ok (c1 x))
    (h2 : ∀ x, s2.contains x = .ok (c2 x)) :
    WalksM Intersection.next (fun u => u.s1 = s1 ∧ u.s2 = s2) (interList c1 c2) where
  nil u hi h := by
    obtain ⟨rfl, rfl⟩ := hi
    unfold interList at h
    unfold Intersection.next
    by_cases hlen : u.s1.len < u.s2.len
    · rw [if_pos hlen] at h ⊢
      exact ⟨{ u with iter1 := [] }, by simp only [nextIn_nil h2 h, bind, Except.bind], ⟨rfl, rfl⟩, by simp [interList, hlen]⟩
    · rw [if_neg hlen] at h ⊢
      exact ⟨{ u with iter2 := [] }, by simp only [nextIn_nil h1 h, bind, Except.bind], ⟨rfl, rfl⟩, by simp [interList, hlen]⟩
  cons u a r hi h := by
    obtain ⟨rfl, rfl⟩ := hi
    unfold interList at h
    unfold Intersection.next
    by_cases hlen : u.s1.len < u.s2.len
    · rw [if_pos hlen] at h ⊢
      obtain ⟨l', h3, h4⟩ := nextIn_cons h2 h
      exact ⟨{ u with iter1 := l' }, by simp only [h3, bind, Except.bind], ⟨rfl, rfl⟩, by simp [interList, hlen, h4]⟩
    · rw [if_neg hlen] at h ⊢
      obtain ⟨l', h3, h4⟩ := nextIn_cons h1 h
      exact ⟨{ u with iter2 := l' }, by simp only [h3, bind, Except.bind], ⟨rfl, rfl⟩, by simp [interList, hlen, h4]⟩

/-! ## Facts about sets -/

/-- The Boolean membership function of a set. -/
theorem _root_.Frozen.Props.IsSet.decider {eqT : T → T → Bool} {mem : T → Prop} {s : SetView T} (h : IsSet eqT mem s) :
    ∃ c : T → Bool, (∀ x, s.contains x = .ok (c x)) ∧ ∀ x, c x = true ↔ mem x := by
  refine ⟨fun x => (h.contains x).choose, fun x => (h.contains x).choose_spec.1, fun x => (h.contains x).choose_spec.2⟩

theorem allM_spec {f : T → Res Bool} {c : T → Bool} (h : ∀ x, f x = .ok (c x)) (l : List T) :
    allM f l = .ok (l.all c) := by
  induction l with
  | nil => rfl
  | cons a r ih =>
    simp only [allM, h, bind, Except.bind, List.all_cons]
    cases c a with
    | true => simp only [if_true, ih, Bool.true_and]
    | false => simp only [Bool.false_eq_true, if_false, Bool.false_and]

/-! ## Sets built from lists -/

theorem lastMatch_unit (mt : Q → T → Bool) (xs : List T) (q : Q) :
    lastMatch mt (unitEntries xs) q = (lastOf mt xs q).map (fun x => (x, ())) := by
  induction xs using List.reverseRecOn with
  | nil => rfl
  | append_singleton xs x ih =>
    unfold lastMatch unitEntries lastOf at *
    rw [List.map_append, List.foldl_append, ih, List.reverse_append]
    simp only [List.map_cons, List.map_nil, List.foldl_cons, List.foldl_nil, List.reverse_cons, List.reverse_nil,
      List.nil_append, List.cons_append, List.find?_cons]
    cases mt q x <;> simp

theorem lastOf_isSome (mt : Q → T → Bool) (xs : List T) (q : Q) : (lastOf mt xs q).isSome = xs.any (mt q) := by
  unfold lastOf
  rw [Bool.eq_iff_iff, List.find?_isSome]
  simp

theorem lastOf_some {mt : Q → T → Bool} {xs : List T} {q : Q} {x : T} (h : lastOf mt xs q = some x) :
    x ∈ xs ∧ mt q x = true := by
  unfold lastOf at h
  exact ⟨by simpa using List.mem_of_find?_eq_some h, List.find?_some h⟩

theorem lastOf_congr {eqT : T → T → Bool} (he : LawfulEq' eqT) (xs : List T) {x y : T} (h : eqT x y = true) :
    lastOf eqT xs x = lastOf eqT xs y := by
  have : eqT x = eqT y := by
    funext z
    rw [Bool.eq_iff_iff]
    exact ⟨fun hx => he.trans _ _ _ (he.symm _ _ h) hx, fun hx => he.trans _ _ _ h hx⟩
  unfold lastOf
  rw [this]

theorem built_getOfMap [Target] {eqT : T → T → Bool} {mt : Q → T → Bool} {xs : List T} {I : MapImpl M Q T Unit} {m : M}
    (h : Built eqT mt (unitEntries xs) I m) (q : Q) : getOfMap I m q = .ok (lastOf mt xs q) := by
  obtain ⟨Inv, F⟩ := h.facts
  simp only [getOfMap, F.lookups.getKeyValue, lastMatch_unit, bind, Except.bind]
  cases lastOf mt xs q <;> rfl

theorem built_set_items [Target] {eqT : T → T → Bool} {mt : Q → T → Bool} {xs : List T} {I : MapImpl M Q T Unit} {m : M}
    (h : Built eqT mt (unitEntries xs) I m) :
    (∀ x, x ∈ (I.iter m).rest.map (fun e => e.1) ↔ lastOf eqT xs x = some x) ∧
    Distinct eqT ((I.iter m).rest.map (fun e => e.1)) ∧ I.len m = ((I.iter m).rest.map (fun e => e.1)).length := by
  obtain ⟨Inv, F⟩ := h.facts
  have hi : (I.iter m).rest = I.entries m := rfl
  rw [hi]
  refine ⟨fun x => ?_, F.contents.distinct, by rw [F.lawful.len m F.inv, List.length_map]⟩
  rw [List.mem_map]
  constructor
  · rintro ⟨e, he, rfl⟩
    rw [F.contents.mem, lastMatch_unit] at he
    cases hl : lastOf eqT xs e.1 with
    | none => rw [hl] at he; cases he
    | some y => rw [hl] at he; simp only [Option.map_some, Option.some.injEq] at he; rw [← he]
  · intro hx
    refine ⟨(x, ()), ?_, rfl⟩
    rw [F.contents.mem, lastMatch_unit, hx]
    rfl

theorem _root_.Frozen.Props.BuiltSet.spec [Target] {eqT : T → T → Bool} {mt : Q → T → Bool} {xs : List T} {I : SetImpl M Q T} {m : M}
    (h : BuiltSet eqT mt xs I m) : LawfulEq' eqT ∧ LawfulQuery eqT mt ∧ SetContents eqT mt xs I m := by
  have key : ∀ {Q T M : Type} {eqT : T → T → Bool} {mt : Q → T → Bool} {xs : List T} {I : MapImpl M Q T Unit} {m : M},
      Built eqT mt (unitEntries xs) I m →
      LawfulEq' eqT ∧ LawfulQuery eqT mt ∧ SetContents eqT mt xs (fzSetImpl I) m := by
    intro Q T M eqT mt xs I m hb
    obtain ⟨h1, h2, h3⟩ := built_set_items hb
    obtain ⟨Inv, F⟩ := hb.facts
    refine ⟨F.eq, F.query, built_getOfMap hb, fun q => ?_, h1, h2, h3⟩
    show I.containsKey m q = _
    rw [F.lookups.containsKey, lastMatch_unit, Option.isSome_map, lastOf_isSome]
  cases h with
  | fzHash hf hs he hq hh hn h => exact key (.fzHash hf hs he hq hh (by simpa [unitEntries] using hn) h)
  | fzOrdered hc hq h => exact key (.fzOrdered hc hq h)
  | fzScalar hso hs hn h => exact key (.fzScalar hso hs (by simpa [unitEntries] using hn) h)
  | fzString hso hn h => exact key (.fzString hso (by simpa [unitEntries] using hn) h)
  | ofMap hb =>
    obtain ⟨h1, h2, h3⟩ := key hb
    refine ⟨h1, h2, h3.get, fun q => ?_, h3.mem, h3.distinct, h3.len⟩
    show (do let e ← getOfMap _ _ q; .ok e.isSome) = _
    simp only [built_getOfMap hb, bind, Except.bind, lastOf_isSome]

/-! ## hashbrown sets -/

theorem hb_insert_mem {eqT : T → T → Bool} (s : HbSet T) (x y : T) (h : y ∈ (s.insert eqT x).elems) :
    y ∈ s.elems ∨ y = x := by
  unfold HbSet.insert at h
  split at h
  · exact Or.inl h
  · simpa using h

theorem hb_fromIter_spec {eqT : T → T → Bool} (he : LawfulEq' eqT) (l : List T) :
    Distinct eqT (HbSet.fromIter eqT l).elems ∧ (∀ x ∈ (HbSet.fromIter eqT l).elems, x ∈ l) ∧
    ∀ x ∈ l, ∃ y ∈ (HbSet.fromIter eqT l).elems, eqT x y = true := by
  suffices key : ∀ (l : List T) (s : HbSet T), Distinct eqT s.elems →
      Distinct eqT (l.foldl (HbSet.insert eqT) s).elems ∧
      (∀ x ∈ (l.foldl (HbSet.insert eqT) s).elems, x ∈ s.elems ∨ x ∈ l) ∧
      ∀ x, x ∈ s.elems ∨ x ∈ l → ∃ y ∈ (l.foldl (HbSet.insert eqT) s).elems, eqT x y = true by
    obtain ⟨h1, h2, h3⟩ := key l ⟨[]⟩ (by simp [Distinct])
    exact ⟨h1, fun x hx => by simpa using h2 x hx, fun x hx => h3 x (Or.inr hx)⟩
  intro l
  induction l with
  | nil =>
    intro s hs
    exact ⟨hs, fun x hx => Or.inl hx, fun x hx => ⟨x, by simpa using hx, he.refl x⟩⟩
  | cons a r ih =>
    intro s hs
    have hd : Distinct eqT (s.insert eqT a).elems := by
      unfold HbSet.insert
      split
      · exact hs
      · rename_i hn
        unfold Distinct at hs ⊢
        rw [List.pairwise_append]
        refine ⟨hs, by simp, ?_⟩
        intro x hx y hy
        simp only [List.mem_singleton] at hy
        subst hy
        cases hc : eqT x y with
        | false => rfl
        | true =>
          exact absurd (List.any_eq_true.2 ⟨x, hx, he.symm _ _ hc⟩) hn
    obtain ⟨h1, h2, h3⟩ := ih _ hd
    refine ⟨h1, fun x hx => ?_, fun x hx => ?_⟩
    · rcases h2 x hx with h | h
      · rcases hb_insert_mem s a x h with h | h
        · exact Or.inl h
        · exact Or.inr (by simp [h])
      · exact Or.inr (by simp [h])
    · rcases hx with hx | hx
      · apply h3 x
        left
        unfold HbSet.insert
        split
        · exact hx
        · simp [hx]
      · rcases List.mem_cons.1 hx with rfl | hx
        · by_cases ha : s.elems.any (eqT x) = true
          · obtain ⟨y, hy, hxy⟩ := List.any_eq_true.1 ha
            obtain ⟨z, hz, hyz⟩ := h3 y (Or.inl (by unfold HbSet.insert; rw [if_pos ha]; exact hy))
            exact ⟨z, hz, he.trans _ _ _ hxy hyz⟩
          · exact h3 x (Or.inl (by unfold HbSet.insert; rw [if_neg ha]; simp))
        · exact h3 x (Or.inr hx)

end Frozen.Model
