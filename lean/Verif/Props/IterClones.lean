import Verif.Model.IterClones
import Verif.Props.DebugFmt

/-!
# Property theorems: cloned iterators (C86)
-/

namespace Frozen.Props

open Frozen Frozen.Spec Frozen.Model

variable {K V T Q M S A : Type}

/-- The specification: every iterator is the list of the items it has still to give, a clone is another copy of that list. -/
def listStep (p : Pool (List A)) : WalkOp → WalkAns A × Pool (List A)
  | .next i => match p.at i with
    | none => (.gone, p)
    | some l => (.item l.head?, p.set i (some l.tail))
  | .clone i => match p.at i with
    | none => (.gone, p)
    | some l => (.done, p ++ [some l])
  | .count i => match p.at i with
    | none => (.gone, p)
    | some l => (.total l.length, p.set i none)

/-- What a program sees when its iterators are lists. -/
def runLists : Pool (List A) → List WalkOp → List (WalkAns A)
  | _, [] => []
  | p, op :: ops => (listStep p op).1 :: runLists (listStep p op).2 ops

/-- Every program on clones of the iterator `s` sees what it would see if the iterators were lists that start as `items`. -/
def ActsAsList (W : Walker S A) (s : S) (items : List A) : Prop :=
  ∀ ops, W.run [some s] ops = .ok (runLists [some items] ops)

private theorem at_map (f : S → List A) (p : Pool S) (i : Nat) : Pool.at (p.map (Option.map f)) i = (p.at i).map f := by
  unfold Pool.at
  rw [List.getElem?_map]
  cases p[i]? with
  | none => rfl
  | some o => rfl

private theorem at_mem {p : Pool S} {i : Nat} {s : S} (h : p.at i = some s) : some s ∈ p := by
  unfold Pool.at at h
  cases hp : p[i]? with
  | none => rw [hp] at h; cases h
  | some o =>
    rw [hp] at h
    obtain rfl : o = some s := h
    exact List.mem_of_getElem? hp

/-- A walker that follows lists, whose clones have the same items to come and whose count is right, acts as a list. -/
private theorem run_lists {W : Walker S A} {Inv : S → Prop} {toList : S → List A} (w : WalksM W.next Inv toList)
    (hclone : ∀ s, Inv s → Inv (W.clone s) ∧ toList (W.clone s) = toList s)
    (hcount : ∀ s, Inv s → W.count s = .ok (toList s).length) :
    ∀ (ops : List WalkOp) (p : Pool S), (∀ s, some s ∈ p → Inv s) → W.run p ops = .ok (runLists (p.map (Option.map toList)) ops)
  | [], _, _ => rfl
  | op :: ops, p, hp => by
    have step : ∃ r, W.step p op = .ok r ∧ (listStep (p.map (Option.map toList)) op) = (r.1, r.2.map (Option.map toList)) ∧
        ∀ s, some s ∈ r.2 → Inv s := by
      cases op with
      | next i =>
        unfold Walker.step listStep
        simp only [at_map]
        cases h : p.at i with
        | none => exact ⟨_, rfl, rfl, hp⟩
        | some s =>
          have hi := hp s (at_mem h)
          cases hl : toList s with
          | nil =>
            obtain ⟨s', h1, h2, h3⟩ := w.nil s hi hl
            refine ⟨(.item none, p.set i (some s')), by simp only [h1, bind, Except.bind], by simp [hl, List.map_set, h3], ?_⟩
            intro t ht
            rcases List.mem_or_eq_of_mem_set ht with h4 | h4
            · exact hp t h4
            · cases h4; exact h2
          | cons a l =>
            obtain ⟨s', h1, h2, h3⟩ := w.cons s a l hi hl
            refine ⟨(.item (some a), p.set i (some s')), by simp only [h1, bind, Except.bind], by simp [hl, List.map_set, h3], ?_⟩
            intro t ht
            rcases List.mem_or_eq_of_mem_set ht with h4 | h4
            · exact hp t h4
            · cases h4; exact h2
      | clone i =>
        unfold Walker.step listStep
        simp only [at_map]
        cases h : p.at i with
        | none => exact ⟨_, rfl, rfl, hp⟩
        | some s =>
          obtain ⟨h1, h2⟩ := hclone s (hp s (at_mem h))
          refine ⟨_, rfl, by simp [h2], ?_⟩
          intro t ht
          rcases List.mem_append.1 ht with h4 | h4
          · exact hp t h4
          · simp only [List.mem_singleton, Option.some.injEq] at h4
            rw [h4]; exact h1
      | count i =>
        unfold Walker.step listStep
        simp only [at_map]
        cases h : p.at i with
        | none => exact ⟨_, rfl, rfl, hp⟩
        | some s =>
          refine ⟨(.total (toList s).length, p.set i none), by simp only [hcount s (hp s (at_mem h)), bind, Except.bind],
            by simp [List.map_set], ?_⟩
          intro t ht
          rcases List.mem_or_eq_of_mem_set ht with h4 | h4
          · exact hp t h4
          · cases h4
    obtain ⟨r, h1, h2, h3⟩ := step
    unfold Walker.run runLists
    simp only [h1, h2, bind, Except.bind, run_lists w hclone hcount ops r.2 h3]

private theorem acts {W : Walker S A} {Inv : S → Prop} {toList : S → List A} (w : WalksM W.next Inv toList)
    (hclone : ∀ s, Inv s → Inv (W.clone s) ∧ toList (W.clone s) = toList s)
    (hcount : ∀ s, Inv s → W.count s = .ok (toList s).length) {s : S} (hi : Inv s) : ActsAsList W s (toList s) := by
  intro ops
  rw [run_lists w hclone hcount ops [some s] (by simpa using hi)]
  rfl

private theorem countOf_eq {next : S → Res (Option A × S)} {Inv : S → Prop} {toList : S → List A} (w : WalksM next Inv toList) :
    ∀ (fuel : Nat) (s : S), Inv s → (toList s).length < fuel → countOf next fuel s = .ok (toList s).length
  | 0, _, _, h => absurd h (Nat.not_lt_zero _)
  | fuel + 1, s, hi, hf => by
    unfold countOf
    cases hl : toList s with
    | nil =>
      obtain ⟨s', h1, _⟩ := w.nil s hi hl
      simp only [h1, bind, Except.bind, List.length_nil]
    | cons a l =>
      obtain ⟨s', h1, h2, h3⟩ := w.cons s a l hi hl
      rw [hl, List.length_cons] at hf
      have ih := countOf_eq w fuel s' h2 (by rw [h3]; omega)
      simp only [h1, bind, Except.bind, ih, h3, List.length_cons]

/-- **C86** (maps).  Clones of the iterators over the entries, keys and values of a map of any kind, made at any point, give
exactly the items that the iterator had still to give, in the same order, however the calls on the original and the clones are interleaved; the items
of a fresh iterator are the last entry of every key passed in, each once. -/
theorem c86_map_iterators [Target] {eqK : K → K → Bool} {mt : Q → K → Bool} {es : List (K × V)} {I : MapImpl M Q K V} {m : M}
    (hb : Built eqK mt es I m) :
    ∃ items, (∀ e, e ∈ items ↔ lastMatch eqK es e.1 = some e) ∧ Distinct eqK (items.map (fun e => e.1)) ∧
      ActsAsList walkMapIter (I.iter m) items ∧ ActsAsList walkKeys (I.iter m) (items.map (fun e => e.1)) ∧
      ActsAsList walkValues (I.iter m) (items.map (fun e => e.2)) := by
  obtain ⟨items, _, hy, _, hmem, hd⟩ := c62_map hb (F := plainFmt) (dK := fun _ => "") (dV := fun _ => "")
  have hl : (I.iter m).rest = items := yields_walks (walksM_of_walks walks_mapIter) hy trivial
  refine ⟨items, hmem, hd, ?_, ?_, ?_⟩
  · have := acts (W := walkMapIter) (walksM_of_walks walks_mapIter) (fun _ _ => ⟨trivial, rfl⟩) (fun s _ => by
      simp only [walkMapIter, walks_mapIter.count]) (s := I.iter m) trivial
    rwa [hl] at this
  · have := acts (W := walkKeys) (walksM_of_walks walks_mapKeys) (fun _ _ => ⟨trivial, rfl⟩) (fun s _ => by
      simp only [walkKeys, walks_mapKeys.count]) (s := I.iter m) trivial
    rw [hl] at this
    exact this
  · have := acts (W := walkValues) (walksM_of_walks walks_mapValues) (fun _ _ => ⟨trivial, rfl⟩) (fun s _ => by
      simp only [walkValues, walks_mapValues.count]) (s := I.iter m) trivial
    rw [hl] at this
    exact this

/-- **C86** (sets).  The same for the iterator over the elements of a set. -/
theorem c86_set_iterator [Target] {eqT : T → T → Bool} {mt : Q → T → Bool} {xs : List T} {I : MapImpl M Q T Unit} {m : M}
    (hb : Built eqT mt (unitEntries xs) I m) :
    ∃ items, (∀ x, x ∈ items ↔ lastOf eqT xs x = some x) ∧ Distinct eqT items ∧ ActsAsList walkSetIter (I.iter m) items := by
  obtain ⟨h1, h2, _⟩ := built_set_items hb
  exact ⟨_, h1, h2, acts (W := walkSetIter) (walksM_of_walks walks_setIter) (fun _ _ => ⟨trivial, rfl⟩) (fun s _ => by
    simp only [walkSetIter, walks_setIter.count]) trivial⟩

section ops

variable {eqT : T → T → Bool} {C D : T → Prop} {s1 s2 : SetView T}

private theorem itemsClone_eq (l : List T) : itemsClone l = l := rfl

private theorem union_clone (u : Model.Union T) : u.clone = u := rfl
private theorem intersection_clone (u : Intersection T) : u.clone = u := rfl
private theorem difference_clone (u : Difference T) : u.clone = u := rfl
private theorem symdiff_clone (s : SymmetricDifference T) : s.clone = s := by
  obtain ⟨a, b⟩ := s
  cases a <;> cases b <;> rfl

private theorem difference_count {c2 : T → Bool} (d2 : ∀ x, s2.contains x = .ok (c2 x)) {d : Difference T} (hd : d.s2 = s2) :
    d.count = .ok (d.iter1.filter (fun x => !c2 x)).length :=
  countOf_eq (difference_walks d2) _ d hd (Nat.lt_succ_of_le (List.length_filter_le _ _))

private theorem optCount_eq {c2 : T → Bool} (d2 : ∀ x, s2.contains x = .ok (c2 x)) (o : Option (Difference T))
    (ho : ∀ d, o = some d → d.s2 = s2) : optCount o = .ok (diffList c2 o).length := by
  cases o with
  | none => rfl
  | some d => exact difference_count d2 (ho d rfl)

/-- **C86** (set operations).  The same for the iterators of the four set operations on any two sets; `count` gives the number of items still to come.
The items are the ones of C26 and C27. -/
theorem c86_set_operations [Target] (he : LawfulEq' eqT) (h1 : IsSet eqT C s1) (h2 : IsSet eqT D s2)
    (hlen : s1.items.length + s2.items.length ≤ usizeMax) :
    (∃ items, ActsAsList walkUnion (Union.new s1 s2) items ∧ Distinct eqT items ∧ (∀ x ∈ items, C x ∨ D x) ∧
      ∀ x, C x ∨ D x → ∃ y ∈ items, eqT x y = true) ∧
    (∃ items, ActsAsList walkIntersection (Intersection.new s1 s2) items ∧ Distinct eqT items ∧ (∀ x ∈ items, C x ∧ D x) ∧
      ∀ x, C x ∧ D x → ∃ y ∈ items, eqT x y = true) ∧
    (∃ items, ActsAsList walkDifference (Difference.new s1 s2) items ∧ Distinct eqT items ∧ (∀ x ∈ items, C x ∧ ¬ D x) ∧
      ∀ x, C x ∧ ¬ D x → ∃ y ∈ items, eqT x y = true) ∧
    (∃ items, ActsAsList walkSymmetricDifference (SymmetricDifference.new s1 s2) items ∧ Distinct eqT items ∧
      (∀ x ∈ items, (C x ∧ ¬ D x) ∨ (D x ∧ ¬ C x)) ∧ ∀ x, (C x ∧ ¬ D x) ∨ (D x ∧ ¬ C x) → ∃ y ∈ items, eqT x y = true) := by
  obtain ⟨c1, d1, e1⟩ := h1.decider
  obtain ⟨c2, d2, e2⟩ := h2.decider
  refine ⟨?_, ?_, ?_, ?_⟩
  · obtain ⟨h3, h4, h5⟩ := unionList_facts he h1 h2 e1 e2
    refine ⟨_, acts (W := walkUnion) (union_walks d1 d2) (fun s hs => ?_) (fun s hs => ?_) ⟨rfl, rfl⟩, h3, fun x hx => (h4 x hx).1, h5⟩
    · exact ⟨hs, rfl⟩
    · exact countOf_eq (union_walks d1 d2) _ s hs (Nat.lt_succ_of_le (unionList_length c1 c2 s))
  · obtain ⟨h3, h4, h5⟩ := interList_facts he h1 h2 e1 e2
    refine ⟨_, acts (W := walkIntersection) (intersection_walks d1 d2) (fun s hs => ?_) (fun s hs => ?_) ⟨rfl, rfl⟩, h3,
      fun x hx => (h4 x hx).1, h5⟩
    · exact ⟨hs, rfl⟩
    · exact countOf_eq (intersection_walks d1 d2) _ s hs (Nat.lt_succ_of_le (interList_length c1 c2 s))
  · obtain ⟨h3, h4, h5⟩ := diff_facts he h1 h2 e2
    refine ⟨_, acts (W := walkDifference) (difference_walks d2) (fun s hs => ?_) (fun s hs => ?_) rfl, h3,
      fun x hx => (h4 x hx).1, h5⟩
    · exact ⟨hs, rfl⟩
    · exact difference_count d2 hs
  · obtain ⟨h3, h4, h5⟩ := symdiff_facts he h1 h2 e1 e2
    -- the halves never have more items left than the sets they come from
    have hw : WalksM walkSymmetricDifference.next
        (fun s : SymmetricDifference T => ((∀ d, s.a = some d → d.s2 = s2) ∧ (∀ d, s.b = some d → d.s2 = s1)) ∧
          (diffList c2 s.a).length + (diffList c1 s.b).length ≤ usizeMax)
        (fun s => diffList c2 s.a ++ diffList c1 s.b) := by
      constructor
      · intro s hs hl
        obtain ⟨s', g1, g2, g3⟩ := (symdiff_walks d1 d2).nil s hs.1 hl
        refine ⟨s', g1, ⟨g2, ?_⟩, g3⟩
        rw [← List.length_append, g3]; exact Nat.zero_le _
      · intro s a r hs hl
        obtain ⟨s', g1, g2, g3⟩ := (symdiff_walks d1 d2).cons s a r hs.1 hl
        refine ⟨s', g1, ⟨g2, ?_⟩, g3⟩
        have h6 := hs.2
        rw [← List.length_append, hl, List.length_cons] at h6
        rw [← List.length_append, g3]; omega
    refine ⟨_, acts (W := walkSymmetricDifference) hw (fun s hs => ?_) (fun s hs => ?_) ⟨symdiff_inv s1 s2, ?_⟩, h3,
      fun x hx => (h4 x hx).1, h5⟩
    · show _ ∧ _
      simp only [walkSymmetricDifference, symdiff_clone]
      exact ⟨hs, trivial⟩
    · simp only [walkSymmetricDifference, SymmetricDifference.count, optCount_eq d2 s.a hs.1.1, optCount_eq d1 s.b hs.1.2, bind,
        Except.bind, List.length_append]
      exact if_pos hs.2
    · simp only [SymmetricDifference.new, diffList, Difference.new]
      have g1 := List.length_filter_le (fun x => !c2 x) s1.items
      have g2 := List.length_filter_le (fun x => !c1 x) s2.items
      omega

end ops

/-- A union of two scan sets, cloned halfway: original and clone each give the rest, in whatever order they are called. -/
example : walkUnion.run [some (Union.new (scanSet [1, 2]) (scanSet [2, 3, 4]))]
    [.next 0, .clone 0, .next 1, .next 1, .next 0, .count 0, .next 1, .next 1] =
    .ok [.item (some 2), .done, .item (some 3), .item (some 4), .item (some 3), .total 2, .item (some 1), .item none] := by decide +kernel

end Frozen.Props
