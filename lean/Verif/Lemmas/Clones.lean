import Verif.Props.CloneSpec

/-!
# Clones: lists, searches and hash tables
-/

namespace Frozen.Props
open Frozen Frozen.Spec Frozen.Model

variable {Q K V T : Type}

theorem cloneEntries_ok {ck : K → Res K} {cv : V → Res V} {f : K → K} {g : V → V} {es : List (K × V)} (h : ClonesTo ck cv f g es) :
    cloneList (cloneEntry ck cv) es = .ok (es.map fun e => (f e.1, g e.2)) := by
  induction es with
  | nil => rfl
  | cons e es ih =>
    have h1 := h e (by simp)
    have h2 := ih fun e' he => h e' (by simp [he])
    simp only [cloneList, cloneEntry, bind, Except.bind, h1.1, h1.2, h2, List.map_cons]

/-- Cloning a list fails exactly if cloning an element fails. -/
theorem cloneList_error {c : T → Res T} {xs : List T} : (∃ e, cloneList c xs = .error e) ↔ ∃ x ∈ xs, ∃ e, c x = .error e := by
  induction xs with
  | nil => simp [cloneList]
  | cons x xs ih =>
    simp only [cloneList, bind, Except.bind]
    cases hx : c x with
    | error e => simp [hx]
    | ok y =>
      cases hxs : cloneList c xs with
      | error e =>
        simp only [hxs] at ih
        obtain ⟨z, hz, e', h'⟩ := ih.1 ⟨e, rfl⟩
        exact ⟨fun _ => ⟨z, by simp [hz], e', h'⟩, fun _ => ⟨e, rfl⟩⟩
      | ok ys =>
        simp only [hxs] at ih
        constructor
        · rintro ⟨e, h⟩; cases h
        · rintro ⟨z, hz, e, he⟩
          rcases List.mem_cons.1 hz with rfl | hz
          · rw [hx] at he; cases he
          · obtain ⟨_, h⟩ := ih.2 ⟨z, hz, e, he⟩
            cases h

theorem cloneEntry_error {ck : K → Res K} {cv : V → Res V} {e : K × V} :
    (∃ x, cloneEntry ck cv e = .error x) ↔ (∃ x, ck e.1 = .error x) ∨ ∃ x, cv e.2 = .error x := by
  simp only [cloneEntry, bind, Except.bind]
  cases ck e.1 with
  | error x => simp
  | ok k =>
    cases cv e.2 with
    | error x => simp
    | ok v => simp

theorem getUnchecked_map {T' : Type} (f : T → T') (xs : List T) (i : Nat) : getUnchecked (xs.map f) i = (getUnchecked xs i).map f := by
  unfold getUnchecked
  rw [List.getElem?_map]
  cases xs[i]? <;> rfl

theorem getUncheckedRange_map (f : T → T) (xs : List T) (lo hi : Nat) :
    getUncheckedRange (xs.map f) lo hi = (getUncheckedRange xs lo hi).map (List.map f) := by
  unfold getUncheckedRange
  rw [List.length_map]
  split
  · simp [Except.map, List.map_drop, List.map_take]
  · rfl

theorem searchLoop_map (f : T → T) (xs : List T) (p p' : T → Ordering) (hp : ∀ x ∈ xs, p' (f x) = p x) (i steps : Nat) :
    searchLoop (xs.map f) p' i steps = searchLoop xs p i steps := by
  induction i, steps using searchLoop.induct (data := xs) (f := p) with
  | case1 i steps hi o hlt =>
    rw [searchLoop, searchLoop]
    have hp' := hp xs[i] (List.getElem_mem _)
    simp only [List.length_map, hi, dite_true, List.getElem_map, hp']
    rw [if_pos hlt, if_pos hlt]
  | case2 i steps hi o hlt ih =>
    rw [searchLoop, searchLoop]
    have hp' := hp xs[i] (List.getElem_mem _)
    simp only [List.length_map, hi, dite_true, List.getElem_map, hp']
    rw [if_neg hlt, if_neg hlt]
    exact ih
  | case3 i steps hi =>
    rw [searchLoop, searchLoop]
    simp only [List.length_map, hi, dite_false]

theorem eytzingerSearch_map (f : T → T) (xs : List T) (p p' : T → Ordering) (hp : ∀ x ∈ xs, p' (f x) = p x) :
    eytzingerSearchBy (xs.map f) p' = eytzingerSearchBy xs p := by
  unfold eytzingerSearchBy
  rw [searchLoop_map f xs p p' hp]

theorem getUnchecked_mem {xs : List T} {i : Nat} {x : T} (h : getUnchecked xs i = .ok x) : x ∈ xs := by
  unfold getUnchecked at h
  split at h
  · cases h
    exact List.mem_of_getElem? (by assumption)
  · cases h

theorem scanBucket_map (f : T → T) (xs : List T) (p p' : T → Bool) (hp : ∀ x ∈ xs, p' (f x) = p x) (n ptr : Nat) :
    scanBucket p' (xs.map f) n ptr = scanBucket p xs n ptr := by
  induction n generalizing ptr with
  | zero => rfl
  | succ n ih =>
    simp only [scanBucket, bind, Except.bind]
    rw [getUnchecked_map]
    cases h : getUnchecked xs ptr with
    | error e => rfl
    | ok x =>
      simp only [Except.map, hp x (getUnchecked_mem h)]
      split
      · rfl
      · exact ih _

theorem getUncheckedRange_mem {xs ys : List T} {lo hi : Nat} (h : getUncheckedRange xs lo hi = .ok ys) : ∀ y ∈ ys, y ∈ xs := by
  unfold getUncheckedRange at h
  split at h
  · cases h
    intro y hy
    exact List.mem_of_mem_drop (List.mem_of_mem_take hy)
  · cases h

theorem find_map (f : T → T) (t : HashTable T) (p p' : T → Bool) (hp : ∀ x ∈ t.entries, p' (f x) = p x) (h : Nat) :
    HashTable.find { slots := t.slots, entries := t.entries.map f, mask := t.mask } h p' = (t.find h p).map (Option.map f) := by
  simp only [HashTable.find, bind, Except.bind]
  cases getUnchecked t.slots (h &&& t.mask) with
  | error e => rfl
  | ok slot =>
    simp only []
    rw [getUncheckedRange_map]
    cases hb : getUncheckedRange t.entries slot.minIndex slot.maxIndex with
    | error e => rfl
    | ok bucket =>
      simp only [Except.map]
      rw [scanBucket_map f bucket p p' (fun x hx => hp x (getUncheckedRange_mem hb x hx))]
      cases scanBucket p bucket (slot.maxIndex - slot.minIndex) 0 with
      | error e => rfl
      | ok r =>
        cases r with
        | none => rfl
        | some ptr =>
          simp only []
          rw [getUnchecked_map]
          cases getUnchecked bucket ptr <;> rfl

theorem findMut_map (f : T → T) (t : HashTable T) (p p' : T → Bool) (hp : ∀ x ∈ t.entries, p' (f x) = p x) (h : Nat) :
    HashTable.findMut { slots := t.slots, entries := t.entries.map f, mask := t.mask } h p' = t.findMut h p := by
  simp only [HashTable.findMut, bind, Except.bind]
  cases getUnchecked t.slots (h &&& t.mask) with
  | error e => rfl
  | ok slot =>
    simp only []
    rw [getUncheckedRange_map]
    cases hb : getUncheckedRange t.entries slot.minIndex slot.maxIndex with
    | error e => rfl
    | ok bucket =>
      simp only [Except.map]
      rw [scanBucket_map f bucket p p' (fun x hx => hp x (getUncheckedRange_mem hb x hx))]

theorem findNC_map (f : T → T) (t : HashTableNC T) (p p' : T → Bool) (hp : ∀ x ∈ t.entries, p' (f x) = p x) (h : Nat) :
    HashTableNC.find { slots := t.slots, entries := t.entries.map f, mask := t.mask } h p' = (t.find h p).map (Option.map f) := by
  simp only [HashTableNC.find, bind, Except.bind]
  cases getUnchecked t.slots (h &&& t.mask) with
  | error e => rfl
  | ok i =>
    simp only []
    by_cases hi : i > 0
    · rw [if_pos hi, if_pos hi, getUnchecked_map]
      cases hx : getUnchecked t.entries (i - 1) with
      | error e => rfl
      | ok x =>
        simp only [Except.map, hp x (getUnchecked_mem hx)]
        split <;> rfl
    · rw [if_neg hi, if_neg hi]; rfl

theorem findMutNC_map (f : T → T) (t : HashTableNC T) (p p' : T → Bool) (hp : ∀ x ∈ t.entries, p' (f x) = p x) (h : Nat) :
    HashTableNC.findMut { slots := t.slots, entries := t.entries.map f, mask := t.mask } h p' = t.findMut h p := by
  simp only [HashTableNC.findMut, bind, Except.bind]
  cases getUnchecked t.slots (h &&& t.mask) with
  | error e => rfl
  | ok i =>
    simp only []
    by_cases hi : i > 0
    · rw [if_pos hi, if_pos hi, getUnchecked_map]
      cases hx : getUnchecked t.entries (i - 1) with
      | error e => rfl
      | ok x =>
        simp only [Except.map, hp x (getUnchecked_mem hx)]
    · rw [if_neg hi, if_neg hi]

/-- A query that respects equality does not tell a key from an equal one. -/
theorem match_eq {eqK : K → K → Bool} {mt : Q → K → Bool} (he : LawfulEq' eqK) (hq : LawfulQuery eqK mt) {a b : K} (h : eqK b a = true) (q : Q) :
    mt q b = mt q a := by
  cases ha : mt q a with
  | true => exact (hq.congr q a b ha).2 (he.symm _ _ h)
  | false =>
    cases hb : mt q b with
    | false => rfl
    | true => rw [(hq.congr q b a hb).2 h] at ha; cases ha

theorem qcmp_eq {cmp : K → K → Ordering} {qcmp : Q → K → Ordering} (hc : LawfulCmp cmp) (hq : LawfulQueryCmp cmp qcmp) {a b : K}
    (h : cmp b a = .eq) (q : Q) : qcmp q b = qcmp q a := by
  have h' : cmp a b = .eq := by rw [hc.swap, h]; rfl
  cases ha : qcmp q a with
  | eq => rw [hq.congr q a b ha, h']
  | lt => exact hq.lt q a b ha (by rw [h']; decide)
  | gt => exact hq.gt q a b ha (by rw [h]; decide)

end Frozen.Props
