import Verif.Model.Iterators
import Verif.Spec

/-! # Lemmas about iterators -/

namespace Frozen.Model

open Frozen Frozen.Spec

variable {K V T A S : Type}

/-- `next` as a computation that cannot fail. -/
def okNext (I : IterImpl S A) (s : S) : Res (Option A × S) := .ok (I.next s)

/-- The iterator type `I` walks a list: `toList` are the items to come. -/
structure Walks (I : IterImpl S A) (toList : S → List A) : Prop where
  nil : ∀ s, toList s = [] → I.next s = (none, s)
  cons : ∀ s a r, toList s = a :: r → ∃ s', I.next s = (some a, s') ∧ toList s' = r
  sizeHint : ∀ s, I.sizeHint s = ((toList s).length, some (toList s).length)
  count : ∀ s, I.count s = (toList s).length
  len : ∀ s, I.len s = (toList s).length
  fold : ∀ (s : S) (B : Type) (init : B) (f : B → A → B), I.fold s init f = (toList s).foldl f init

theorem Walks.yields {I : IterImpl S A} {toList : S → List A} (w : Walks I toList) :
    ∀ (l : List A) (s : S), toList s = l → ∃ s', Yields (okNext I) s l s' ∧ ∀ n, NoneFor (okNext I) n s'
  | [], s, h => by
    refine ⟨s, .nil (by rw [okNext, w.nil s h]), fun n => ?_⟩
    induction n with
    | zero => trivial
    | succ n ih => exact ⟨s, by rw [okNext, w.nil s h], ih⟩
  | a :: r, s, h => by
    obtain ⟨s1, h1, h2⟩ := w.cons s a r h
    obtain ⟨s', h3, h4⟩ := w.yields r s1 h2
    exact ⟨s', .cons (by rw [okNext, h1]) h3, h4⟩

theorem Walks.reaches {I : IterImpl S A} {toList : S → List A} (w : Walks I toList) {s s' : S} {p : List A}
    (h : Reaches (okNext I) s p s') : toList s = p ++ toList s' := by
  induction h with
  | refl => rfl
  | @step s s1 s' a as h1 _ ih =>
    cases hl : toList s with
    | nil => rw [okNext, w.nil s hl] at h1; cases h1
    | cons b r =>
      obtain ⟨t, h3, h4⟩ := w.cons s b r hl
      rw [okNext, h3] at h1
      cases h1
      rw [List.cons_append, ← ih, h4]

theorem walks_mapIter : Walks (mapIter (K := K) (V := V)) (fun s => s.rest) where
  nil s h := by simp only [mapIter, StdIter.next, h, Option.map_none]
  cons s a r h := ⟨⟨r⟩, by simp only [mapIter, StdIter.next, h, Option.map_some], rfl⟩
  sizeHint _ := rfl
  count _ := rfl
  len _ := rfl
  fold _ _ _ _ := rfl

theorem walks_mapIterMut : Walks (mapIterMut (K := K)) (fun s => s.rest) where
  nil s h := by simp only [mapIterMut, StdIter.next, h, Option.map_none]
  cons s a r h := ⟨⟨r⟩, by simp only [mapIterMut, StdIter.next, h, Option.map_some], rfl⟩
  sizeHint _ := rfl
  count _ := rfl
  len _ := rfl
  fold _ _ _ _ := rfl

theorem walks_mapIntoIter : Walks (mapIntoIter (K := K) (V := V)) (fun s => s.rest) where
  nil s h := by simp only [mapIntoIter, StdIter.next, h]
  cons s a r h := ⟨⟨r⟩, by simp only [mapIntoIter, StdIter.next, h], rfl⟩
  sizeHint _ := rfl
  count _ := rfl
  len _ := rfl
  fold _ _ _ _ := rfl

/-- An iterator that maps a function over another one. -/
theorem Walks.map {B : Type} {I : IterImpl S A} {toList : S → List A} (w : Walks I toList) (g : A → B) (J : IterImpl S B)
    (h1 : ∀ s, J.next s = ((I.next s).1.map g, (I.next s).2)) (h2 : ∀ s, J.sizeHint s = I.sizeHint s)
    (h3 : ∀ s, J.count s = I.count s) (h4 : ∀ s, J.len s = I.len s)
    (h5 : ∀ (s : S) (C : Type) (init : C) (f : C → B → C), J.fold s init f = I.fold s init (fun acc e => f acc (g e))) :
    Walks J (fun s => (toList s).map g) where
  nil s h := by rw [h1, w.nil s (by simpa using h)]; rfl
  cons s b r h := by
    obtain ⟨a, r', ha, rfl, rfl⟩ := List.map_eq_cons_iff.1 h
    obtain ⟨s', e1, e2⟩ := w.cons s a r' ha
    exact ⟨s', by rw [h1, e1]; rfl, by simp only [e2]⟩
  sizeHint s := by rw [h2, w.sizeHint]; simp
  count s := by rw [h3, w.count]; simp
  len s := by rw [h4, w.len]; simp
  fold s C init f := by rw [h5, w.fold, List.foldl_map]

theorem walks_mapKeys : Walks (mapKeys (K := K) (V := V)) (fun s => s.rest.map (fun x => x.1)) :=
  walks_mapIter.map _ _ (fun _ => rfl) (fun _ => rfl) (fun _ => rfl) (fun _ => rfl) (fun _ _ _ _ => rfl)

theorem walks_mapValues : Walks (mapValues (K := K) (V := V)) (fun s => s.rest.map (fun x => x.2)) :=
  walks_mapIter.map _ _ (fun _ => rfl) (fun _ => rfl) (fun _ => rfl) (fun _ => rfl) (fun _ _ _ _ => rfl)

theorem walks_mapValuesMut : Walks (mapValuesMut (K := K)) (fun s => s.rest.map (fun x => x.2)) :=
  walks_mapIterMut.map _ _ (fun _ => rfl) (fun _ => rfl) (fun _ => rfl) (fun _ => rfl) (fun _ _ _ _ => rfl)

theorem walks_mapIntoKeys : Walks (mapIntoKeys (K := K) (V := V)) (fun s => s.rest.map (fun x => x.1)) :=
  walks_mapIntoIter.map _ _ (fun _ => rfl) (fun _ => rfl) (fun _ => rfl) (fun _ => rfl) (fun _ _ _ _ => rfl)

theorem walks_mapIntoValues : Walks (mapIntoValues (K := K) (V := V)) (fun s => s.rest.map (fun x => x.2)) :=
  walks_mapIntoIter.map _ _ (fun _ => rfl) (fun _ => rfl) (fun _ => rfl) (fun _ => rfl) (fun _ _ _ _ => rfl)

theorem walks_setIter : Walks (setIter (T := T)) (fun s => s.rest.map (fun x => x.1)) :=
  walks_mapIter.map _ _ (fun _ => rfl) (fun _ => rfl) (fun _ => rfl) (fun _ => rfl) (fun _ _ _ _ => rfl)

theorem walks_setIntoIter : Walks (setIntoIter (T := T)) (fun s => s.rest.map (fun x => x.1)) :=
  walks_mapIntoIter.map _ _ (fun _ => rfl) (fun _ => rfl) (fun _ => rfl) (fun _ => rfl) (fun _ _ _ _ => rfl)

/-- `next` is deterministic: an iterator yields one list of items. -/
theorem Yields.unique {next : S → Res (Option A × S)} {s s' s'' : S} {a b : List A} (h1 : Yields next s a s')
    (h2 : Yields next s b s'') : a = b ∧ s' = s'' := by
  induction h1 generalizing b with
  | nil e1 =>
    cases h2 with
    | nil e2 => rw [e1] at e2; cases e2; exact ⟨rfl, rfl⟩
    | cons e2 _ => rw [e1] at e2; cases e2
  | cons e1 _ ih =>
    cases h2 with
    | nil e2 => rw [e1] at e2; cases e2
    | cons e2 h2 =>
      rw [e1] at e2; cases e2
      obtain ⟨h, h'⟩ := ih h2
      exact ⟨by rw [h], h'⟩

end Frozen.Model
