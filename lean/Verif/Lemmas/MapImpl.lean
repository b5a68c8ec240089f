import Verif.Model.MapImpl
import Verif.Lemmas.KeepLast
import Verif.Lemmas.Dedup
import Mathlib.Data.List.Nodup

/-!
# What a correct map implementation is, and generic lemmas about it
-/

namespace Frozen.Model

open Frozen.Spec

variable {M Q K V : Type}

/-- The primary functions of `I` agree with linear search over the entry list, on all maps satisfying `Inv`, and
stores through `get_mut` references keep `Inv`. -/
structure LawfulMap (I : MapImpl M Q K V) (eqK : K → K → Bool) (mt : Q → K → Bool) (Inv : M → Prop) : Prop where
  get : ∀ m, Inv m → ∀ q, I.get m q = .ok (((I.entries m).find? (fun e => mt q e.1)).map (fun e => e.2))
  getMut : ∀ m, Inv m → ∀ q, I.getMut m q = .ok ((I.entries m).findIdx? (fun e => mt q e.1))
  getKeyValue : ∀ m, Inv m → ∀ q, I.getKeyValue m q = .ok ((I.entries m).find? (fun e => mt q e.1))
  containsKey : ∀ m, Inv m → ∀ q, I.containsKey m q = .ok ((I.entries m).find? (fun e => mt q e.1)).isSome
  len : ∀ m, Inv m → I.len m = (I.entries m).length
  distinct : ∀ m, Inv m → Distinct (entryEq eqK) (I.entries m)
  write_entries : ∀ m, Inv m → ∀ i v, I.entries (I.write m i v) = writeAt (I.entries m) i v
  write_inv : ∀ m, Inv m → ∀ i v, Inv (I.write m i v)

/-- A class of keys matches at most one position of a list of distinct entries. -/
theorem Distinct.unique_pos {α : Type} {eq : α → α → Bool} {p : α → Bool} (hp : IsClass eq p) {l : List α}
    (hd : Distinct eq l) {i j : Nat} {a b : α} (ha : l[i]? = some a) (hb : l[j]? = some b) (hpa : p a = true)
    (hpb : p b = true) : i = j := by
  obtain ⟨hi, rfl⟩ := List.getElem?_eq_some_iff.1 ha
  obtain ⟨hj, rfl⟩ := List.getElem?_eq_some_iff.1 hb
  rcases Nat.lt_trichotomy i j with h | h | h
  · have h1 := List.pairwise_iff_getElem.1 hd i j hi hj h
    rw [((hp _ _ hpa).1 hpb)] at h1; cases h1
  · exact h
  · have h1 := List.pairwise_iff_getElem.1 hd j i hj hi h
    rw [((hp _ _ hpb).1 hpa)] at h1; cases h1

theorem find_of_pos {α : Type} {p : α → Bool} {l : List α}
    (hu : ∀ (i j : Nat) a b, l[i]? = some a → l[j]? = some b → p a = true → p b = true → i = j) {i : Nat} {a : α}
    (ha : l[i]? = some a) (hpa : p a = true) : l.find? p = some a ∧ l.findIdx? p = some i := by
  have hi := (List.getElem?_eq_some_iff.1 ha).1
  have h1 : l.findIdx? p = some i := by
    rw [List.findIdx?_eq_some_iff_getElem]
    refine ⟨hi, ?_, ?_⟩
    · rw [← (List.getElem?_eq_some_iff.1 ha).2] at hpa; exact hpa
    · intro j hj hpj
      have := hu j i l[j] a (List.getElem?_eq_getElem (by omega)) ha hpj hpa
      omega
  refine ⟨?_, h1⟩
  have h2 := List.find?_isSome (xs := l) (p := p)
  cases hf : l.find? p with
  | none =>
    rw [List.find?_eq_none] at hf
    exact absurd hpa (hf a (List.mem_of_getElem? ha))
  | some b =>
    have hb := List.find?_some hf
    obtain ⟨j, hj⟩ := List.getElem?_of_mem (List.mem_of_find?_eq_some hf)
    have := hu j i b a hj ha hb hpa
    subst this
    rw [hj] at ha
    exact ha

theorem find_of_none {α : Type} {p : α → Bool} {l : List α} (h : ∀ a ∈ l, p a = false) :
    l.find? p = none ∧ l.findIdx? p = none := by
  constructor
  · rw [List.find?_eq_none]; intro x hx; simp [h x hx]
  · rw [List.findIdx?_eq_none_iff]; exact h

theorem writeAt_map_fst (es : List (K × V)) (i : Nat) (v : V) : (writeAt es i v).map Prod.fst = es.map Prod.fst := by
  unfold writeAt
  induction es generalizing i with
  | nil => cases i <;> rfl
  | cons e es ih => cases i with
    | zero => rfl
    | succ i => simp only [List.modify_succ_cons, List.map_cons, ih]

@[simp] theorem writeAt_length (es : List (K × V)) (i : Nat) (v : V) : (writeAt es i v).length = es.length := by
  unfold writeAt; simp

theorem writeAt_getElem? (es : List (K × V)) (i : Nat) (v : V) (j : Nat) :
    (writeAt es i v)[j]? = if i = j then (es[j]?).map (fun e => (e.1, v)) else es[j]? := by
  unfold writeAt
  rw [List.getElem?_modify]
  split
  · rename_i h; subst h; simp
  · rename_i h; cases es[j]? <;> simp

theorem writeAt_key {es : List (K × V)} {i : Nat} {v : V} {j : Nat} {e : K × V} (h : (writeAt es i v)[j]? = some e) :
    ∃ e', es[j]? = some e' ∧ e'.1 = e.1 := by
  have h1 : ((writeAt es i v).map Prod.fst)[j]? = some e.1 := by rw [List.getElem?_map, h]; rfl
  rw [writeAt_map_fst, List.getElem?_map] at h1
  cases h2 : es[j]? with
  | none => rw [h2] at h1; cases h1
  | some e' => rw [h2] at h1; exact ⟨e', rfl, by simpa using h1⟩

theorem writeAt_key' {es : List (K × V)} (i : Nat) (v : V) {j : Nat} {e : K × V} (h : es[j]? = some e) :
    ∃ e', (writeAt es i v)[j]? = some e' ∧ e'.1 = e.1 := by
  rw [writeAt_getElem?, h]
  split <;> simp

theorem writeAt_mem_key {es : List (K × V)} {i : Nat} {v : V} {e : K × V} (h : e ∈ writeAt es i v) :
    ∃ e' ∈ es, e'.1 = e.1 := by
  obtain ⟨j, hj⟩ := List.getElem?_of_mem h
  obtain ⟨e', he', hk⟩ := writeAt_key hj
  exact ⟨e', List.mem_of_getElem? he', hk⟩

theorem distinct_iff_keys {eqK : K → K → Bool} (l : List (K × V)) :
    Distinct (entryEq eqK) l ↔ Distinct eqK (l.map Prod.fst) := by
  unfold Distinct
  rw [List.pairwise_map]

theorem distinct_writeAt {eqK : K → K → Bool} {es : List (K × V)} (h : Distinct (entryEq eqK) es) (i : Nat) (v : V) :
    Distinct (entryEq eqK) (writeAt es i v) := by
  rw [distinct_iff_keys, writeAt_map_fst, ← distinct_iff_keys]; exact h

/-- Linear search with a predicate on keys after a store: same position. -/
theorem findIdx?_key (p : K → Bool) (es : List (K × V)) :
    es.findIdx? (fun e => p e.1) = (es.map Prod.fst).findIdx? p := by
  rw [List.findIdx?_map]; rfl

/-- Assemble a `LawfulMap` from a position function: on each query the map either finds nothing and no entry
matches, or finds the position of a matching entry. -/
theorem LawfulMap.of_pos {I : MapImpl M Q K V} {eqK : K → K → Bool} {mt : Q → K → Bool} {Inv : M → Prop}
    (hq : LawfulQuery eqK mt)
    (hdist : ∀ m, Inv m → Distinct (entryEq eqK) (I.entries m))
    (hpos : ∀ m, Inv m → ∀ q,
      (I.get m q = .ok none ∧ I.getMut m q = .ok none ∧ I.getKeyValue m q = .ok none ∧ I.containsKey m q = .ok false ∧
        ∀ e ∈ I.entries m, mt q e.1 = false) ∨
      (∃ i e, (I.entries m)[i]? = some e ∧ mt q e.1 = true ∧ I.get m q = .ok (some e.2) ∧
        I.getMut m q = .ok (some i) ∧ I.getKeyValue m q = .ok (some e) ∧ I.containsKey m q = .ok true))
    (hlen : ∀ m, Inv m → I.len m = (I.entries m).length)
    (hw : ∀ m, Inv m → ∀ i v, I.entries (I.write m i v) = writeAt (I.entries m) i v)
    (hwi : ∀ m, Inv m → ∀ i v, Inv (I.write m i v)) : LawfulMap I eqK mt Inv := by
  have key : ∀ m, Inv m → ∀ q,
      I.get m q = .ok (((I.entries m).find? (fun e => mt q e.1)).map (fun e => e.2)) ∧
      I.getMut m q = .ok ((I.entries m).findIdx? (fun e => mt q e.1)) ∧
      I.getKeyValue m q = .ok ((I.entries m).find? (fun e => mt q e.1)) ∧
      I.containsKey m q = .ok ((I.entries m).find? (fun e => mt q e.1)).isSome := by
    intro m hm q
    rcases hpos m hm q with ⟨h1, h2, h3, h4, h5⟩ | ⟨i, e, he, hmt, h1, h2, h3, h4⟩
    · obtain ⟨f1, f2⟩ := find_of_none (p := fun e : K × V => mt q e.1) h5
      rw [f1, f2]
      exact ⟨h1, h2, h3, h4⟩
    · obtain ⟨f1, f2⟩ := find_of_pos (p := fun e : K × V => mt q e.1)
        (fun i j a b ha hb hpa hpb => Distinct.unique_pos (hq.entryClass q) (hdist m hm) ha hb hpa hpb) he hmt
      rw [f1, f2]
      exact ⟨h1, h2, h3, h4⟩
  exact {
    get := fun m hm q => (key m hm q).1
    getMut := fun m hm q => (key m hm q).2.1
    getKeyValue := fun m hm q => (key m hm q).2.2.1
    containsKey := fun m hm q => (key m hm q).2.2.2
    len := hlen, distinct := hdist, write_entries := hw, write_inv := hwi }

end Frozen.Model
