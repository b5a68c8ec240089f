import Verif.Model.Len
import Verif.Props.Maps

/-!
# C83: keys hashed by their length or by a part of them are found in every borrowed form

Specification: which standard types borrow as which others, and when values of the same type are equal.
-/

namespace Frozen.Props

open Frozen.Model Frozen.Spec

variable {T V : Type}

/-- The implementations of `Borrow` in the standard library between these types, with the function that borrows.  Every type borrows as itself. -/
inductive BorrowsAs (T : Type) : (k q : KeyTy) → (k.Val T → q.Val T) → Prop
  | self (t : KeyTy) : BorrowsAs T t t id
  | string : BorrowsAs T .string .str id
  | refStr : BorrowsAs T .refStr .str id
  | cstring : BorrowsAs T .cstring .cstr id
  | osString : BorrowsAs T .osString .osStr id
  | vec : BorrowsAs T .vec .slice id
  | box (t : KeyTy) : BorrowsAs T (.box t) t id
  | rc (t : KeyTy) : BorrowsAs T (.rc t) t id
  | arc (t : KeyTy) : BorrowsAs T (.arc t) t id

/-- What a value is a sequence of: bytes for strings, elements otherwise. -/
def content : (t : KeyTy) → t.Val T → Str ⊕ List T
  | .str, s => .inl s
  | .string, s => .inl s
  | .refStr, s => .inl s
  | .cstr, s => .inl (List.dropLast (α := UInt8) s)
  | .cstring, s => .inl (List.dropLast (α := UInt8) s)
  | .osStr, s => .inl s
  | .osString, s => .inl s
  | .slice, l => .inr l
  | .vec, l => .inr l
  | .vecDeque, p => .inr (List.append (α := T) p.1 p.2)
  | .box t, v => content t v
  | .rc t, v => content t v
  | .arc t, v => content t v

/-- The number of bytes or elements. -/
def size : Str ⊕ List T → Nat
  | .inl s => s.length
  | .inr l => l.length

/-- Equality of keys, given that of the elements: equal content. -/
def sameKey (eqT : T → T → Bool) : Str ⊕ List T → Str ⊕ List T → Bool
  | .inl a, .inl b => a == b
  | .inr a, .inr b => a.length == b.length && (a.zip b).all fun p => eqT p.1 p.2
  | _, _ => false

theorem sameKey_size {eqT : T → T → Bool} {a b : Str ⊕ List T} (h : sameKey eqT a b = true) : size a = size b := by
  cases a <;> cases b <;> simp_all [sameKey, size]

theorem sameList_iff {eqT : T → T → Bool} : ∀ {a b : List T},
    (a.length == b.length && (a.zip b).all fun p => eqT p.1 p.2) = true ↔ List.Forall₂ (fun x y => eqT x y = true) a b
  | [], [] => by simp
  | [], _ :: _ => by simp
  | _ :: _, [] => by simp
  | x :: a, y :: b => by
    rw [List.forall₂_cons, ← sameList_iff]
    simp only [List.length_cons, List.zip_cons_cons, List.all_cons, Bool.and_eq_true, beq_iff_eq, Nat.add_right_cancel_iff]
    tauto

theorem sameKey_lawful {eqT : T → T → Bool} (h : LawfulEq' eqT) : LawfulEq' (sameKey eqT) where
  refl a := by
    cases a with
    | inl s => simp [sameKey]
    | inr l =>
      show (l.length == l.length && (l.zip l).all fun p => eqT p.1 p.2) = true
      rw [sameList_iff]
      exact List.forall₂_same.2 fun x _ => h.refl x
  symm a b hab := by
    cases a with
    | inl s => cases b with
      | inl s' => simp only [sameKey, beq_iff_eq] at hab ⊢; exact hab.symm
      | inr l' => simp [sameKey] at hab
    | inr l => cases b with
      | inl s' => simp [sameKey] at hab
      | inr l' =>
        have := sameList_iff.1 hab
        exact sameList_iff.2 (List.Forall₂.flip (this.imp fun x y hxy => h.symm x y hxy))
  trans a b c hab hbc := by
    cases a with
    | inl s => cases b with
      | inl s' => cases c with
        | inl s'' => simp only [sameKey, beq_iff_eq] at hab hbc ⊢; rw [hab, hbc]
        | inr l => simp [sameKey] at hbc
      | inr l' => simp [sameKey] at hab
    | inr l => cases b with
      | inl s' => simp [sameKey] at hab
      | inr l' => cases c with
        | inl s => simp [sameKey] at hbc
        | inr l'' =>
          have h1 := sameList_iff.1 hab
          have h2 := sameList_iff.1 hbc
          refine sameList_iff.2 ?_
          clear hab hbc
          induction h1 generalizing l'' with
          | nil => cases h2; exact .nil
          | cons hxy _ ih =>
            cases h2 with
            | cons hyz h2 => exact .cons (h.trans _ _ _ hxy hyz) (ih _ h2)

/-- **C83** (length).  `Len` counts the bytes or elements of a value, for all types that implement it. -/
theorem c83_len (t : KeyTy) (v : t.Val T) : t.len v = size (content t v) ∧ (t.isEmpty v = true ↔ size (content t v) = 0) := by
  have h : t.len v = size (content t v) := by
    induction t with
    | vecDeque => simp [KeyTy.len, content, size]
    | box t ih => exact ih v
    | rc t ih => exact ih v
    | arc t ih => exact ih v
    | _ => rfl
  exact ⟨h, by unfold KeyTy.isEmpty; rw [h, beq_iff_eq]⟩

theorem BorrowsAs.content {k q : KeyTy} {f : k.Val T → q.Val T} (h : BorrowsAs T k q f) (v : k.Val T) : Props.content q (f v) = Props.content k v := by
  cases h <;> rfl

/-- **C83** (lookups by length).  A hash map of any magnitude that hashes keys by their length answers according to the last entry with the same
content, whatever borrowed form of the key type is asked for. -/
theorem c83_lookup [Target] {k q : KeyTy} {f : k.Val T → q.Val T} (h : BorrowsAs T k q f) {eqT : T → T → Bool} (he : LawfulEq' eqT) {cm : Magnitude}
    {find : HbFind} (hfind : HbFindOk find) {sort : Sorter (k.Val T × V)} (hsort : SorterOk sort) (es : List (k.Val T × V))
    (hn : es.length < sizeLimit) {m : HashMap (k.Val T) V}
    (hm : HashMap.withHasher cm find sort (fun a b => sameKey eqT (content k a) (content k b)) (k.lengthHash) es = .ok (.ok m)) :
    Lookups (HashMap.impl (q.lengthHash) fun x a => sameKey eqT (content q x) (content q (f a))) m
      (fun x a => sameKey eqT (content q x) (content k a)) es := by
  simp only [h.content]
  have hl := sameKey_lawful he
  refine c01_hash_map hfind hsort (hl.comap (content k)) ⟨fun x a b hab => ?_⟩ (hK := k.len) (hQ := q.len) ⟨fun a b hab => ?_, fun x a hxa => ?_⟩ es hn hm
  · have h1 := hl.trans (content q x) (content k a) (content k b)
    have h2 := hl.trans (content k a) (content q x) (content k b)
    exact ⟨fun h => h2 (hl.symm _ _ hab) h, fun h => h1 hab h⟩
  · rw [(c83_len k a).1, (c83_len k b).1, sameKey_size hab]
  · rw [(c83_len q x).1, (c83_len k a).1, sameKey_size hxa]

/-- **C83** (parts of strings).  On every type that offers a string, and on each of its borrowed forms that does, the range hashers return the same code. -/
theorem c83_ranges {k q : KeyTy} {f : k.Val T → q.Val T} (h : BorrowsAs T k q f) (bh : Str → Nat) (r : Range) (v : k.Val T) {s s' : Str}
    (hs : k.asRefStr v = some s) (hs' : q.asRefStr (f v) = some s') :
    s = s' ∧ content k v = .inl s ∧ k.leftRangeHash bh r v = q.leftRangeHash bh r (f v) ∧ k.rightRangeHash bh r v = q.rightRangeHash bh r (f v) := by
  have key : ∀ (t : KeyTy) (v : t.Val T) {s}, t.asRefStr v = some s → content t v = .inl s := by
    intro t v s h
    unfold KeyTy.asRefStr at h
    split at h <;> first | cases h; rfl | cases h
  have hc := key k v hs
  have hc' := key q (f v) hs'
  rw [h.content, hc] at hc'
  have e : s = s' := Sum.inl.inj hc'
  refine ⟨e, hc, ?_, ?_⟩
  · unfold KeyTy.leftRangeHash; rw [hs, hs', e]
  · unfold KeyTy.rightRangeHash; rw [hs, hs', e]

/-- **C83** (lookups by a part).  The same for a hash map that hashes a part of its keys: `bytesK` and `bytesQ` are the strings that key and query
type offer. -/
theorem c83_lookup_ranges [Target] {k q : KeyTy} {f : k.Val T → q.Val T} (h : BorrowsAs T k q f) {bytesK : k.Val T → Str}
    (hk : ∀ v, k.asRefStr v = some (bytesK v)) {bytesQ : q.Val T → Str} (hq : ∀ v, q.asRefStr v = some (bytesQ v)) (bh : Str → Nat) {lo hi : Nat}
    (hr : lo ≤ hi) {cm : Magnitude} {find : HbFind} (hfind : HbFindOk find) {sort : Sorter (k.Val T × V)} (hsort : SorterOk sort)
    (es : List (k.Val T × V)) (hn : es.length < sizeLimit) :
    (∀ {m : HashMap (k.Val T) V},
      HashMap.withHasher cm find sort (fun a b => bytesK a == bytesK b) (fun v => leftRangeHash bh ⟨lo, hi⟩ (bytesK v)) es = .ok (.ok m) →
        Lookups (HashMap.impl (fun v => leftRangeHash bh ⟨lo, hi⟩ (bytesQ v)) fun x a => bytesQ x == bytesQ (f a)) m
          (fun x a => bytesQ x == bytesK a) es) ∧
    (∀ {m : HashMap (k.Val T) V},
      HashMap.withHasher cm find sort (fun a b => bytesK a == bytesK b) (fun v => rightRangeHash bh ⟨lo, hi⟩ (bytesK v)) es = .ok (.ok m) →
        Lookups (HashMap.impl (fun v => rightRangeHash bh ⟨lo, hi⟩ (bytesQ v)) fun x a => bytesQ x == bytesQ (f a)) m
          (fun x a => bytesQ x == bytesK a) es) := by
  have hf : ∀ a, bytesQ (f a) = bytesK a := fun a => ((c83_ranges h bh ⟨lo, hi⟩ a (hk a) (hq (f a))).1).symm
  simp only [hf]
  have he : LawfulEq' (fun a b : k.Val T => bytesK a == bytesK b) := strEq_lawful.comap bytesK
  have hqu : LawfulQuery (fun a b : k.Val T => bytesK a == bytesK b) (fun (x : q.Val T) a => bytesQ x == bytesK a) :=
    ⟨fun x a b hab => by simp only [beq_iff_eq] at hab ⊢; rw [hab]⟩
  have lawful : ∀ g : Str → Nat, LawfulHash (fun a b : k.Val T => bytesK a == bytesK b) (fun (x : q.Val T) a => bytesQ x == bytesK a)
      (fun v => g (bytesK v)) (fun v => g (bytesQ v)) := fun g =>
    ⟨fun a b hab => by simp only [beq_iff_eq] at hab; simp only [hab], fun x a hxa => by simp only [beq_iff_eq] at hxa; simp only [hxa]⟩
  constructor
  · simp only [leftRangeHash_ok bh ⟨lo, hi⟩ hr]
    exact fun hm => c01_hash_map hfind hsort he hqu (lawful fun s => if s.length < hi then 0 else bh (subOf true lo (hi - lo) s)) es hn hm
  · simp only [rightRangeHash_ok bh ⟨lo, hi⟩ hr]
    exact fun hm => c01_hash_map hfind hsort he hqu (lawful fun s => if s.length < hi then 0 else bh (subOf false lo (hi - lo) s)) es hn hm

/-! ## Examples -/

attribute [local instance] w64

/-- `HashMap<CString, i32, _, LengthHasher>` asked with a `&CStr`: the last entry of a key wins, and keys of the same length are told apart. -/
example : ∃ m, HashMap.withHasher .small listFind slotSort
        (fun a b => sameKey (fun x y : Nat => x == y) (content .cstring a) (content .cstring b)) (KeyTy.lengthHash (T := Nat) .cstring)
        [(([104, 105, 0] : Str), 1), ([120, 0], 2), ([104, 111, 0], 3), ([104, 105, 0], 4)] = .ok (.ok m) ∧
      (HashMap.impl (KeyTy.lengthHash (T := Nat) .cstr) fun x a => sameKey (fun x y : Nat => x == y) (content .cstr x) (content .cstr a)).get m
        ([104, 105, 0] : Str) = .ok (some 4) ∧
      (HashMap.impl (KeyTy.lengthHash (T := Nat) .cstr) fun x a => sameKey (fun x y : Nat => x == y) (content .cstr x) (content .cstr a)).get m
        ([104, 117, 0] : Str) = .ok none := by
  refine ⟨_, by cbv, ?_⟩
  have h := c83_lookup (T := Nat) (V := Nat) .cstring natEq_lawful listFind_ok slotSort_ok
    [(([104, 105, 0] : Str), 1), ([120, 0], 2), ([104, 111, 0], 3), ([104, 105, 0], 4)] (by decide) (cm := .small) (by cbv)
  exact ⟨(h.get _).trans (by decide), (h.get _).trans (by decide)⟩

/-- `HashMap<Box<str>, i32, _, RightRangeHasher>` on the last byte, asked with a `&str`. -/
example : ∃ m, HashMap.withHasher .small listFind slotSort (fun a b : Str => a == b)
        (fun v => rightRangeHash (fun s => s.sum.toNat) ⟨0, 1⟩ v) [([104, 105], 1), ([120], 2), ([104, 111], 3)] = .ok (.ok m) ∧
      (HashMap.impl (fun v => rightRangeHash (fun s => s.sum.toNat) ⟨0, 1⟩ v) fun x a : Str => x == a).get m [104, 111] = .ok (some 3) := by
  refine ⟨_, by cbv, ?_⟩
  have h := (c83_lookup_ranges (T := Nat) (V := Nat) (.box .str) (bytesK := id) (fun _ => rfl) (bytesQ := id) (fun _ => rfl) (fun s => s.sum.toNat)
    (Nat.zero_le 1) listFind_ok slotSort_ok [(([104, 105] : Str), 1), ([120], 2), ([104, 111], 3)] (by decide) (cm := .small)).2 (by cbv)
  exact (h.get _).trans (by decide)

end Frozen.Props
