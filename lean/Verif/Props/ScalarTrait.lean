import Verif.Spec
import Verif.Lemmas.Scalar
import Verif.Props.Maps

/-! # C15, C16: the `Scalar` trait -/

namespace Frozen.Props

open Frozen Frozen.Spec Frozen.Model

/-- The number a bit pattern of the type stands for. -/
def ScalarVal (signed : Bool) {w : Nat} (x : BitVec w) : Int := if signed then x.toInt else x.toNat

/-- The smallest number of a type of width `w`. -/
def minVal (signed : Bool) (w : Nat) : Int := if signed then -2 ^ (w - 1) else 0

/-- The mask flips the sign bit. -/
def MaskOk (t : ScalarTy) : Prop := 0 < t.width ∧ (t.signed = true → t.mask = 2 ^ (t.width - 1))

/-- **C15** The mask literals in the source are the sign bits of their types, on both kinds of targets, and no type is wider
than `usize`. -/
theorem c15_masks : (∀ t ∈ scalarTypes64, MaskOk t ∧ t.width ≤ 64) ∧ ∀ t ∈ scalarTypes32, MaskOk t ∧ t.width ≤ 32 := by
  unfold MaskOk scalarTypes64 scalarTypes32
  decide

/-- **C15** `index()` is the position of the value among the values of its type in increasing order, for a type of any
width up to that of `usize`. -/
theorem c15_index_is_position {p : Nat} {t : ScalarTy} (hm : MaskOk t) (hw : t.width ≤ p) (x : BitVec t.width) :
    (t.index p x : Int) = ScalarVal t.signed x - minVal t.signed t.width := by
  unfold ScalarTy.index ScalarVal minVal
  cases hs : t.signed with
  | false => simp [castUsize_of_le hw]
  | true =>
    obtain ⟨name, w, s, mask, nz⟩ := t
    obtain ⟨h0, h1⟩ := hm
    simp only at hs h0 h1 hw x ⊢
    rw [h1 hs]
    cases w with
    | zero => omega
    | succ k =>
      simp only [if_true, Nat.add_sub_cancel]
      rw [castUsize_of_le hw, flip_sign]
      omega

/-- Any type with a proper mask that fits into `usize`. -/
theorem order_embedding {p : Nat} {t : ScalarTy} (hm : MaskOk t) (hw : t.width ≤ p) (x y : BitVec t.width) :
    t.index p x < 2 ^ t.width ∧ (t.index p x < t.index p y ↔ ScalarVal t.signed x < ScalarVal t.signed y) ∧
    (t.index p x = t.index p y ↔ x = y) ∧
    (t.index p y = t.index p x + 1 ↔ ScalarVal t.signed y = ScalarVal t.signed x + 1) := by
  have hx := c15_index_is_position hm hw x
  have hy := c15_index_is_position hm hw y
  refine ⟨?_, by omega, ?_, by omega⟩
  · unfold ScalarTy.index
    split <;> (rw [castUsize_of_le hw]; exact BitVec.isLt _)
  · constructor
    · intro h
      have hv : ScalarVal t.signed x = ScalarVal t.signed y := by omega
      unfold ScalarVal at hv
      cases hs : t.signed with
      | true => rw [hs] at hv; exact BitVec.eq_of_toInt_eq hv
      | false =>
        rw [hs] at hv
        simp only [Bool.false_eq_true, if_false, Int.natCast_inj] at hv
        exact BitVec.eq_of_toNat_eq hv
    · rintro rfl; rfl

/-- **C15** For every integer type of the crate (on 64-bit targets): `index()` is below `2^width`, strictly increasing,
hence injective, and consecutive numbers have consecutive indices. -/
theorem c15_order_embedding {t : ScalarTy} (ht : t ∈ scalarTypes64) (x y : BitVec t.width) :
    t.index 64 x < 2 ^ t.width ∧ (t.index 64 x < t.index 64 y ↔ ScalarVal t.signed x < ScalarVal t.signed y) ∧
    (t.index 64 x = t.index 64 y ↔ x = y) ∧
    (t.index 64 y = t.index 64 x + 1 ↔ ScalarVal t.signed y = ScalarVal t.signed x + 1) :=
  order_embedding (c15_masks.1 t ht).1 (c15_masks.1 t ht).2 x y

/-- **C15** The same on 32-bit targets, where `usize` has 32 bits. -/
theorem c15_order_embedding_32 {t : ScalarTy} (ht : t ∈ scalarTypes32) (x y : BitVec t.width) :
    t.index 32 x < 2 ^ t.width ∧ (t.index 32 x < t.index 32 y ↔ ScalarVal t.signed x < ScalarVal t.signed y) ∧
    (t.index 32 x = t.index 32 y ↔ x = y) ∧
    (t.index 32 y = t.index 32 x + 1 ↔ ScalarVal t.signed y = ScalarVal t.signed x + 1) :=
  order_embedding (c15_masks.2 t ht).1 (c15_masks.2 t ht).2 x y

/-- Comparison of the values of an integer type. -/
def scalarCmp (t : ScalarTy) (x y : BitVec t.width) : Ordering := compare (ScalarVal t.signed x) (ScalarVal t.signed y)

theorem lawful_of_mask [Target] {p : Nat} {t : ScalarTy} (hm : MaskOk t) (hw : t.width ≤ p) (hp : p ≤ Target.width) :
    LawfulScalar (scalarCmp t) (t.index p) := by
  constructor
  · intro x y
    unfold scalarCmp
    obtain ⟨-, h1, h2, -⟩ := order_embedding hm hw x y
    obtain ⟨-, h3, -, -⟩ := order_embedding hm hw y x
    have h4 : ScalarVal t.signed x = ScalarVal t.signed y ↔ t.index p x = t.index p y := by omega
    simp only [compare, compareOfLessAndEq]
    by_cases hlt : t.index p x < t.index p y
    · rw [if_pos hlt, if_pos (h1.1 hlt)]
    · rw [if_neg hlt, if_neg (fun h => hlt (h1.2 h))]
      by_cases he : t.index p x = t.index p y
      · rw [if_pos he, if_pos (h4.2 he)]
      · rw [if_neg he, if_neg (fun h => he (h4.1 h))]
  · intro x
    obtain ⟨h1, -⟩ := order_embedding hm hw x x
    have : 2 ^ t.width ≤ 2 ^ Target.width := Nat.pow_le_pow_right (by omega) (by omega)
    unfold usizeMax
    omega

attribute [local instance] w64 in
/-- **C15** Hence every integer type meets the contract that the scalar collections (C03, C17, C19) rely on. -/
theorem c15_lawful {t : ScalarTy} (ht : t ∈ scalarTypes64) : LawfulScalar (scalarCmp t) (t.index 64) :=
  lawful_of_mask (c15_masks.1 t ht).1 (c15_masks.1 t ht).2 (Nat.le_refl _)

attribute [local instance] w32 in
/-- **C15** The same on 32-bit targets. -/
theorem c15_lawful_32 {t : ScalarTy} (ht : t ∈ scalarTypes32) : LawfulScalar (scalarCmp t) (t.index 32) :=
  lawful_of_mask (c15_masks.2 t ht).1 (c15_masks.2 t ht).2 (Nat.le_refl _)

/-- **C15** On whichever target. -/
theorem c15_lawful_target [Target] {t : ScalarTy} (ht : t ∈ scalarTypes) : LawfulScalar (scalarCmp t) (t.index Target.width) := by
  have hu := target_cases
  unfold scalarTypes at ht
  split at ht
  · exact lawful_of_mask (c15_masks.1 t ht).1 (by have := (c15_masks.1 t ht).2; omega) (Nat.le_refl _)
  · exact lawful_of_mask (c15_masks.2 t ht).1 (by have := (c15_masks.2 t ht).2; omega) (Nat.le_refl _)

/-- `i8`: -5 has index 123 and 5 has index 133; the extreme values of `i64`. -/
example : (⟨"i8", 8, true, 0x80, false⟩ : ScalarTy).index 64 (BitVec.ofInt 8 (-5)) = 123 ∧
    (⟨"i8", 8, true, 0x80, false⟩ : ScalarTy).index 64 (BitVec.ofInt 8 5) = 133 ∧
    (⟨"i64", 64, true, 0x8000000000000000, false⟩ : ScalarTy).index 64 (BitVec.intMin 64) = 0 ∧
    (⟨"i64", 64, true, 0x8000000000000000, false⟩ : ScalarTy).index 64 (BitVec.intMax 64) = 2 ^ 64 - 1 ∧
    (⟨"i64", 64, true, 0x8000000000000000, false⟩ : ScalarTy) ∈ scalarTypes64 := by
  refine ⟨by decide, by decide, by decide, by decide, by simp [scalarTypes64]⟩

/-! ## C16: the derive macro -/

/-- A non-empty enum whose variants have neither fields nor explicit discriminants. -/
def PlainEnum (d : DeriveData) (vs : List EnumVariant) : Prop :=
  d = .enum vs ∧ vs ≠ [] ∧ ∀ v ∈ vs, v.unit = true ∧ v.discriminant = none

/-- **C16** The derive macro accepts exactly the non-empty enums of unit variants without explicit discriminants. -/
theorem c16_accepts_iff (d : DeriveData) : (∃ arms, deriveScalar d = .ok arms) ↔ ∃ vs, PlainEnum d vs := by
  cases d with
  | struct => constructor
              · rintro ⟨_, ⟨⟩⟩
              · rintro ⟨_, ⟨⟩, _⟩
  | union => constructor
             · rintro ⟨_, ⟨⟩⟩
             · rintro ⟨_, ⟨⟩, _⟩
  | enum vs =>
    unfold deriveScalar PlainEnum
    cases vs with
    | nil =>
      constructor
      · rintro ⟨_, ⟨⟩⟩
      · rintro ⟨_, ⟨⟩, h, _⟩; exact absurd rfl h
    | cons v vs =>
      simp only [List.isEmpty_cons, Bool.false_eq_true, if_false]
      constructor
      · rintro ⟨arms, h⟩
        refine ⟨_, rfl, by simp, checkVariants_ok.1 ?_⟩
        cases hc : checkVariants (v :: vs) with
        | ok u => exact ⟨u, rfl⟩
        | error e => simp [hc, bind, Except.bind] at h
      · rintro ⟨ws, hw, _, hall⟩
        cases hw
        obtain ⟨u, hu⟩ := checkVariants_ok.2 hall
        exact ⟨matchArms [] (v :: vs), by simp only [hu, bind, Except.bind]⟩

/-- **C16** In an accepted enum (variant names differ, as rustc requires) the `i`-th variant has index `i`. -/
theorem c16_index {d : DeriveData} {arms : List (String × Nat)} (h : deriveScalar d = .ok arms) :
    ∃ vs, d = .enum vs ∧ ∀ (i : Nat) (v : EnumVariant), (vs.map (fun v => v.ident)).Nodup → vs[i]? = some v →
      evalMatch arms v.ident = some i := by
  obtain ⟨vs, hd, hne, hall⟩ := (c16_accepts_iff d).1 ⟨arms, h⟩
  subst hd
  refine ⟨vs, rfl, fun i v hn hv => ?_⟩
  have : arms = matchArms [] vs := by
    obtain ⟨u, hu⟩ := checkVariants_ok.2 hall
    unfold deriveScalar at h
    cases vs with
    | nil => exact absurd rfl hne
    | cons w ws =>
      simp only [List.isEmpty_cons, Bool.false_eq_true, if_false, hu, bind, Except.bind] at h
      cases h; rfl
  rw [this, matchArms_eq]
  simpa using evalMatch_zipIdx vs 0 i v hn hv

/-- **C16** Hence for an enum with the derived order (declaration order) the derived index meets the contract of the scalar
collections.  A value is given by the position of its variant. -/
theorem c16_lawful [Target] {vs : List EnumVariant} {arms : List (String × Nat)} (h : deriveScalar (.enum vs) = .ok arms)
    (hn : (vs.map (fun v => v.ident)).Nodup) (hlen : vs.length ≤ usizeMax) (index : Fin vs.length → Nat)
    (hi : ∀ i, evalMatch arms (vs[i].ident) = some (index i)) :
    LawfulScalar (fun i j : Fin vs.length => compare i.val j.val) index := by
  obtain ⟨vs', hd, hx⟩ := c16_index h
  cases hd
  have : ∀ i, index i = i.val := by
    intro i
    have h1 := hx i.val vs[i] hn (by simp)
    rw [hi i] at h1
    exact Option.some.inj h1
  constructor
  · intro a b
    rw [this, this]
  · intro a
    rw [this]
    omega

/-- An accepted enum, its indices, and rejected declarations. -/
example : deriveScalar (.enum [⟨"Red", true, none⟩, ⟨"Green", true, none⟩, ⟨"Blue", true, none⟩]) =
      .ok [("Red", 0), ("Green", 1), ("Blue", 2)] ∧
    evalMatch [("Red", 0), ("Green", 1), ("Blue", 2)] "Blue" = some 2 ∧
    deriveScalar (.enum [⟨"Red", true, none⟩, ⟨"Green", true, some 2⟩]) =
      .error "Scalar can only be used with enums that do not have explicit discriminants" ∧
    deriveScalar (.enum []) = .error "Scalar can only be used with non-empty enums" ∧
    deriveScalar .struct = .error "Scalar can only be used with enums" := by
  refine ⟨rfl, by decide, rfl, rfl, rfl⟩

end Frozen.Props
