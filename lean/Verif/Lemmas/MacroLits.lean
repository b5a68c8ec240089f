import Verif.Lemmas.Macros
import Verif.Lemmas.WellTyped
import Verif.Props.ScalarTrait

/-! # Lemmas about literal macro keys -/

namespace Frozen.Model

open Frozen Frozen.Spec Frozen.Props

variable {B Q K V : Type}

theorem ScalarType.ty_mem (t : ScalarType) : t.ty ∈ scalarTypes64 := by
  cases t <;> simp [ScalarType.ty, scalarTypes64]

theorem litMax_eq (t : ScalarType) : litMax t = t.ty.maxValue := by
  cases t <;> decide

attribute [local instance] w64 in
theorem litMax_le (t : ScalarType) : litMax t ≤ usizeMax := by
  cases t <;> decide

theorem ScalarTy.cmp_eq_scalarCmp (t : ScalarTy) : t.cmp = scalarCmp t := by
  funext x y
  unfold ScalarTy.cmp scalarCmp ScalarVal
  cases t.signed <;> rfl

/-- The number that a literal's bit pattern stands for. -/
theorem scalarVal_ofNat {t : ScalarType} {n : Nat} (hn : n ≤ litMax t) :
    ScalarVal t.ty.signed (BitVec.ofNat t.ty.width n) = n := by
  have hm : ∀ {w : Nat}, n < 2 ^ w → (BitVec.ofNat w n).toNat = n := by
    intro w h; rw [BitVec.toNat_ofNat]; exact Nat.mod_eq_of_lt h
  have hs : ∀ {w : Nat}, 2 * n < 2 ^ w → (BitVec.ofNat w n).toInt = n := by
    intro w h
    rw [BitVec.toInt_eq_toNat_of_lt (by rw [hm (by omega)]; exact h), hm (by omega)]
  unfold ScalarVal
  cases t <;> simp only [ScalarType.ty, litMax, if_true, Bool.false_eq_true, if_false] at hn ⊢ <;>
    first
    | (apply hs; omega)
    | (rw [hm (by omega)])

theorem index_literal {t : ScalarType} {n : Nat} (hn : n ≤ litMax t) {x : BitVec t.ty.width}
    (hx : ScalarVal t.ty.signed x = n) : t.ty.index 64 x = t.ty.index 64 (BitVec.ofNat t.ty.width n) := by
  obtain ⟨hm, hw⟩ := c15_masks.1 t.ty t.ty_mem
  have h1 := c15_index_is_position hm hw x
  have h2 := c15_index_is_position hm hw (BitVec.ofNat t.ty.width n)
  rw [hx] at h1
  rw [scalarVal_ofNat hn] at h2
  omega

attribute [local instance] w64 in
theorem index_span {t : ScalarType} {n k : Nat} (hn : n ≤ litMax t) (hk : k ≤ litMax t)
    (h : ¬ (n = usizeMax ∧ k = 0)) :
    t.ty.index 64 (BitVec.ofNat t.ty.width n) - t.ty.index 64 (BitVec.ofNat t.ty.width k) < usizeMax := by
  obtain ⟨hm, hw⟩ := c15_masks.1 t.ty t.ty_mem
  have h1 := c15_index_is_position hm hw (BitVec.ofNat t.ty.width n)
  have h2 := c15_index_is_position hm hw (BitVec.ofNat t.ty.width k)
  rw [scalarVal_ofNat hn] at h1
  rw [scalarVal_ofNat hk] at h2
  have := litMax_le t
  have hu : usizeMax = 18446744073709551615 := rfl
  omega

attribute [local instance] w64 in
theorem scalarTy_eq (t : ScalarType) : (fun a b => t.ty.cmp a b == Ordering.eq) = fun a b : BitVec t.ty.width => a == b := by
  funext a b
  rw [ScalarTy.cmp_eq_scalarCmp, (c15_lawful t.ty_mem).cmp]
  obtain ⟨-, -, h, -⟩ := c15_order_embedding t.ty_mem a b
  rw [Bool.eq_iff_iff]
  simp [h]

/-! ## Errors come from the options only -/

theorem Emitter.finish_not_error {α : Type} {em : Emitter} (h : ValidOptions em) (n : Nat) (gen : Generator → Res α)
    (msg : String) : em.finish n gen ≠ .ok (.error msg) := by
  unfold Emitter.finish
  rw [preflight_ok h]
  simp only [bind, Except.bind]
  cases gen (Generator.new n) with
  | error e => intro h; cases h
  | ok out => simp only [postflight_ok h]; intro h; cases h

theorem Emitter.emitHash_not_error [Target] {em : Emitter} (h : ValidOptions em) {unit : V} {find : HbFind}
    {sort : Sorter (CollectionEntry B K V)} {eqB : B → B → Bool} {fixedState : Nat → B → Nat} {seed : Nat}
    {entries : List (CollectionEntry B K V)} (msg : String) :
    em.emitHash unit find sort eqB fixedState seed entries ≠ .ok (.error msg) := by
  unfold Emitter.emitHash
  simp only [bind, Except.bind]
  cases usingHash find (em.cleanValues unit entries) (fun x => fixedState seed x.key) (fun x y => eqB x.key y.key) with
  | error e => intro h; cases h
  | ok S => exact Emitter.finish_not_error h _ _ msg

theorem Emitter.emitScalar_not_error [Target] {em : Emitter} (h : ValidOptions em) {unit : V} {b : Build}
    {sort : Sorter (CollectionEntry B K V)} {cmpB : B → B → Ordering} {index : B → Nat}
    {entries : List (CollectionEntry B K V)} (msg : String) :
    em.emitScalar unit b sort cmpB index entries ≠ .ok (.error msg) := by
  unfold Emitter.emitScalar
  simp only [bind, Except.bind]
  cases analyzeScalarKeys b ((sortedAndDedupped (em.cleanValues unit entries) (fun x y => cmpB x.key y.key)).map
      (fun x => index x.key)) with
  | error e => intro h; cases h
  | ok S => exact Emitter.finish_not_error h _ _ msg

/-! ## Typing of the code for non-literal keys -/

theorem generator_len [Target] {n : Nat} (h : n ≤ usizeMax) : UsizeLit (Generator.new n).len n :=
  numLit_iff.1 (litUsize_digits_inject h)

theorem Emitter.finish_item {α : Type} {em : Emitter} {n : Nat} {gen : Generator → Res α} {item : Item α}
    (h : em.finish n gen = .ok (.ok item)) : gen (Generator.new n) = .ok item.ctor := by
  by_cases hv : ValidOptions em
  · unfold Emitter.finish at h
    rw [preflight_ok hv] at h
    simp only [bind, Except.bind] at h
    cases hg : gen (Generator.new n) with
    | error e => rw [hg] at h; cases h
    | ok out =>
      rw [hg] at h
      simp only [postflight_ok hv] at h
      cases h
      rw [itemOf_ctor]
  · obtain ⟨msg, hm⟩ := Emitter.finish_error hv n gen
    rw [hm] at h
    cases h

theorem scanVec_typed [Target] {S : List (CollectionEntry B K V)} (h : S.length < sizeLimit) :
    WellTyped ((Generator.new S.length).genScanVec S) := by
  have hu := target_cases
  simpa [Generator.genScanVec, WellTyped] using generator_len (n := S.length) (by omega)

theorem eytzingerVec_typed [Target] {S : List (CollectionEntry B K V)} (h : S.length < sizeLimit) :
    WellTyped ((Generator.new S.length).genEytzingerVec S) := by
  have hu := target_cases
  simpa [Generator.genEytzingerVec, WellTyped] using generator_len (n := S.length) (by omega)

theorem exprEmitters_typed [Target] {em : Emitter} {S : List (CollectionEntry Unit K V)} (h : S.length < sizeLimit)
    {item : Item (Emitted K V)} :
    (em.emitHashExpr S = .ok (.ok item) → WellTyped item.ctor) ∧ (em.emitOrderedExpr S = .ok (.ok item) → WellTyped item.ctor) ∧
    (em.emitScalarExpr S = .ok (.ok item) → WellTyped item.ctor) ∧ (em.emitStringExpr S = .ok (.ok item) → WellTyped item.ctor) := by
  refine ⟨fun hi => ?_, fun hi => ?_, fun hi => ?_, fun hi => ?_⟩
  all_goals
    have hf := Emitter.finish_item hi
    have := Except.ok.inj hf
    rw [← this]
    split
    · exact scanVec_typed h
    · first
      | exact eytzingerVec_typed h
      | trivial

theorem literalEntries_length {unit : V} {parse : KeySyntax → Except String B} :
    ∀ {entries : List (MacroEntry K V)} {es : List (CollectionEntry B K V)}, literalEntries unit parse entries = .ok es →
      es.length = entries.length
  | [], es, h => by cases h; rfl
  | e :: entries, es, h => by
    simp only [literalEntries, bind, Except.bind] at h
    cases hp : parse e.key with
    | error m => rw [hp] at h; cases h
    | ok b =>
      rw [hp] at h
      simp only at h
      cases hl : literalEntries unit parse entries with
      | error m => rw [hl] at h; cases h
      | ok rest =>
        rw [hl] at h
        cases h
        simp [literalEntries_length hl]

theorem finish_options {α : Type} {em : Emitter} {n : Nat} {gen : Generator → Res α} {r : Except String (Item α)}
    (h : em.finish n gen = .ok r) :
    ((∃ msg, r = .error msg) ↔ ¬ ValidOptions em) ∧ ∀ item, r = .ok item → ItemShape em item := by
  by_cases hv : ValidOptions em
  · refine ⟨⟨?_, fun h => absurd hv h⟩, ?_⟩
    · rintro ⟨msg, rfl⟩
      exact absurd h (Emitter.finish_not_error hv _ _ _)
    · rintro item rfl
      have hg := Emitter.finish_item h
      rw [Emitter.finish_ok hv hg] at h
      have := Except.ok.inj (Except.ok.inj h)
      rw [← this]
      exact itemOf_shape hv _
  · obtain ⟨msg, hm⟩ := Emitter.finish_error hv n gen
    rw [hm] at h
    have := Except.ok.inj h
    subst this
    exact ⟨⟨fun _ => hv, fun _ => ⟨msg, rfl⟩⟩, by intro item h; cases h⟩

/-! ## Running the code for non-literal keys -/

variable {F : Type}

theorem scanVec_compile [Target] {S : List (CollectionEntry B K V)} (h : S.length < sizeLimit) (eqK : K → K → Bool) (cmp : K → K → Ordering)
    (fz : FzKind → List (K × V) → Option (Res F)) {es : List (K × V)} (hes : S.map (fun e => e.toTokens) = es) :
    ((Generator.new S.length).genScanVec S).compile eqK cmp fz = some (inlRes (InlineMap.scanNew es.length eqK es)) := by
  have hu := target_cases
  have hl : es.length = S.length := by rw [← hes, List.length_map]
  unfold Generator.genScanVec
  rw [hes]
  show (litUsize (Generator.new S.length).len).map (fun n => inlRes (InlineMap.scanNew n eqK es)) = _
  rw [show litUsize (Generator.new S.length).len = some S.length from litUsize_digits_inject (by omega), hl]
  rfl

theorem eytzingerVec_compile [Target] {S : List (CollectionEntry B K V)} (h : S.length < sizeLimit) (eqK : K → K → Bool) (cmp : K → K → Ordering)
    (fz : FzKind → List (K × V) → Option (Res F)) {es : List (K × V)} (hes : S.map (fun e => e.toTokens) = es) :
    ((Generator.new S.length).genEytzingerVec S).compile eqK cmp fz = some (inlRes (InlineMap.eytzingerNew es.length cmp es)) := by
  have hu := target_cases
  have hl : es.length = S.length := by rw [← hes, List.length_map]
  unfold Generator.genEytzingerVec
  rw [hes]
  show (litUsize (Generator.new S.length).len).map (fun n => inlRes (InlineMap.eytzingerNew n cmp es)) = _
  rw [show litUsize (Generator.new S.length).len = some S.length from litUsize_digits_inject (by omega), hl]
  rfl

end Frozen.Model
