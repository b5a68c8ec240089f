import Verif.Lemmas.Narrow
import Verif.Props.Emit

/-! # C57: code generated on one machine and run on another -/

namespace Frozen.Props

open Frozen Frozen.Spec Frozen.Model

/-- `e` as compiled for the target `t`. -/
local macro "on(" t:term ") " e:term : term => `(letI : Target := $t; $e)

variable {B Q K V : Type}

/-! ## Hash collections -/

/-- **C57** (`emit_hash_collection`, full picture).  The entries are placed by the host's hash function.  Compiled for a target of any width with another hash
function, an emitted map finds the entry of a query if and only if both functions select the same slot for it. -/
theorem c57_emit_hash {host target : Target} {t : QueryTraits Q K} {em : Emitter} (hv : ValidOptions em) {unit : V} {find : HbFind} (hfind : HbFindOk find)
    {sort : Sorter (CollectionEntry B K V)} (hsort : SorterOk sort) {eqB : B → B → Bool} (heB : LawfulEq' eqB)
    {eqK : K → K → Bool} (he : LawfulEq' eqK) (hq : LawfulQuery eqK t.equivalent) {fixedState : Nat → B → Nat} {seed : Nat}
    (hseed : seed < 2 ^ 64) (hB : ∀ a b, eqB a b = true → fixedState seed a = fixedState seed b) {hk : K → Nat}
    (hh : LawfulHash eqK t.equivalent hk (t.fixedState seed)) {entries : List (CollectionEntry B K V)}
    (hag : ∀ x ∈ entries, ∀ y ∈ entries, eqB x.key y.key = eqK x.keyExpr y.keyExpr)
    (hhash : ∀ x ∈ entries, hk x.keyExpr = fixedState seed x.key) (hn : entries.length < on(host) sizeLimit)
    (hn' : entries.length < on(target) sizeLimit) :
    on(target) EmitsOnTarget t (written em unit entries) (on(host) em.emitHash unit find sort eqB fixedState seed entries) := by
  have := Emitter.emitHash_port (t := host) (t' := target) em unit find hsort eqB fixedState seed hn hn'
  simp only [this]
  exact on(target) EmitsGood.onTarget (Emitter.emitHash_spec hfind hsort heB he hseed hB hh hag hhash hn') hv he hq

/-- **C57** (`emit_string_collection`, full picture). -/
theorem c57_emit_string {host target : Target} {t : QueryTraits Q K} {em : Emitter} (hv : ValidOptions em) {unit : V}
    {sort : Sorter (CollectionEntry Str K V)} (hsort : SorterOk sort) {fsStr fsSlice : Nat → Str → Nat} {seed : Nat}
    (hseed : seed < 2 ^ 64) {bytesK : K → Str} (heqv : t.equivalent = fun q k => t.bytes q == bytesK k)
    (hstr : ∀ q, t.fixedState seed q = fsStr seed (t.bytes q)) (hslice : t.fixedStateSlice seed = fsSlice seed)
    {entries : List (CollectionEntry Str K V)} (hag : ∀ x ∈ entries, bytesK x.keyExpr = x.key)
    (hn : entries.length < on(host) sizeLimit) (hn' : entries.length < on(target) sizeLimit)
    (hkl : ∀ x ∈ entries, x.key.length ≤ on(host) usizeMax) (hkl' : ∀ x ∈ entries, x.key.length ≤ on(target) usizeMax) :
    on(target) EmitsOnTarget t (written em unit entries) (on(host) em.emitString unit sort fsStr fsSlice seed entries) := by
  have := Emitter.emitString_port (t := host) (t' := target) em unit hsort fsStr fsSlice seed hn hn' hkl hkl'
  simp only [this]
  exact on(target) EmitsGood.onTarget (Emitter.emitString_spec hsort hseed heqv hstr hslice hag hn' hkl') hv (strEq_lawful.comap bytesK)
    (by rw [heqv]; exact ⟨fun q a b h => by simp only [beq_iff_eq] at h ⊢; rw [h]⟩)

/-- The hash functions of a target that disagree with those of `demoEnv` and `strTraits`. -/
def otherTraits : QueryTraits Str Str :=
  withHash strTraits (fun seed x => strTraits.fixedState seed x + 1) (fun seed x => strTraits.fixedStateSlice seed x + 1)

/-- Five string literals. -/
def fiveStrings : List (MacroEntry Str Nat) :=
  [⟨.lit (.str [97]), [97], some 1⟩, ⟨.lit (.str [98]), [98], some 2⟩, ⟨.lit (.str [99]), [99], some 3⟩,
   ⟨.lit (.str [100]), [100], some 4⟩, ⟨.lit (.str [101]), [101], some 5⟩]

/-- The map of the five strings. -/
def fiveMap : InlineMap Str Nat where
  sz := 5
  repr := .hash (.bridge 42) (HashMap.mk (HashTable.mk
    [⟨0, 0⟩, ⟨0, 0⟩, ⟨0, 0⟩, ⟨0, 0⟩, ⟨0, 0⟩, ⟨0, 5⟩, ⟨0, 0⟩, ⟨0, 0⟩] [([97], 1), ([98], 2), ([99], 3), ([100], 4), ([101], 5)] 7))

/-- **C57** (refuted for string literals)  On a target (of any width) where `FixedState` computes other hashes than on the host, a map written with a macro does
not find the keys that are written in it. -/
theorem c57_strings_refuted [Target] : ∃ item m, fzMacro (demoEnv Str Nat 0) true .short .string fiveStrings = .ok (.ok item) ∧
    item.ctor.compile (F := Unit) (fun _ _ => false) (fun _ _ => .eq) (fun _ _ => none) = some (.ok (.inl m)) ∧
    (∀ e ∈ fiveStrings, (InlineMap.impl strTraits).get m e.keyValue = .ok e.value) ∧
    ∀ e ∈ fiveStrings, (InlineMap.impl otherTraits).get m e.keyValue = .ok none := by
  refine ⟨.expr (.hash "5".toList "8".toList .small
      [("0".toList, "0".toList), ("0".toList, "0".toList), ("0".toList, "0".toList), ("0".toList, "0".toList), ("0".toList, "0".toList),
       ("0".toList, "5".toList), ("0".toList, "0".toList), ("0".toList, "0".toList)]
      [([97], 1), ([98], 2), ([99], 3), ([100], 4), ([101], 5)] (.bridge "42u64".toList)),
    fiveMap, ?_, ?_, ?_, ?_⟩
  · cbv
  · rename_i t
    rcases t with ⟨w, rfl | rfl⟩ <;> cbv
  · simp only [fiveStrings, List.forall_mem_cons]
    decide
  · simp only [fiveStrings, List.forall_mem_cons]
    decide

/-! ## Code that is compiled for a target of another width -/

/-- **C57** (code for another target)  Code that is right for the host compiles for another target if and only if all `usize` literals fit; and
then it means the same as on the host. -/
theorem c57_compiles_iff {host target : Target} {e : Emitted K V} (hw : on(host) WellTyped e) {F : Type} {eqK : K → K → Bool}
    {cmp : K → K → Ordering} {fz : FzKind → List (K × V) → Option (Res F)} (hfz : ∀ kind es, e = .fz kind es → (fz kind es).isSome) :
    ((on(target) e.compile eqK cmp fz).isSome ↔ FitsTarget target.width e) ∧
      (FitsTarget target.width e → (on(target) e.compile eqK cmp fz) = on(host) e.compile eqK cmp fz) := by
  have h2 : FitsTarget target.width e → (on(target) e.compile eqK cmp fz) = on(host) e.compile eqK cmp fz :=
    fun hf => Emitted.compile_narrow hw hf
  refine ⟨⟨fun h => ?_, fun hf => ?_⟩, h2⟩
  · by_contra hf
    have := Emitted.compile_unfit (t' := target) (eqK := eqK) (cmp := cmp) (fz := fz) hf
    simp only [this] at h
    cases h
  · rw [h2 hf]
    exact on(host) compile_of_wellTyped hw hfz

theorem EmitsMap.narrow {t t' : Target} {q : QueryTraits Q K} {em : Emitter} {eqK : K → K → Bool} {mt : Q → K → Bool} {es : List (K × V)}
    {r : Res (Except String (Item (Emitted K V)))} (h : on(t) EmitsMap q em eqK mt es r)
    (hw : ∀ item, r = .ok (.ok item) → (on(t) WellTyped item.ctor) ∧ FitsTarget t'.width item.ctor) : on(t') EmitsMap q em eqK mt es r := by
  obtain ⟨item, m, h1, h2, h3, h4⟩ := h
  obtain ⟨h5, h6⟩ := hw item h1
  exact ⟨item, m, h1, h2, fun F eq' cmp' fz => (Emitted.compile_narrow h5 h6).trans (h3 F eq' cmp' fz), h4⟩

/-! ## Scalar collections -/

attribute [local instance] w64

theorem c57_index_agrees {t : ScalarType} {t' : ScalarTy} (ht' : t' ∈ scalarTypes32) (hname : t'.name = t.ty.name) (hi : t ≠ .isize) {n : Nat}
    {x : BitVec t'.width} (hx : ScalarVal t'.signed x = n) :
    n ≤ litMax t ∧ t'.index 32 x = t.ty.index 64 (BitVec.ofNat t.ty.width n) ∧ t'.index 32 x < 2 ^ 32 := by
  obtain ⟨hm', hw'⟩ := c15_masks.2 t' ht'
  obtain ⟨hm, hw⟩ := c15_masks.1 t.ty t.ty_mem
  have h1 := c15_index_is_position hm' hw' x
  have h2 := c15_index_is_position hm hw (BitVec.ofNat t.ty.width n)
  have h3 := (c15_order_embedding_32 ht' x x).1
  rw [hx] at h1
  have hle : n ≤ litMax t := by
    have h4 : minVal t'.signed t'.width + 2 ^ t'.width ≤ litMax t + 1 ∧ (2 : Int) ^ t'.width = ((2 ^ t'.width : Nat) : Int) := by
      refine ⟨?_, by simp⟩
      simp only [scalarTypes32, List.mem_cons, List.not_mem_nil, or_false] at ht'
      rcases ht' with rfl | rfl | rfl | rfl | rfl | rfl | rfl | rfl | rfl | rfl | rfl | rfl | rfl | rfl | rfl | rfl <;>
        cases t <;> first | (exact absurd rfl hi) | (exact absurd hname (by decide)) | decide
    omega
  rw [scalarVal_ofNat hle] at h2
  have h5 : minVal t'.signed t'.width = minVal t.ty.signed t.ty.width := by
    simp only [scalarTypes32, List.mem_cons, List.not_mem_nil, or_false] at ht'
    rcases ht' with rfl | rfl | rfl | rfl | rfl | rfl | rfl | rfl | rfl | rfl | rfl | rfl | rfl | rfl | rfl | rfl <;>
      cases t <;> first | (exact absurd rfl hi) | (exact absurd hname (by decide)) | decide
  have h6 : 2 ^ t'.width ≤ 2 ^ 32 := Nat.pow_le_pow_right (by omega) hw'
  refine ⟨hle, by omega, by omega⟩

/-- **C57** (scalar literals)  On a 32-bit target, a collection of integer literals that a 64-bit host generated compiles and behaves as written, except
for `isize` keys.  `t'` is the target's implementation of `Scalar` for the key type (there is none for `u64` and `i64`). -/
theorem c57_scalars_partial {t : ScalarType} {t' : ScalarTy} (ht' : t' ∈ scalarTypes32) (hname : t'.name = t.ty.name) (hi : t ≠ .isize)
    {env : MacroEnv (BitVec t'.width) V} (hsort : SorterOk (env.sortScalar t.ty))
    {isMap : Bool} {form : MacroForm} {kind : MacroKind} {entries : List (MacroEntry (BitVec t'.width) V)} (hne : entries ≠ [])
    (hk : AllInts kind (entries.map (fun e => e.key)) t)
    (hval : ∀ e ∈ entries, ∀ n s, KeyIs e.key (.int n s) → ScalarVal t'.signed e.keyValue = n)
    (hn : entries.length < 2 ^ 28) {q : QueryTraits Q (BitVec t'.width)} (heqv : q.equivalent = scalarMatch (t'.index 32) q.index) :
    on(w32) EmitsMap q { form.emitter isMap with constKeys := true, constValues := true } (fun a b => a == b) q.equivalent
      (macroWritten isMap env.unit entries) (fzMacro env isMap form kind entries) := by
  have hint : ∀ e ∈ entries, ∃ n s, KeyIs e.key (.int n s) := by
    intro e he
    obtain ⟨n, s, h, -⟩ := hk.2.1 e.key (List.mem_map_of_mem he)
    exact ⟨n, s, h⟩
  have hagree : ∀ e ∈ entries, intOf e.key ≤ litMax t ∧
      t'.index 32 e.keyValue = t.ty.index 64 (BitVec.ofNat t.ty.width (intOf e.key)) ∧ t'.index 32 e.keyValue < 2 ^ 32 := by
    intro e he
    obtain ⟨n, s, h⟩ := hint e he
    rw [intOf_eq h]
    exact c57_index_agrees ht' hname hi (hval e he n s h)
  have hp : ∀ e ∈ entries, parseInt t.ty e.key = .ok (BitVec.ofNat t.ty.width (intOf e.key)) := by
    intro e he
    obtain ⟨n, s, h⟩ := hint e he
    refine parseInt_ok h ?_
    rw [← litMax_eq, ← intOf_eq h]; exact (hagree e he).1
  have ha := (c42_classes (by simpa using hne)).1 t |>.2 hk
  unfold fzMacro
  rw [process_of_assess hne ha]
  show on(w32) EmitsMap _ _ _ _ _ (handleLiteralScalarKeys env (form.emitter isMap) t.ty entries)
  unfold handleLiteralScalarKeys
  rw [literalEntries_ok hp]
  simp only
  have hl := c15_lawful t.ty_mem
  rw [← ScalarTy.cmp_eq_scalarCmp] at hl
  have hl' := lawful_of_mask (c15_masks.2 t' ht').1 (c15_masks.2 t' ht').2 (by decide)
  have hu := limits_w64
  have hidx : ∀ x ∈ entries.map (fun e => e.toCollection env.unit (BitVec.ofNat t.ty.width (intOf e.key))),
      t'.index 32 x.keyExpr = t.ty.index 64 x.key ∧ t.ty.index 64 x.key < 2 ^ 32 := by
    intro x hx
    obtain ⟨e, he, rfl⟩ := List.mem_map.1 hx
    obtain ⟨-, h1, h2⟩ := hagree e he
    exact ⟨h1, h1 ▸ h2⟩
  have heq : (fun a b : BitVec t'.width => scalarCmp t' a b == Ordering.eq) = fun a b => a == b := by
    funext a b
    rw [hl'.cmp]
    obtain ⟨-, -, h, -⟩ := c15_order_embedding_32 ht' a b
    rw [Bool.eq_iff_iff]
    simp [h]
  refine EmitsMap.narrow (t := w64) ?_ ?_
  · have key := c37_emit_scalar (t := q) (form_valid isMap form true true) (unit := env.unit) env.build hsort hl hl' heqv
      (entries := entries.map (fun e => e.toCollection env.unit (BitVec.ofNat t.ty.width (intOf e.key))))
      (fun x hx => (hidx x hx).1) (by simp only [List.length_map]; omega) (by
        intro x hx y hy
        have := (hidx x hx).2
        omega)
    have hw := written_macro (f := fun e => BitVec.ofNat t.ty.width (intOf e.key))
      (em := { form.emitter isMap with constKeys := true, constValues := true }) (form_hasValueType isMap form) env.unit entries
    rw [heq] at key
    unfold written at key
    rw [hw] at key
    rw [heqv]
    exact key
  · intro item hitem
    refine ⟨Emitter.emitScalar_typed hsort hl (by simp only [List.length_map]; omega) hitem, fun tok htok => ?_⟩
    obtain ⟨n, h1, h2⟩ := (Emitter.emitScalar_lits hsort hl (by simp only [List.length_map]; omega) hitem).1 tok htok
    obtain ⟨suf, h3, h4, -⟩ := h1
    refine ⟨n, suf, h3, h4, ?_⟩
    rw [List.length_map] at h2
    show n ≤ 2 ^ 32 - 1
    rcases h2 with h2 | h2 | ⟨-, x, hx, rfl⟩
    · omega
    · omega
    · have := (hidx x hx).2
      omega

/-- **C57** (refuted for `isize`)  A lookup table that a 64-bit host generates for `isize` literals never compiles on a 32-bit target, although
the literals are small numbers. -/
theorem c57_isize_refuted {env : MacroEnv K V} (hsort : SorterOk (env.sortScalar ScalarType.isize.ty)) {isMap : Bool} {form : MacroForm}
    {kind : MacroKind} {entries : List (MacroEntry K V)} (hne : entries ≠ []) (hk : AllInts kind (entries.map (fun e => e.key)) .isize)
    (hn : entries.length < 2 ^ 56) {item : Item (Emitted K V)} (h : fzMacro env isMap form kind entries = .ok (.ok item))
    (hl : IsLookup item.ctor) {F : Type} {eqK : K → K → Bool} {cmp : K → K → Ordering}
    {fz : FzKind → List (K × V) → Option (Res F)} : (on(w32) item.ctor.compile eqK cmp fz) = none := by
  refine Emitted.compile_unfit (t' := w32) fun hfit => ?_
  have hmax : ∀ e ∈ entries, ∀ n s, KeyIs e.key (.int n s) → n ≤ litMax .isize := by
    intro e he n s hke
    by_contra hgt
    obtain ⟨msg, hm⟩ := (c42_macro_error_iff env isMap form kind entries).2 (.inr (.inr ⟨.isize, hk, e, he, n, s, hke, by omega⟩))
    rw [hm] at h
    cases h
  have hint : ∀ e ∈ entries, ∃ n s, KeyIs e.key (.int n s) := by
    intro e he
    obtain ⟨n, s, h, -⟩ := hk.2.1 e.key (List.mem_map_of_mem he)
    exact ⟨n, s, h⟩
  have hp : ∀ e ∈ entries, parseInt ScalarType.isize.ty e.key = .ok (BitVec.ofNat ScalarType.isize.ty.width (intOf e.key)) := by
    intro e he
    obtain ⟨n, s, h⟩ := hint e he
    exact parseInt_ok h (by rw [← litMax_eq]; exact hmax e he n s h)
  have ha := (c42_classes (by simpa using hne)).1 .isize |>.2 hk
  unfold fzMacro at h
  rw [process_of_assess hne ha] at h
  change handleLiteralScalarKeys env (form.emitter isMap) ScalarType.isize.ty entries = _ at h
  unfold handleLiteralScalarKeys at h
  rw [literalEntries_ok hp] at h
  simp only at h
  have hlaw := c15_lawful ScalarType.isize.ty_mem
  rw [← ScalarTy.cmp_eq_scalarCmp] at hlaw
  obtain ⟨tok, htok, x, hx, hlit⟩ := (Emitter.emitScalar_lits hsort hlaw (by simpa using hn) h).2.1 hl
  obtain ⟨e, he, rfl⟩ := List.mem_map.1 hx
  obtain ⟨n, s, hke⟩ := hint e he
  obtain ⟨hm, hw⟩ := c15_masks.1 ScalarType.isize.ty ScalarType.isize.ty_mem
  have h2 := c15_index_is_position hm hw (BitVec.ofNat ScalarType.isize.ty.width (intOf e.key))
  rw [intOf_eq hke, scalarVal_ofNat (hmax e he n s hke)] at h2
  change UsizeLit tok (ScalarType.isize.ty.index 64 (BitVec.ofNat ScalarType.isize.ty.width (intOf e.key))) at hlit
  rw [intOf_eq hke] at hlit
  obtain ⟨suf, h3, -⟩ := hlit
  obtain ⟨k, suf', h4, -, h5⟩ := hfit tok htok
  rw [h3] at h4
  simp only [Option.some.injEq, Prod.mk.injEq] at h4
  have h6 : minVal ScalarType.isize.ty.signed ScalarType.isize.ty.width = -9223372036854775808 := by decide
  have h7 : k ≤ 2 ^ 32 - 1 := h5
  omega

/-- **C57** (`isize` on a 32-bit target, exact boundary)  A collection of `isize` literals that a 64-bit host generated compiles and behaves as written
on a 32-bit target exactly if the host did not choose a lookup table. -/
theorem c57_isize_partial {t' : ScalarTy} (ht' : t' ∈ scalarTypes32) (hname : t'.name = "isize")
    {env : MacroEnv (BitVec t'.width) V} (hsort : SorterOk (env.sortScalar ScalarType.isize.ty))
    {isMap : Bool} {form : MacroForm} {kind : MacroKind} {entries : List (MacroEntry (BitVec t'.width) V)} (hne : entries ≠ [])
    (hk : AllInts kind (entries.map (fun e => e.key)) .isize)
    (hval : ∀ e ∈ entries, ∀ n s, KeyIs e.key (.int n s) → ScalarVal t'.signed e.keyValue = n)
    (hn : entries.length < 2 ^ 28) {q : QueryTraits Q (BitVec t'.width)} (heqv : q.equivalent = scalarMatch (t'.index 32) q.index) :
    ∃ item, fzMacro env isMap form kind entries = .ok (.ok item) ∧
      ((on(w32) EmitsMap q { form.emitter isMap with constKeys := true, constValues := true } (fun a b => a == b) q.equivalent
        (macroWritten isMap env.unit entries) (fzMacro env isMap form kind entries)) ↔ ¬ IsLookup item.ctor) := by
  have hint : ∀ e ∈ entries, ∃ n s, KeyIs e.key (.int n s) := by
    intro e he
    obtain ⟨n, s, h, -⟩ := hk.2.1 e.key (List.mem_map_of_mem he)
    exact ⟨n, s, h⟩
  obtain ⟨hm', hw'⟩ := c15_masks.2 t' ht'
  obtain ⟨hm, hw⟩ := c15_masks.1 ScalarType.isize.ty ScalarType.isize.ty_mem
  have hmin : minVal ScalarType.isize.ty.signed ScalarType.isize.ty.width = -9223372036854775808 := by decide
  have hmin' : minVal t'.signed t'.width = -2147483648 ∧ t'.width = 32 := by
    simp only [scalarTypes32, List.mem_cons, List.not_mem_nil, or_false] at ht'
    rcases ht' with rfl | rfl | rfl | rfl | rfl | rfl | rfl | rfl | rfl | rfl | rfl | rfl | rfl | rfl | rfl | rfl <;>
      first | (exact absurd hname (by decide)) | decide
  have hlt32 : ∀ x : BitVec t'.width, t'.index 32 x < 2 ^ 32 := by
    intro x
    have := (c15_order_embedding_32 ht' x x).1
    have h6 : 2 ^ t'.width ≤ 2 ^ 32 := Nat.pow_le_pow_right (by omega) hw'
    omega
  have hagree : ∀ e ∈ entries, intOf e.key ≤ litMax .isize ∧
      t'.index 32 e.keyValue + 9223372034707292160 = ScalarType.isize.ty.index 64 (BitVec.ofNat ScalarType.isize.ty.width (intOf e.key)) := by
    intro e he
    obtain ⟨n, s, h⟩ := hint e he
    rw [intOf_eq h]
    have h1 := c15_index_is_position hm' hw' e.keyValue
    have h2 := c15_index_is_position hm hw (BitVec.ofNat ScalarType.isize.ty.width n)
    have h3 := hlt32 e.keyValue
    have h4 : litMax .isize = 9223372036854775807 := by decide
    rw [hval e he n s h] at h1
    have hle : n ≤ litMax .isize := by omega
    rw [scalarVal_ofNat hle] at h2
    exact ⟨hle, by omega⟩
  have hp : ∀ e ∈ entries, parseInt ScalarType.isize.ty e.key = .ok (BitVec.ofNat ScalarType.isize.ty.width (intOf e.key)) := by
    intro e he
    obtain ⟨n, s, h⟩ := hint e he
    refine parseInt_ok h ?_
    rw [← litMax_eq, ← intOf_eq h]; exact (hagree e he).1
  have ha := (c42_classes (by simpa using hne)).1 .isize |>.2 hk
  have hmac : fzMacro env isMap form kind entries = handleLiteralScalarKeys env (form.emitter isMap) ScalarType.isize.ty entries := by
    unfold fzMacro
    rw [process_of_assess hne ha]
    rfl
  have hl := c15_lawful ScalarType.isize.ty_mem
  rw [← ScalarTy.cmp_eq_scalarCmp] at hl
  have hu := limits_w64
  have hl' : LawfulScalar (scalarCmp t') (fun x => t'.index 32 x + 9223372034707292160) := by
    have h := lawful_of_mask hm' hw' (show 32 ≤ Target.width by decide)
    refine ⟨fun a b => ?_, fun a => ?_⟩
    · rw [h.cmp, Nat.compare_eq_ite_lt, Nat.compare_eq_ite_lt]
      simp only [Nat.add_lt_add_iff_right]
    · have := hlt32 a
      omega
  have heqv' : (shiftIndex q 9223372034707292160).equivalent =
      scalarMatch (fun x => t'.index 32 x + 9223372034707292160) (shiftIndex q 9223372034707292160).index := by
    show q.equivalent = _
    rw [heqv]
    funext a b
    show (q.index a == t'.index 32 b) = (q.index a + 9223372034707292160 == t'.index 32 b + 9223372034707292160)
    rw [Bool.eq_iff_iff]
    simp
  have heq : (fun a b : BitVec t'.width => scalarCmp t' a b == Ordering.eq) = fun a b => a == b := by
    funext a b
    rw [(lawful_of_mask hm' hw' (show 32 ≤ Target.width by decide)).cmp]
    obtain ⟨-, -, h, -⟩ := c15_order_embedding_32 ht' a b
    rw [Bool.eq_iff_iff]
    simp [h]
  have hidx : ∀ x ∈ entries.map (fun e => e.toCollection env.unit (BitVec.ofNat ScalarType.isize.ty.width (intOf e.key))),
      t'.index 32 x.keyExpr + 9223372034707292160 = ScalarType.isize.ty.index 64 x.key := by
    intro x hx
    obtain ⟨e, he, rfl⟩ := List.mem_map.1 hx
    exact (hagree e he).2
  have good := Emitter.emitScalar_spec (t := shiftIndex q 9223372034707292160)
    (em := { form.emitter isMap with constKeys := true, constValues := true }) (unit := env.unit) env.build hsort hl hl' heqv'
    (entries := entries.map (fun e => e.toCollection env.unit (BitVec.ofNat ScalarType.isize.ty.width (intOf e.key))))
    hidx (by simp only [List.length_map]; omega) (by
      intro x hx y hy
      have h1 := hidx x hx
      have h2 := hlt32 x.keyExpr
      omega)
  have hw := written_macro (f := fun e => BitVec.ofNat ScalarType.isize.ty.width (intOf e.key))
    (em := { form.emitter isMap with constKeys := true, constValues := true }) (form_hasValueType isMap form) env.unit entries
  rw [← heqv', heq, hw] at good
  unfold handleLiteralScalarKeys at hmac
  rw [literalEntries_ok hp] at hmac
  simp only at hmac
  obtain ⟨out, h1, m, h2, h3, h4⟩ := good.outcome.2 (form_valid isMap form true true)
  have hitem := hmac.trans h1
  refine ⟨_, hitem, ?_⟩
  have typed := Emitter.emitScalar_typed hsort hl (by simp only [List.length_map]; omega) h1
  obtain ⟨lits, -, shape⟩ := Emitter.emitScalar_lits hsort hl (by simp only [List.length_map]; omega) h1
  rw [List.length_map] at lits
  rw [itemOf_ctor] at typed lits shape ⊢
  constructor
  · rintro ⟨item, m', g1, -, g3, -⟩ hlook
    have := c57_isize_refuted hsort hne hk (by omega) (hitem) (by rw [itemOf_ctor]; exact hlook) (F := Unit) (eqK := fun _ _ => true)
      (cmp := fun _ _ => .eq) (fz := fun _ _ => none)
    rw [hitem] at g1
    cases g1
    rw [g3] at this
    cases this
  · intro hno
    have hs := shape.resolve_left hno
    have fits : FitsTarget 32 out := by
      intro tok htok
      obtain ⟨n, ⟨suf, f3, f4, -⟩, f2⟩ := lits tok htok
      refine ⟨n, suf, f3, f4, ?_⟩
      rcases f2 with f2 | f2 | f2
      · omega
      · omega
      · exact absurd f2.1 hno
    have hrepr := Emitted.compile_scansOrHashes hs typed (h2 Unit (fun _ _ => true) (fun _ _ => .eq) (fun _ _ => none))
      (c := 9223372034707292160) (by
        intro tok htok k hlit
        obtain ⟨n, ⟨suf, f3, f4, -⟩, f2⟩ := lits tok htok
        obtain ⟨suf', f5, -⟩ := hlit
        rw [f3] at f5
        simp only [Option.some.injEq, Prod.mk.injEq] at f5
        have hk31 : k ≤ 31 := by
          by_contra hgt
          have : 2 ^ 32 ≤ 2 ^ k := Nat.pow_le_pow_right (by omega) (by omega)
          rcases f2 with f2 | f2 | f2
          · omega
          · omega
          · exact absurd f2.1 hno
        have : 9223372034707292160 = 2 ^ k * (2 ^ (31 - k) * 4294967295) := by
          rw [← Nat.mul_assoc, ← Nat.pow_add, Nat.add_sub_cancel' hk31]
        rw [this, Nat.mul_mod_right])
    have hinv := h3.unshift (t' := w32) (fun a b h => eq_of_beq h) hrepr
    have lawE : LawfulEq' (fun a b : BitVec t'.width => a == b) := heq ▸ LawfulCmp'.eqLawful hl'.lawfulCmp
    have lawQ : LawfulQuery (fun a b : BitVec t'.width => a == b) q.equivalent := by
      have := hl'.query (shiftIndex q 9223372034707292160).index
      rw [← heqv', heq] at this
      exact this
    rw [hitem]
    refine on(w32) EmitsGood.behaves (?_ : on(w32) EmitsGood q _ _ _ _ _) (form_valid isMap form true true) ?_ ?_
    · obtain ⟨n, gen, out', k1, k2, -⟩ := good
      rw [h1] at k1
      have := Emitter.finish_inv k1.symm
      rw [itemOf_ctor, k2] at this
      cases this
      exact ⟨n, gen, out, k1, k2, m, fun F eq' cmp fz => (Emitted.compile_narrow typed fits).trans (h2 F eq' cmp fz), hinv, h4⟩
    · exact lawE
    · exact lawQ

/-- Query traits of `usize` on a 32-bit target. -/
def usize32 : QueryTraits (BitVec 32) (BitVec 32) where
  equivalent := scalarMatch ((⟨"usize", 32, false, 0, false⟩ : ScalarTy).index 32) ((⟨"usize", 32, false, 0, false⟩ : ScalarTy).index 32)
  compare _ _ := .eq
  index := (⟨"usize", 32, false, 0, false⟩ : ScalarTy).index 32
  fixedState _ _ := 0
  bytes _ := []
  fixedStateSlice _ _ := 0

/-- `{ 7usize: "a", 8: "b", 4_294_967_295: "c" }` on a 32-bit target. -/
example : ∃ item m, fzMacro (demoEnv (BitVec 32) String "") true .short .scalar
        [⟨.lit (.int 7 "usize"), 7, some "a"⟩, ⟨.lit (.int 8 ""), 8, some "b"⟩, ⟨.lit (.int 4294967295 ""), 4294967295, some "c"⟩] = .ok (.ok item) ∧
      (on(w32) item.ctor.compile (F := Unit) (fun _ _ => false) (fun _ _ => .eq) (fun _ _ => none)) = some (.ok (.inl m)) ∧
      (InlineMap.impl usize32).get m 4294967295 = .ok (some "c") ∧ (InlineMap.impl usize32).get m 9 = .ok none := by
  obtain ⟨item, m, h1, -, h3, h4⟩ := c57_scalars_partial (t := .usize) (t' := ⟨"usize", 32, false, 0, false⟩) (by simp [scalarTypes32]) rfl (by decide)
    (env := demoEnv (BitVec 32) String "") slotSort_ok (isMap := true) (form := .short) (kind := .scalar)
    (entries := [⟨.lit (.int 7 "usize"), 7, some "a"⟩, ⟨.lit (.int 8 ""), 8, some "b"⟩, ⟨.lit (.int 4294967295 ""), 4294967295, some "c"⟩])
    (by simp) ((c42_classes (by simp)).1 .usize |>.1 rfl)
    (by
      intro e he n s h
      simp only [List.mem_cons, List.not_mem_nil, or_false] at he
      rcases he with rfl | rfl | rfl <;> cases h <;> decide)
    (by decide) (q := usize32) rfl
  refine ⟨item, m, h1, h3 _ _ _ _, ?_, ?_⟩
  · exact (h4.lookups.get 4294967295).trans (by decide)
  · exact (h4.lookups.get 9).trans (by decide)

/-- `{ 1isize: 'a', 2: 'b', 3: 'c' }` becomes a dense lookup table with a lower bound above 2^63. -/
example : ∃ item, fzMacro (demoEnv (BitVec 32) Char ' ') true .short .scalar
        [⟨.lit (.int 1 "isize"), 1, some 'a'⟩, ⟨.lit (.int 2 ""), 2, some 'b'⟩, ⟨.lit (.int 3 ""), 3, some 'c'⟩] = .ok (.ok item) ∧
      IsLookup item.ctor ∧ (on(w32) item.ctor.compile (F := Unit) (fun _ _ => false) (fun _ _ => .eq) (fun _ _ => none)) = none := by
  have h : fzMacro (demoEnv (BitVec 32) Char ' ') true .short .scalar
        [⟨.lit (.int 1 "isize"), 1, some 'a'⟩, ⟨.lit (.int 2 ""), 2, some 'b'⟩, ⟨.lit (.int 3 ""), 3, some 'c'⟩] =
      .ok (.ok (.expr (.dense "3".toList [(1, 'a'), (2, 'b'), (3, 'c')] "9_223_372_036_854_775_809usize".toList
        "9_223_372_036_854_775_811usize".toList))) := by cbv
  exact ⟨_, h, trivial, c57_isize_refuted slotSort_ok (by simp) ((c42_classes (by simp)).1 .isize |>.1 rfl) (by decide) h trivial⟩

/-- Query traits of `isize` on a 32-bit target. -/
def isize32 : QueryTraits (BitVec 32) (BitVec 32) where
  equivalent := scalarMatch ((⟨"isize", 32, true, 2 ^ 31, false⟩ : ScalarTy).index 32) ((⟨"isize", 32, true, 2 ^ 31, false⟩ : ScalarTy).index 32)
  compare _ _ := .eq
  index := (⟨"isize", 32, true, 2 ^ 31, false⟩ : ScalarTy).index 32
  fixedState _ _ := 0
  bytes _ := []
  fixedStateSlice _ _ := 0

/-- `{ 1isize: 'a', 1000: 'b', 1_000_000: 'c' }` is to be scanned, and works on a 32-bit target. -/
example : ∃ item m, fzMacro (demoEnv (BitVec 32) Char ' ') true .short .scalar
        [⟨.lit (.int 1 "isize"), 1, some 'a'⟩, ⟨.lit (.int 1000 ""), 1000, some 'b'⟩, ⟨.lit (.int 1000000 ""), 1000000, some 'c'⟩] = .ok (.ok item) ∧
      (on(w32) item.ctor.compile (F := Unit) (fun _ _ => false) (fun _ _ => .eq) (fun _ _ => none)) = some (.ok (.inl m)) ∧
      (InlineMap.impl isize32).get m 1000 = .ok (some 'b') ∧ (InlineMap.impl isize32).get m 2 = .ok none := by
  have h : fzMacro (demoEnv (BitVec 32) Char ' ') true .short .scalar
        [⟨.lit (.int 1 "isize"), 1, some 'a'⟩, ⟨.lit (.int 1000 ""), 1000, some 'b'⟩, ⟨.lit (.int 1000000 ""), 1000000, some 'c'⟩] =
      .ok (.ok (.expr (.scanRaw "3".toList [(1, 'a'), (1000, 'b'), (1000000, 'c')]))) := by cbv
  obtain ⟨item, h1, hiff⟩ := c57_isize_partial (t' := ⟨"isize", 32, true, 2 ^ 31, false⟩) (by simp [scalarTypes32]) rfl
    (env := demoEnv (BitVec 32) Char ' ') slotSort_ok (isMap := true) (form := .short) (kind := .scalar)
    (entries := [⟨.lit (.int 1 "isize"), 1, some 'a'⟩, ⟨.lit (.int 1000 ""), 1000, some 'b'⟩, ⟨.lit (.int 1000000 ""), 1000000, some 'c'⟩])
    (by simp) ((c42_classes (by simp)).1 .isize |>.1 rfl)
    (by
      intro e he n s h
      simp only [List.mem_cons, List.not_mem_nil, or_false] at he
      rcases he with rfl | rfl | rfl <;> cases h <;> decide)
    (by decide) (q := isize32) rfl
  obtain ⟨item', m, h2, -, h4, h5⟩ := hiff.2 (by
    rw [h] at h1
    cases h1
    exact fun h => h)
  refine ⟨item', m, h2, h4 _ _ _ _, ?_, ?_⟩
  · exact (h5.lookups.get 1000).trans (by decide)
  · exact (h5.lookups.get 2).trans (by decide)

/-! ## Hosts -/

/-- **C57** (hosts).  The code of the macros asks for `Scalar` implementations of the integer types of literals (core/macros/processor.rs l.69-79, l.178).
They all exist exactly on hosts with 64 bits: on others the macros do not compile, so nothing is lost by fixing that width for the host. -/
theorem c57_hosts [Target] : (∀ t : ScalarType, ∃ s ∈ scalarTypes, s.name = t.ty.name) ↔ Target.width = 64 := by
  unfold scalarTypes
  constructor
  · intro h
    by_contra hw
    rw [if_neg hw] at h
    obtain ⟨s, hs, hn⟩ := h .u64
    revert s
    unfold scalarTypes32
    simp [ScalarType.ty]
  · intro hw t
    rw [if_pos hw]
    cases t <;> simp [scalarTypes64, ScalarType.ty]

/-- The literal types with an implementation on a 32-bit host. -/
example : (∃ s ∈ (on(w32) scalarTypes), s.name = ScalarType.usize.ty.name) ∧ ¬ ∃ s ∈ (on(w32) scalarTypes), s.name = ScalarType.i64.ty.name := by
  have h : (on(w32) scalarTypes) = scalarTypes32 := rfl
  rw [h]
  simp [scalarTypes32, ScalarType.ty]

end Frozen.Props
