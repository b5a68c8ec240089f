import Verif.Lemmas.MacroLits
import Verif.Props.Macros

/-! # C37, C38, C40, C41: emitted code -/

namespace Frozen.Props

open Frozen.Spec Frozen.Model

variable {B Q K V : Type}

/-! ## C37: the code emitted for known keys -/

/-- The emitter returned an item of the requested shape whose constructor compiles and evaluates, without panic or undefined behaviour
and whatever surrounds it, to a map that behaves like the entries `es`. -/
def EmitsMap [Target] (t : QueryTraits Q K) (em : Emitter) (eqK : K → K → Bool) (mt : Q → K → Bool) (es : List (K × V))
    (r : Res (Except String (Item (Emitted K V)))) : Prop :=
  ∃ item m, r = .ok (.ok item) ∧ ItemShape em item ∧
    (∀ (F : Type) eq' cmp' (fz : FzKind → List (K × V) → Option (Res F)),
      item.ctor.compile eq' cmp' fz = some (.ok (.inl m))) ∧ Behaves (InlineMap.impl t) m eqK mt es

/-- **C37** (`emit_hash_collection`).  The emitter works with the keys `key` of type `B`, the emitted program with the values `keyExpr` of type
`K`; equality and hashing of the two have to agree. -/
theorem c37_emit_hash [Target] {t : QueryTraits Q K} {em : Emitter} (hv : ValidOptions em) {unit : V} {find : HbFind} (hfind : HbFindOk find)
    {sort : Sorter (CollectionEntry B K V)} (hsort : SorterOk sort) {eqB : B → B → Bool} (heB : LawfulEq' eqB)
    {eqK : K → K → Bool} (he : LawfulEq' eqK) (hq : LawfulQuery eqK t.equivalent) {fixedState : Nat → B → Nat} {seed : Nat}
    (hseed : seed < 2 ^ 64) (hB : ∀ a b, eqB a b = true → fixedState seed a = fixedState seed b) {hk : K → Nat}
    (hh : LawfulHash eqK t.equivalent hk (t.fixedState seed)) {entries : List (CollectionEntry B K V)}
    (hag : ∀ x ∈ entries, ∀ y ∈ entries, eqB x.key y.key = eqK x.keyExpr y.keyExpr)
    (hhash : ∀ x ∈ entries, hk x.keyExpr = fixedState seed x.key) (hn : entries.length < sizeLimit) :
    EmitsMap t em eqK t.equivalent (written em unit entries) (em.emitHash unit find sort eqB fixedState seed entries) :=
  EmitsGood.behaves (Emitter.emitHash_spec hfind hsort heB he hseed hB hh hag hhash hn) hv he hq

/-- **C37** (`emit_ordered_collection`). -/
theorem c37_emit_ordered [Target] {t : QueryTraits Q K} {em : Emitter} (hv : ValidOptions em) {unit : V} {cmpB : B → B → Ordering}
    (hB : LawfulCmp cmpB) {cmp : K → K → Ordering} (hc : LawfulCmp cmp) (hq : LawfulQueryCmp cmp t.compare)
    (heqv : t.equivalent = fun q k => t.compare q k == .eq) {entries : List (CollectionEntry B K V)}
    (hag : ∀ x ∈ entries, ∀ y ∈ entries, cmpB x.key y.key = cmp x.keyExpr y.keyExpr) (hn : entries.length < sizeLimit) :
    EmitsMap t em (fun a b => cmp a b == .eq) (fun q k => t.compare q k == .eq) (written em unit entries)
      (em.emitOrdered unit cmpB entries) :=
  EmitsGood.behaves (Emitter.emitOrdered_spec hB hc hq heqv hag hn) hv (LawfulCmp'.eqLawful hc) hq.query

/-- **C37** (`emit_scalar_collection`), for keys that do not span the whole range of `usize` (see C18). -/
theorem c37_emit_scalar [Target] {t : QueryTraits Q K} {em : Emitter} (hv : ValidOptions em) {unit : V} (b : Build)
    {sort : Sorter (CollectionEntry B K V)} (hsort : SorterOk sort) {cmpB : B → B → Ordering} {index : B → Nat}
    (hB : LawfulScalar cmpB index) {cmp : K → K → Ordering} {indexK : K → Nat} (hk : LawfulScalar cmp indexK)
    (heqv : t.equivalent = scalarMatch indexK t.index) {entries : List (CollectionEntry B K V)}
    (hag : ∀ x ∈ entries, indexK x.keyExpr = index x.key) (hn : entries.length < tableLimit)
    (hspan : ∀ x ∈ entries, ∀ y ∈ entries, index x.key - index y.key < usizeMax) :
    EmitsMap t em (fun a b => cmp a b == .eq) (scalarMatch indexK t.index) (written em unit entries)
      (em.emitScalar unit b sort cmpB index entries) :=
  EmitsGood.behaves (Emitter.emitScalar_spec b hsort hB hk heqv hag hn hspan) hv (LawfulCmp'.eqLawful hk.lawfulCmp) (hk.query t.index)

/-- **C37** (`emit_string_collection`); `bytesK` are the bytes of a run-time key. -/
theorem c37_emit_string [Target] {t : QueryTraits Q K} {em : Emitter} (hv : ValidOptions em) {unit : V}
    {sort : Sorter (CollectionEntry Str K V)} (hsort : SorterOk sort) {fsStr fsSlice : Nat → Str → Nat} {seed : Nat}
    (hseed : seed < 2 ^ 64) {bytesK : K → Str} (heqv : t.equivalent = fun q k => t.bytes q == bytesK k)
    (hstr : ∀ q, t.fixedState seed q = fsStr seed (t.bytes q)) (hslice : t.fixedStateSlice seed = fsSlice seed)
    {entries : List (CollectionEntry Str K V)} (hag : ∀ x ∈ entries, bytesK x.keyExpr = x.key)
    (hn : entries.length < sizeLimit) (hkl : ∀ x ∈ entries, x.key.length ≤ usizeMax) :
    EmitsMap t em (fun a b => bytesK a == bytesK b) t.equivalent (written em unit entries)
      (em.emitString unit sort fsStr fsSlice seed entries) :=
  EmitsGood.behaves (Emitter.emitString_spec hsort hseed heqv hstr hslice hag hn hkl) hv (strEq_lawful.comap bytesK)
    (by rw [heqv]; exact ⟨fun q a b h => by rw [eq_of_beq h]⟩)

/-- Query traits of natural numbers for the examples. -/
def natTraits : QueryTraits Nat Nat where
  equivalent := natEq
  compare := natCmp
  index q := q
  fixedState seed q := (seed + 31 * q) % 2 ^ 64
  bytes _ := []
  fixedStateSlice _ _ := 0

/-- `static MAP` with constant keys and values. -/
def staticMap : Emitter where
  hasValueType := true
  symbolName := some "MAP"
  aliasName := none
  constKeys := true
  constValues := true
  isMutable := false
  isStatic := true

attribute [local instance] w64 in
/-- Six entries (a hash table), two of them with the same key: the emitted static map answers with the last entry. -/
example : ∃ item m, staticMap.emitHash "" listFind slotSort natEq (fun seed q => (seed + 31 * q) % 2 ^ 64) 77
        [⟨3, 3, "a"⟩, ⟨10, 10, "b"⟩, ⟨18, 18, "c"⟩, ⟨3, 3, "d"⟩, ⟨500, 500, "e"⟩, ⟨12, 12, "f"⟩] = .ok (.ok item) ∧
      (∃ ctor, item = .staticConst "MAP" none ctor) ∧
      item.ctor.compile (F := Unit) natEq natCmp (fun _ _ => none) = some (.ok (.inl m)) ∧
      (InlineMap.impl natTraits).get m 3 = .ok (some "d") ∧ (InlineMap.impl natTraits).get m 4 = .ok none := by
  obtain ⟨item, m, h1, h2, h3, h4⟩ := c37_emit_hash (t := natTraits) (em := staticMap) (by unfold ValidOptions; decide) (unit := "") listFind_ok (slotSort_ok) natEq_lawful natEq_lawful
        natEq_query (fixedState := fun seed q => (seed + 31 * q) % 2 ^ 64) (seed := 77) (by decide)
        (fun a b h => by rw [eq_of_beq h]) (hk := fun q => (77 + 31 * q) % 2 ^ 64) (natEq_hash _)
        (entries := [⟨3, 3, "a"⟩, ⟨10, 10, "b"⟩, ⟨18, 18, "c"⟩, ⟨3, 3, "d"⟩, ⟨500, 500, "e"⟩, ⟨12, 12, "f"⟩])
        (by decide) (by decide) (by decide)
  refine ⟨item, m, h1, ?_, h3 _ _ _ _, ?_, ?_⟩
  · cases item with
    | staticConst s a c => obtain ⟨-, -, -, h, h'⟩ := h2; cases h; cases h'; exact ⟨c, rfl⟩
    | staticLazy s a c => exact absurd ⟨rfl, rfl⟩ h2.2.1
    | letStmt m s a c => cases h2.1
    | expr c => cases h2.1
  · rw [h4.lookups.get]; decide
  · rw [h4.lookups.get]; decide

/-! ## C37: macros with literal keys -/

attribute [local instance] w64 in
/-- **C37** A macro call whose keys are integer literals, `K` being any type of expressions or values with an integer value `bitsK`. -/
theorem c37_macro_scalar_exprs {t : ScalarType} {env : MacroEnv K V} (hsort : SorterOk (env.sortScalar t.ty))
    {isMap : Bool} {form : MacroForm} {kind : MacroKind} {entries : List (MacroEntry K V)} (hne : entries ≠ [])
    (hk : AllInts kind (entries.map (fun e => e.key)) t)
    {bitsK : K → BitVec t.ty.width}
    (hval : ∀ e ∈ entries, ∀ n s, KeyIs e.key (.int n s) → n ≤ litMax t ∧ ScalarVal t.ty.signed (bitsK e.keyValue) = n)
    (hspan : ¬ ((∃ e ∈ entries, ∃ s, KeyIs e.key (.int 0 s)) ∧ ∃ e ∈ entries, ∃ s, KeyIs e.key (.int (2 ^ 64 - 1) s)))
    (hn : entries.length < 2 ^ 56) {q : QueryTraits Q K}
    (heqv : q.equivalent = scalarMatch (fun k => t.ty.index 64 (bitsK k)) q.index) :
    EmitsMap q { form.emitter isMap with constKeys := true, constValues := true } (fun a b => bitsK a == bitsK b) q.equivalent
      (macroWritten isMap env.unit entries) (fzMacro env isMap form kind entries) := by
  have hint : ∀ e ∈ entries, ∃ n s, KeyIs e.key (.int n s) := by
    intro e he
    obtain ⟨n, s, h, -⟩ := hk.2.1 e.key (List.mem_map_of_mem he)
    exact ⟨n, s, h⟩
  have hp : ∀ e ∈ entries, parseInt t.ty e.key = .ok (BitVec.ofNat t.ty.width (intOf e.key)) := by
    intro e he
    obtain ⟨n, s, h⟩ := hint e he
    exact parseInt_ok h (by rw [← litMax_eq]; exact (hval e he n s h).1)
  have ha := (c42_classes (by simpa using hne)).1 t |>.2 hk
  unfold fzMacro
  rw [process_of_assess hne ha]
  show EmitsMap _ _ _ _ _ (handleLiteralScalarKeys env (form.emitter isMap) t.ty entries)
  unfold handleLiteralScalarKeys
  rw [literalEntries_ok hp]
  simp only
  have hl := c15_lawful t.ty_mem
  rw [← ScalarTy.cmp_eq_scalarCmp] at hl
  have key := c37_emit_scalar (t := q) (form_valid isMap form true true) (unit := env.unit) env.build hsort hl
    (cmp := fun a b => t.ty.cmp (bitsK a) (bitsK b)) ⟨fun a b => hl.cmp _ _, fun a => hl.bound _⟩ heqv
    (entries := entries.map (fun e => e.toCollection env.unit (BitVec.ofNat t.ty.width (intOf e.key)))) ?_ (by simpa using hn) ?_
  · have hb : (fun a b => bitsK a == bitsK b) = fun a b : K => t.ty.cmp (bitsK a) (bitsK b) == Ordering.eq := by
      funext a b
      exact (congrFun (congrFun (scalarTy_eq t) (bitsK a)) (bitsK b)).symm
    rw [heqv, hb]
    have hw := written_macro (f := fun e => BitVec.ofNat t.ty.width (intOf e.key))
      (em := { form.emitter isMap with constKeys := true, constValues := true }) (form_hasValueType isMap form) env.unit entries
    unfold written at key
    rw [hw] at key
    exact key
  · intro x hx
    obtain ⟨e, he, rfl⟩ := List.mem_map.1 hx
    obtain ⟨n, s, h⟩ := hint e he
    obtain ⟨h1, h2⟩ := hval e he n s h
    show t.ty.index 64 (bitsK e.keyValue) = t.ty.index 64 (BitVec.ofNat t.ty.width (intOf e.key))
    rw [intOf_eq h]
    exact index_literal h1 h2
  · intro x hx y hy
    obtain ⟨e, he, rfl⟩ := List.mem_map.1 hx
    obtain ⟨e', he', rfl⟩ := List.mem_map.1 hy
    obtain ⟨n, s, h⟩ := hint e he
    obtain ⟨n', s', h'⟩ := hint e' he'
    show t.ty.index 64 (BitVec.ofNat t.ty.width (intOf e.key)) - t.ty.index 64 (BitVec.ofNat t.ty.width (intOf e'.key)) < usizeMax
    rw [intOf_eq h, intOf_eq h']
    refine index_span (hval e he n s h).1 (hval e' he' n' s' h').1 ?_
    rintro ⟨rfl, rfl⟩
    exact hspan ⟨⟨e', he', s', h'⟩, e, he, s, h⟩

attribute [local instance] w64 in
/-- **C37** A macro call whose keys are integer literals: the emitted map behaves like the entries, for every macro kind that accepts integers,
every declaration form, maps and sets, every number of entries and any mixture of duplicate keys.  The values have to fit the type (see
C42), and must not contain both `0` and `u64::MAX` (see C18). -/
theorem c37_macro_scalars {t : ScalarType} {env : MacroEnv (BitVec t.ty.width) V} (hsort : SorterOk (env.sortScalar t.ty))
    {isMap : Bool} {form : MacroForm} {kind : MacroKind} {entries : List (MacroEntry (BitVec t.ty.width) V)} (hne : entries ≠ [])
    (hk : AllInts kind (entries.map (fun e => e.key)) t)
    (hval : ∀ e ∈ entries, ∀ n s, KeyIs e.key (.int n s) → n ≤ litMax t ∧ ScalarVal t.ty.signed e.keyValue = n)
    (hspan : ¬ ((∃ e ∈ entries, ∃ s, KeyIs e.key (.int 0 s)) ∧ ∃ e ∈ entries, ∃ s, KeyIs e.key (.int (2 ^ 64 - 1) s)))
    (hn : entries.length < 2 ^ 56) {q : QueryTraits Q (BitVec t.ty.width)}
    (heqv : q.equivalent = scalarMatch (t.ty.index 64) q.index) :
    EmitsMap q { form.emitter isMap with constKeys := true, constValues := true } (fun a b => a == b) q.equivalent
      (macroWritten isMap env.unit entries) (fzMacro env isMap form kind entries) :=
  c37_macro_scalar_exprs hsort hne hk (bitsK := id) hval hspan hn heqv

attribute [local instance] w64 in
/-- **C37** A macro call whose keys are string literals. -/
theorem c37_macro_strings {env : MacroEnv K V} (hsort : SorterOk env.sortStr) (hseed : env.seed < 2 ^ 64)
    {isMap : Bool} {form : MacroForm} {kind : MacroKind} {entries : List (MacroEntry K V)} (hne : entries ≠ [])
    (hk : AllStrs kind (entries.map (fun e => e.key))) {bytesK : K → Str}
    (hval : ∀ e ∈ entries, ∀ v, KeyIs e.key (.str v) → bytesK e.keyValue = v ∧ v.length ≤ usizeMax)
    (hn : entries.length < 2 ^ 60) {q : QueryTraits Q K} (heqv : q.equivalent = fun x k => q.bytes x == bytesK k)
    (hstr : ∀ x, q.fixedState env.seed x = env.fsStr env.seed (q.bytes x)) (hslice : q.fixedStateSlice env.seed = env.fsSlice env.seed) :
    EmitsMap q { form.emitter isMap with constKeys := true, constValues := true } (fun a b => bytesK a == bytesK b) q.equivalent
      (macroWritten isMap env.unit entries) (fzMacro env isMap form kind entries) := by
  have hint : ∀ e ∈ entries, ∃ v, KeyIs e.key (.str v) := fun e he => hk.2 e.key (List.mem_map_of_mem he)
  have hp : ∀ e ∈ entries, parseStr e.key = .ok (strOf e.key) := by
    intro e he
    obtain ⟨v, h⟩ := hint e he
    exact parseStr_ok h
  have ha := (c42_classes (by simpa using hne)).2.1.2 hk
  unfold fzMacro
  rw [process_of_assess hne ha]
  show EmitsMap _ _ _ _ _ (handleLiteralStringKeys env (form.emitter isMap) entries)
  unfold handleLiteralStringKeys
  rw [literalEntries_ok hp]
  simp only
  have key := c37_emit_string (t := q) (form_valid isMap form true true) (unit := env.unit) hsort hseed heqv hstr hslice
    (entries := entries.map (fun e => e.toCollection env.unit (strOf e.key))) ?_ (by simpa using hn) ?_
  · have hw := written_macro (f := fun e => strOf e.key)
      (em := { form.emitter isMap with constKeys := true, constValues := true }) (form_hasValueType isMap form) env.unit entries
    unfold written at key
    rw [hw] at key
    exact key
  · intro x hx
    obtain ⟨e, he, rfl⟩ := List.mem_map.1 hx
    obtain ⟨v, h⟩ := hint e he
    show bytesK e.keyValue = strOf e.key
    rw [strOf_eq h]
    exact (hval e he v h).1
  · intro x hx
    obtain ⟨e, he, rfl⟩ := List.mem_map.1 hx
    obtain ⟨v, h⟩ := hint e he
    show (strOf e.key).length ≤ usizeMax
    rw [strOf_eq h]
    exact (hval e he v h).2

attribute [local instance] w64 in
/-- **C37** A macro call without entries: an error if the key type would have to be inferred, otherwise an empty map. -/
theorem c37_macro_empty (env : MacroEnv K V) (isMap : Bool) (kind : MacroKind) {eqK : K → K → Bool} (he : LawfulEq' eqK)
    {q : QueryTraits Q K} (hq : LawfulQuery eqK q.equivalent) :
    (∃ msg, fzMacro env isMap .short kind [] = .ok (.error msg)) ∧
    ∀ form : MacroForm, form.inferredKeyType = false →
      EmitsMap q { form.emitter isMap with constKeys := true, constValues := true } eqK q.equivalent [] (fzMacro env isMap form kind []) := by
  refine ⟨⟨_, rfl⟩, fun form hf => ?_⟩
  unfold fzMacro process
  simp only [List.isEmpty_nil, if_true]
  unfold processEmpty
  rw [hf]
  simp only [Bool.false_eq_true, if_false]
  have hu : usingHash env.find ({ form.emitter isMap with constKeys := true, constValues := true }.cleanValues env.unit
      ([] : List (CollectionEntry (BitVec ScalarType.i32.ty.width) K V))) (fun x => env.fsScalar ScalarType.i32.ty env.seed x.key)
      (fun x y => x.key == y.key) = .ok [] := by
    unfold Emitter.cleanValues
    split <;> rfl
  unfold Emitter.emitHash
  rw [hu]
  simp only [bind, Except.bind, List.length_nil]
  rw [Emitter.finish_ok (form_valid isMap form true true) (by simp only [Nat.zero_lt_succ, if_true]; rfl)]
  refine ⟨_, { sz := 0, repr := .scan { entries := [] } }, rfl, itemOf_shape (form_valid isMap form true true) _, ?_, ?_⟩
  · intro F eq' cmp' fz
    rw [itemOf_ctor]
    rfl
  · exact (Built.inlineScan (sz := 0) he hq rfl).behaves

/-- Surroundings of the macro calls in the examples. -/
def demoEnv (K V : Type) (unit : V) : MacroEnv K V where
  unit := unit
  build := .debug
  find := listFind
  sortScalar _ := slotSort
  fsScalar _ seed x := (seed + x.toNat) % 2 ^ 64
  sortStr := slotSort
  fsStr seed x := (seed + 3 * x.length) % 2 ^ 64
  fsSlice seed x := (seed + x.sum.toNat) % 2 ^ 64
  seed := 42

/-- Query traits of `u8`. -/
def byteTraits : QueryTraits (BitVec 8) (BitVec 8) where
  equivalent := scalarMatch (ScalarType.u8.ty.index 64) (ScalarType.u8.ty.index 64)
  compare _ _ := .eq
  index := ScalarType.u8.ty.index 64
  fixedState _ _ := 0
  bytes _ := []
  fixedStateSlice _ _ := 0

attribute [local instance] w64 in
/-- `fz_hash_map!(static M: Alias<u8, &str>, { 7: "a", 200u8: "b", 7: "c" })`. -/
example : ∃ item m, fzMacro (demoEnv (BitVec 8) String "") true (.static "M" "Alias") .hashed
        [⟨.lit (.int 7 ""), 7, some "a"⟩, ⟨.lit (.int 200 "u8"), 200, some "b"⟩, ⟨.lit (.int 7 ""), 7, some "c"⟩] = .ok (.ok item) ∧
      item.ctor.compile (F := Unit) (fun _ _ => false) (fun _ _ => .eq) (fun _ _ => none) = some (.ok (.inl m)) ∧
      (InlineMap.impl byteTraits).get m 7 = .ok (some "c") ∧ (InlineMap.impl byteTraits).get m 8 = .ok none := by
  obtain ⟨item, m, h1, -, h3, h4⟩ := c37_macro_scalars (t := .u8) (env := demoEnv (BitVec 8) String "") slotSort_ok
    (isMap := true) (form := .static "M" "Alias") (kind := .hashed)
    (entries := [⟨.lit (.int 7 ""), 7, some "a"⟩, ⟨.lit (.int 200 "u8"), 200, some "b"⟩, ⟨.lit (.int 7 ""), 7, some "c"⟩]) (by simp)
    ((c42_classes (by simp)).1 .u8 |>.1 rfl)
    (by
      intro e he n s h
      simp only [List.mem_cons, List.not_mem_nil, or_false] at he
      rcases he with rfl | rfl | rfl <;> cases h <;> decide)
    (by
      rintro ⟨⟨e, he, s, h⟩, -⟩
      simp only [List.mem_cons, List.not_mem_nil, or_false] at he
      rcases he with rfl | rfl | rfl <;> cases h)
    (by decide) (q := byteTraits) rfl
  refine ⟨item, m, h1, h3 _ _ _ _, ?_, ?_⟩
  · exact (h4.lookups.get 7).trans (by decide)
  · exact (h4.lookups.get 8).trans (by decide)

/-- Query traits of strings. -/
def strTraits : QueryTraits Str Str where
  equivalent a b := a == b
  compare _ _ := .eq
  index _ := 0
  fixedState seed x := (seed + 3 * x.length) % 2 ^ 64
  bytes x := x
  fixedStateSlice seed x := (seed + x.sum.toNat) % 2 ^ 64

attribute [local instance] w64 in
/-- A set of five string literals, one of them twice. -/
example : ∃ item m, fzMacro (demoEnv Str Unit ()) false .short .string
        [⟨.lit (.str [65]), [65], none⟩, ⟨.lit (.str [66, 67]), [66, 67], none⟩, ⟨.lit (.str [65]), [65], none⟩,
          ⟨.group (.lit (.str [])), [], none⟩, ⟨.lit (.str [68]), [68], none⟩] = .ok (.ok item) ∧
      item.ctor.compile (F := Unit) (fun _ _ => false) (fun _ _ => .eq) (fun _ _ => none) = some (.ok (.inl m)) ∧
      (InlineMap.impl strTraits).containsKey m [66, 67] = .ok true ∧ (InlineMap.impl strTraits).containsKey m [66] = .ok false := by
  obtain ⟨item, m, h1, -, h3, h4⟩ := c37_macro_strings (env := demoEnv Str Unit ()) slotSort_ok (by decide) (isMap := false) (form := .short)
    (kind := .string) (entries := [⟨.lit (.str [65]), [65], none⟩, ⟨.lit (.str [66, 67]), [66, 67], none⟩, ⟨.lit (.str [65]), [65], none⟩,
          ⟨.group (.lit (.str [])), [], none⟩, ⟨.lit (.str [68]), [68], none⟩]) (by simp)
    ((c42_classes (by simp)).2.1.1 rfl) (bytesK := fun x => x)
    (by
      intro e he v h
      simp only [List.mem_cons, List.not_mem_nil, or_false] at he
      rcases he with rfl | rfl | rfl | rfl | rfl <;> cases h <;> decide)
    (by decide) (q := strTraits) rfl (fun _ => rfl) rfl
  refine ⟨item, m, h1, h3 _ _ _ _, ?_, ?_⟩
  · rw [h4.lookups.containsKey]; decide
  · rw [h4.lookups.containsKey]; decide

/-! ## C38 -/

/-- **C38** Whatever the emitter for hashed keys returns is well typed -- even if equality and hashing of the keys break the laws. -/
theorem c38_emit_hash [Target] {em : Emitter} {unit : V} {find : HbFind} {sort : Sorter (CollectionEntry B K V)} (hsort : SorterOk sort)
    {eqB : B → B → Bool} {fixedState : Nat → B → Nat} {seed : Nat} (hseed : seed < 2 ^ 64) {entries : List (CollectionEntry B K V)}
    (hn : entries.length < sizeLimit) {item : Item (Emitted K V)}
    (hi : em.emitHash unit find sort eqB fixedState seed entries = .ok (.ok item)) : WellTyped item.ctor :=
  Emitter.emitHash_typed hsort hseed hn hi

/-- **C38** (ordered keys). -/
theorem c38_emit_ordered [Target] {em : Emitter} {unit : V} {cmpB : B → B → Ordering} {entries : List (CollectionEntry B K V)}
    (hn : entries.length < sizeLimit) {item : Item (Emitted K V)} (hi : em.emitOrdered unit cmpB entries = .ok (.ok item)) :
    WellTyped item.ctor :=
  Emitter.emitOrdered_typed hn hi

/-- **C38** (string keys). -/
theorem c38_emit_string [Target] {em : Emitter} {unit : V} {sort : Sorter (CollectionEntry Str K V)} (hsort : SorterOk sort)
    {fsStr fsSlice : Nat → Str → Nat} {seed : Nat} (hseed : seed < 2 ^ 64) {entries : List (CollectionEntry Str K V)}
    (hn : entries.length < sizeLimit) (hkl : ∀ x ∈ entries, x.key.length ≤ usizeMax) {item : Item (Emitted K V)}
    (hi : em.emitString unit sort fsStr fsSlice seed entries = .ok (.ok item)) : WellTyped item.ctor :=
  Emitter.emitString_typed hsort hseed hn hkl hi

/-- **C38** (scalar keys). -/
theorem c38_emit_scalar [Target] {em : Emitter} {unit : V} {b : Build} {sort : Sorter (CollectionEntry B K V)} (hsort : SorterOk sort)
    {cmpB : B → B → Ordering} {index : B → Nat} (hB : LawfulScalar cmpB index) {entries : List (CollectionEntry B K V)}
    (hn : entries.length < tableLimit) {item : Item (Emitted K V)}
    (hi : em.emitScalar unit b sort cmpB index entries = .ok (.ok item)) : WellTyped item.ctor :=
  Emitter.emitScalar_typed hsort hB hn hi

attribute [local instance] w64 in
/-- **C38** Whatever a macro returns is well typed. -/
theorem c38_macro {env : MacroEnv K V} (hsc : ∀ t, SorterOk (env.sortScalar t)) (hst : SorterOk env.sortStr) (hseed : env.seed < 2 ^ 64)
    {isMap : Bool} {form : MacroForm} {kind : MacroKind} {entries : List (MacroEntry K V)} (hn : entries.length < 2 ^ 56)
    (hkl : ∀ e ∈ entries, ∀ v, KeyIs e.key (.str v) → v.length ≤ usizeMax) {item : Item (Emitted K V)}
    (hi : fzMacro env isMap form kind entries = .ok (.ok item)) : WellTyped item.ctor := by
  by_cases hne : entries = []
  · subst hne
    unfold fzMacro process at hi
    simp only [List.isEmpty_nil, if_true] at hi
    unfold processEmpty at hi
    split at hi
    · cases hi
    · exact Emitter.emitHash_typed (hsc _) hseed (by simp) hi
  · cases ha : assessKeys kind (entries.map (fun e => e.key)) with
    | error msg =>
      unfold fzMacro process at hi
      rw [if_neg (by simpa using hne)] at hi
      simp only [ha] at hi
      cases hi
    | ok k =>
      unfold fzMacro at hi
      rw [process_of_assess hne ha] at hi
      have hx : (exprEntries env.unit entries).length < 2 ^ 60 := by unfold exprEntries; rw [List.length_map]; omega
      cases k with
      | allLiteralScalars t =>
        change handleLiteralScalarKeys env (form.emitter isMap) t.ty entries = _ at hi
        unfold handleLiteralScalarKeys at hi
        cases hl : literalEntries env.unit (parseInt t.ty) entries with
        | error msg => rw [hl] at hi; cases hi
        | ok es =>
          rw [hl] at hi
          have hlaw := c15_lawful t.ty_mem
          rw [← ScalarTy.cmp_eq_scalarCmp] at hlaw
          exact Emitter.emitScalar_typed (hsc _) hlaw (by rw [literalEntries_length hl]; exact hn) hi
      | allLiteralStrings =>
        change handleLiteralStringKeys env (form.emitter isMap) entries = _ at hi
        unfold handleLiteralStringKeys at hi
        have hs := (c42_classes (by simpa using hne)).2.1.1 ha
        have hp : ∀ e ∈ entries, parseStr e.key = .ok (strOf e.key) := fun e he => by
          obtain ⟨v, h⟩ := hs.2 e.key (List.mem_map_of_mem he)
          exact parseStr_ok h
        rw [literalEntries_ok hp] at hi
        refine Emitter.emitString_typed hst hseed (by rw [List.length_map]; have := limits_w64; omega) ?_ hi
        intro x hx
        obtain ⟨e, he, rfl⟩ := List.mem_map.1 hx
        obtain ⟨v, h⟩ := hs.2 e.key (List.mem_map_of_mem he)
        show (strOf e.key).length ≤ usizeMax
        rw [strOf_eq h]
        exact hkl e he v h
      | literalAndExpressionScalars => exact (exprEmitters_typed hx).2.2.1 hi
      | literalAndExpressionStrings => exact (exprEmitters_typed hx).2.2.2 hi
      | hashed => exact (exprEmitters_typed hx).1 hi
      | ordered => exact (exprEmitters_typed hx).2.1 hi

/-- **C38** Well-typed constructors compile, if the `Fz` constructor they may name does. -/
theorem c38_compiles [Target] {F : Type} {eqK : K → K → Bool} {cmp : K → K → Ordering} {fz : FzKind → List (K × V) → Option (Res F)}
    {e : Emitted K V} (hw : WellTyped e) (hfz : ∀ kind es, e = .fz kind es → (fz kind es).isSome) :
    (e.compile eqK cmp fz).isSome = true :=
  compile_of_wellTyped hw hfz

attribute [local instance] w64 in
/-- A table for five entries whose slot numbers are `u8` literals, and ill-typed variants of it. -/
example : WellTyped (.hashNC "5".toList "8".toList .small ["1".toList, "2".toList, "0".toList, "0".toList, "3".toList, "4".toList, "5".toList, "0".toList]
      [(1, 'a'), (2, 'b'), (3, 'c'), (4, 'd'), (5, 'e')] .scalar) ∧
    ¬ WellTyped (.scanRaw "3".toList [(1, 'a'), (2, 'b')]) ∧ ¬ WellTyped (.sparse "1".toList "2".toList .small [(1, 'a')] ["1".toList, "256".toList] "0".toList "1".toList) := by
  have hu : ∀ t n, UsizeLit t n ↔ litUsize t = some n := fun t n => numLit_iff.symm
  have hm : ∀ t n, MagLit .small t n ↔ litMag .small t = some n := fun t n => numLit_iff.symm
  simp only [WellTyped, hu, hm]
  refine ⟨⟨by decide, by decide, ⟨3, rfl⟩, ?_, trivial⟩, by decide, ?_⟩
  · intro t ht
    simp only [List.mem_cons, List.not_mem_nil, or_false] at ht
    rcases ht with rfl | rfl | rfl | rfl | rfl | rfl | rfl | rfl
    all_goals exact ⟨_, by rfl, by decide⟩
  · rintro ⟨-, -, h, -⟩
    obtain ⟨v, hv, -⟩ := h "256".toList (by simp)
    revert hv
    have : litMag .small "256".toList = none := by decide
    rw [this]
    intro h; cases h

/-! ## C40 -/

/-- The characters form a suffix: they start with a letter. -/
def IsSuffix (suf : Tok) : Prop := ∀ c, suf.head? = some c → c.isDigit = false ∧ c ≠ '_'

/-- **C40** Inserting underscores keeps the value and the suffix of a literal, its digits in order, and its first character. -/
theorem c40_value {ds suf : Tok} (hne : ds ≠ []) (hd : ∀ c ∈ ds, c.isDigit = true) (hs : IsSuffix suf) :
    litEval (injectUnderscores (ds ++ suf)) = some (Nat.ofDigitChars 10 ds 0, suf) ∧
    (∃ num, injectUnderscores (ds ++ suf) = num ++ suf ∧ num.filter (fun c => c.isDigit) = ds ∧ (∀ c ∈ num, c.isDigit = true ∨ c = '_') ∧
      num.head? = ds.head? ∧ num.getLast? = ds.getLast?) := by
  have hs' : SuffixOk suf := fun c hc => by
    obtain ⟨h1, h2⟩ := hs c hc
    simp [isLitChar, h1, h2]
  rw [inject_eq hd (fun c hc => (hs c hc).1)]
  constructor
  · rw [litEval_split ?_ (grouped_chars hd) hs', grouped_filter hd]
    obtain ⟨c, rest, rfl⟩ := List.exists_cons_of_ne_nil hne
    exact ⟨c, by rw [grouped_head]; rfl, hd c (by simp)⟩
  · refine ⟨grouped ds, rfl, grouped_filter hd, fun c hc => ?_, grouped_head ds, grouped_getLast ds⟩
    have := grouped_chars hd c hc
    simpa [isLitChar] using this

/-- **C40** In particular the literal of a number denotes the number. -/
theorem c40_number (n : Nat) {suf : Tok} (hs : IsSuffix suf) : litEval (injectUnderscores (digits n ++ suf)) = some (n, suf) :=
  litEval_inject n (fun c hc => by obtain ⟨h1, h2⟩ := hs c hc; simp [isLitChar, h1, h2])

/-- **C40** The underscores separate groups of three digits, counted from the right. -/
theorem c40_groups {ds suf : Tok} (hd : ∀ c ∈ ds, c.isDigit = true) (hs : IsSuffix suf) :
    (ds.length ≤ 3 → injectUnderscores (ds ++ suf) = ds ++ suf) ∧
    ∀ x y z : Char, x.isDigit = true → y.isDigit = true → z.isDigit = true → ds ≠ [] →
      injectUnderscores (ds ++ [x, y, z] ++ suf) = injectUnderscores ds ++ ['_', x, y, z] ++ suf := by
  have hs' : ∀ c, suf.head? = some c → c.isDigit = false := fun c hc => (hs c hc).1
  constructor
  · intro h
    rw [inject_eq hd hs', grouped_short h]
  · intro x y z hx hy hz hne
    have h1 : injectUnderscores ds = grouped ds := by
      have := inject_eq (suf := []) hd (by simp)
      simpa using this
    rw [inject_eq (ds := ds ++ [x, y, z]) ?_ hs', grouped_append hne, h1]
    intro c hc
    simp only [List.mem_append, List.mem_cons, List.not_mem_nil, or_false] at hc
    rcases hc with hc | rfl | rfl | rfl
    · exact hd c hc
    all_goals assumption

example : injectUnderscores "1234567usize".toList = "1_234_567usize".toList ∧ injectUnderscores "255".toList = "255".toList ∧
    IsSuffix "usize".toList ∧ litEval "1_234_567usize".toList = some (1234567, "usize".toList) := by
  refine ⟨by decide, by decide, fun c hc => ?_, by decide⟩
  cases hc
  decide

/-! ## C41 -/

/-- **C41** Emission reports an error exactly for unfit options: `static` with `mut`, or `static`, `mut` or an alias without a symbol name.
With fit options the item has the requested shape; in particular a static collection is initialised eagerly only if its keys and
values are constant.  (For all entries and all emitters; these are `emit_hash_collection` and its siblings.) -/
theorem c41_emit_hash [Target] {em : Emitter} {unit : V} {find : HbFind} {sort : Sorter (CollectionEntry B K V)}
    {eqB : B → B → Bool} {fixedState : Nat → B → Nat} {seed : Nat} {entries : List (CollectionEntry B K V)} {r : Except String (Item (Emitted K V))}
    (h : em.emitHash unit find sort eqB fixedState seed entries = .ok r) :
    ((∃ msg, r = .error msg) ↔ ¬ ValidOptions em) ∧ ∀ item, r = .ok item → ItemShape em item := by
  unfold Emitter.emitHash at h
  simp only [bind, Except.bind] at h
  split at h
  · cases h
  · exact finish_options h

/-- **C41** (ordered keys). -/
theorem c41_emit_ordered [Target] {em : Emitter} {unit : V} {cmpB : B → B → Ordering} {entries : List (CollectionEntry B K V)}
    {r : Except String (Item (Emitted K V))} (h : em.emitOrdered unit cmpB entries = .ok r) :
    ((∃ msg, r = .error msg) ↔ ¬ ValidOptions em) ∧ ∀ item, r = .ok item → ItemShape em item :=
  finish_options h

/-- **C41** (string keys). -/
theorem c41_emit_string [Target] {em : Emitter} {unit : V} {sort : Sorter (CollectionEntry Str K V)} {fsStr fsSlice : Nat → Str → Nat} {seed : Nat}
    {entries : List (CollectionEntry Str K V)} {r : Except String (Item (Emitted K V))}
    (h : em.emitString unit sort fsStr fsSlice seed entries = .ok r) :
    ((∃ msg, r = .error msg) ↔ ¬ ValidOptions em) ∧ ∀ item, r = .ok item → ItemShape em item :=
  finish_options h

/-- **C41** (scalar keys). -/
theorem c41_emit_scalar [Target] {em : Emitter} {unit : V} {b : Build} {sort : Sorter (CollectionEntry B K V)}
    {cmpB : B → B → Ordering} {index : B → Nat} {entries : List (CollectionEntry B K V)} {r : Except String (Item (Emitted K V))}
    (h : em.emitScalar unit b sort cmpB index entries = .ok r) :
    ((∃ msg, r = .error msg) ↔ ¬ ValidOptions em) ∧ ∀ item, r = .ok item → ItemShape em item := by
  unfold Emitter.emitScalar at h
  simp only [bind, Except.bind] at h
  split at h
  · cases h
  · exact finish_options h

attribute [local instance] w64 in
/-- Eager and lazy statics, and a rejected combination. -/
example : staticMap.emitOrdered 0 natCmp [⟨1, 1, 5⟩] = .ok (.ok (.staticConst "MAP" none (.scanRaw ['1'] [(1, 5)]))) ∧
    { staticMap with constKeys := false }.emitOrdered 0 natCmp [⟨1, 1, 5⟩] = .ok (.ok (.staticLazy "MAP" none (.scanRaw ['1'] [(1, 5)]))) ∧
    { staticMap with isMutable := true }.emitOrdered 0 natCmp [⟨1, 1, 5⟩] = .ok (.error "mutable is not allowed for static collections") := by
  refine ⟨?_, ?_, ?_⟩ <;> cbv

/-! ## C42: errors of a macro call -/

attribute [local instance] w64 in
/-- **C42** A macro call is rejected exactly if it has no entries and no key type, or its keys cannot go together, or an integer literal
does not fit the type that the literals decide on. -/
theorem c42_macro_error_iff (env : MacroEnv K V) (isMap : Bool) (form : MacroForm) (kind : MacroKind) (entries : List (MacroEntry K V)) :
    (∃ msg, fzMacro env isMap form kind entries = .ok (.error msg)) ↔
      (entries = [] ∧ form = .short) ∨ Incompatible kind (entries.map (fun e => e.key)) ∨
      ∃ t, AllInts kind (entries.map (fun e => e.key)) t ∧ ∃ e ∈ entries, ∃ n s, KeyIs e.key (.int n s) ∧ litMax t < n := by
  by_cases hne : entries = []
  · subst hne
    have h0 : ∀ kind, ¬ Incompatible kind (([] : List (MacroEntry K V)).map (fun e => e.key)) := by
      rintro kind (⟨k, hk, -⟩ | ⟨-, k, hk, -⟩ | ⟨-, k, hk, -⟩ | ⟨k, hk, -⟩) <;> cases hk
    unfold fzMacro process
    simp only [List.isEmpty_nil, if_true]
    unfold processEmpty
    constructor
    · rintro ⟨msg, h⟩
      split at h
      · rename_i hf
        cases form with
        | short => exact Or.inl (by simp)
        | static => cases hf
        | let_ => cases hf
      · exact absurd h (Emitter.emitHash_not_error (form_valid isMap form true true) msg)
    · rintro (⟨-, rfl⟩ | h | ⟨t, -, e, he, -⟩)
      · exact ⟨_, rfl⟩
      · exact absurd h (h0 kind)
      · cases he
  · have hne' : entries.map (fun e => e.key) ≠ [] := by simpa using hne
    cases ha : assessKeys kind (entries.map (fun e => e.key)) with
    | error msg =>
      have hi := (c42_error_iff kind _).1 ⟨msg, ha⟩
      refine ⟨fun _ => Or.inr (Or.inl hi), fun _ => ⟨msg, ?_⟩⟩
      unfold fzMacro process
      rw [if_neg (by simpa using hne)]
      simp only [ha]
    | ok k =>
      have hi : ¬ Incompatible kind (entries.map (fun e => e.key)) := by
        intro h
        obtain ⟨msg, hm⟩ := (c42_error_iff kind _).2 h
        rw [hm] at ha
        cases ha
      unfold fzMacro
      rw [process_of_assess hne ha]
      have hx : (∀ t, k ≠ .allLiteralScalars t) → ¬ ∃ t, AllInts kind (entries.map (fun e => e.key)) t ∧
          ∃ e ∈ entries, ∃ n s, KeyIs e.key (.int n s) ∧ litMax t < n := by
        rintro hk ⟨t, ht, -⟩
        rw [((c42_classes hne').1 t).2 ht] at ha
        exact hk t (Except.ok.inj ha).symm
      have hno : (∀ t, k ≠ .allLiteralScalars t) → ((entries = [] ∧ form = .short) ∨ Incompatible kind (entries.map (fun e => e.key)) ∨
          ∃ t, AllInts kind (entries.map (fun e => e.key)) t ∧ ∃ e ∈ entries, ∃ n s, KeyIs e.key (.int n s) ∧ litMax t < n) → False := by
        rintro hk (⟨h, -⟩ | h | h)
        · exact hne h
        · exact hi h
        · exact hx hk h
      have hv := form_valid isMap form false false
      cases k with
      | allLiteralScalars t =>
        have ht := ((c42_classes hne').1 t).1 ha
        have hint : ∀ e ∈ entries, ∃ n s, KeyIs e.key (.int n s) := by
          intro e he
          obtain ⟨n, s, h, -⟩ := ht.2.1 e.key (List.mem_map_of_mem he)
          exact ⟨n, s, h⟩
        change (∃ msg, handleLiteralScalarKeys env (form.emitter isMap) t.ty entries = _) ↔ _
        unfold handleLiteralScalarKeys
        constructor
        · rintro ⟨msg, h⟩
          by_contra hc
          have hp : ∀ e ∈ entries, parseInt t.ty e.key = .ok (BitVec.ofNat t.ty.width (intOf e.key)) := by
            intro e he
            obtain ⟨n, s, h⟩ := hint e he
            refine parseInt_ok h ?_
            rw [← litMax_eq]
            by_contra hlt
            exact hc (Or.inr (Or.inr ⟨t, ht, e, he, n, s, h, by omega⟩))
          rw [literalEntries_ok hp] at h
          exact Emitter.emitScalar_not_error (form_valid isMap form true true) msg h
        · rintro (⟨h, -⟩ | h | ⟨t', ht', e, he, n, s, h, hlt⟩)
          · exact absurd h hne
          · exact absurd h hi
          · obtain rfl := (classes_exclusive hne').1 t t' ht ht'
            obtain ⟨msg, hm⟩ := parseInt_error h (by rw [← litMax_eq]; exact hlt)
            obtain ⟨msg', hm'⟩ := literalEntries_error (unit := env.unit) hm he
            rw [hm']
            exact ⟨msg', rfl⟩
      | allLiteralStrings =>
        refine ⟨fun ⟨msg, h⟩ => ?_, fun h => (hno (by simp) h).elim⟩
        change handleLiteralStringKeys env (form.emitter isMap) entries = _ at h
        unfold handleLiteralStringKeys at h
        have hs := (c42_classes hne').2.1.1 ha
        have hp : ∀ e ∈ entries, parseStr e.key = .ok (strOf e.key) := fun e he => by
          obtain ⟨v, h⟩ := hs.2 e.key (List.mem_map_of_mem he)
          exact parseStr_ok h
        rw [literalEntries_ok hp] at h
        exact absurd h (Emitter.finish_not_error (form_valid isMap form true true) _ _ msg)
      | literalAndExpressionScalars =>
        exact ⟨fun ⟨msg, h⟩ => absurd h (Emitter.finish_not_error hv _ _ msg), fun h => (hno (by simp) h).elim⟩
      | literalAndExpressionStrings =>
        exact ⟨fun ⟨msg, h⟩ => absurd h (Emitter.finish_not_error hv _ _ msg), fun h => (hno (by simp) h).elim⟩
      | hashed => exact ⟨fun ⟨msg, h⟩ => absurd h (Emitter.finish_not_error hv _ _ msg), fun h => (hno (by simp) h).elim⟩
      | ordered => exact ⟨fun ⟨msg, h⟩ => absurd h (Emitter.finish_not_error hv _ _ msg), fun h => (hno (by simp) h).elim⟩

/-- `300` is no `u8`. -/
example : ∃ msg, fzMacro (demoEnv Nat String "") true .short .scalar [⟨.lit (.int 1 "u8"), 1, some "a"⟩, ⟨.lit (.int 300 ""), 300, some "b"⟩] =
    .ok (.error msg) :=
  (c42_macro_error_iff _ _ _ _ _).2 (Or.inr (Or.inr ⟨.u8, (c42_classes (by simp)).1 .u8 |>.1 rfl,
    ⟨.lit (.int 300 ""), 300, some "b"⟩, by simp, 300, "", .lit _, by decide⟩))

end Frozen.Props
