import Verif.Lemmas.Space
import Verif.Props.Expand

/-!
# C76: collections and generated code take space linear in what was written

The factors are those of the tables: a hash table has less than twenty slots per entry (six per entry from a thousand entries on), a lookup array of an
integer map at most ten cells per entry, or 128.
-/

namespace Frozen.Props

open Spec Model

variable {Q K V B E T : Type}

/-! ## In memory -/

theorem hash_cells [Target] {cm : Magnitude} {sort : Sorter (K × V)} (hsort : SorterOk sort) {hK : K → Res Nat} {S : List (K × V)} (hn : S.length < sizeLimit)
    {m : HashMap K V} (h : HashMap.fromDedupped cm sort hK S = .ok (.ok m)) :
    m.table.entries.Perm S ∧ m.table.slots.length ≤ max 1 (2 * (growthLimit S.length * S.length)) := by
  unfold HashMap.fromDedupped at h
  simp only [bind, Except.bind] at h
  split at h
  · cases h
  · split at h
    · cases h
    · rename_i r hr
      cases r with
      | error msg => cases h
      | ok t =>
        cases h
        obtain ⟨h1, h2⟩ := table_space hsort hn hr
        refine ⟨h1, ?_⟩
        by_cases hne : S = []
        · subst hne
          simp only [HashTable.new, List.isEmpty_nil, if_true] at hr
          cases hr
          exact Nat.le_max_left _ _
        · have := h2 hne
          show t.slots.length ≤ _
          omega

/-- A hash table, whatever its hash codes: at most one more than 21 cells per entry, and seven per entry from a thousand entries on. -/
theorem cells_of_hash [Target] {cm : Magnitude} {sort : Sorter (K × V)} (hsort : SorterOk sort) {hK : K → Res Nat} {S : List (K × V)} (hn : S.length < sizeLimit)
    {m : HashMap K V} (h : HashMap.fromDedupped cm sort hK S = .ok (.ok m)) :
    m.table.entries.Perm S ∧ HashCells m.table ≤ 21 * m.table.entries.length + 1 ∧
    (1000 ≤ m.table.entries.length → HashCells m.table ≤ 7 * m.table.entries.length) := by
  obtain ⟨h1, h2⟩ := hash_cells hsort hn h
  refine ⟨h1, ?_, fun hk => ?_⟩
  · have := growthLimit_le S.length
    have := h1.length_eq
    unfold HashCells
    omega
  · have hl := h1.length_eq
    have : growthLimit S.length = 3 := by
      unfold growthLimit
      rw [if_neg (by omega), if_neg (by omega)]
    rw [this] at h2
    unfold HashCells
    omega

/-- **C76** (hash maps)  A `HashMap` keeps some of the given entries, and its size is linear in their number. -/
theorem c76_hash_map [Target] {cm : Magnitude} {find : HbFind} {sort : Sorter (K × V)} (hsort : SorterOk sort) {eqK : K → K → Bool}
    {hK : K → Res Nat} {es : List (K × V)} (hn : es.length < sizeLimit) {m : HashMap K V}
    (h : HashMap.withHasher cm find sort eqK hK es = .ok (.ok m)) :
    m.table.entries.Subperm es ∧ HashCells m.table ≤ 21 * m.table.entries.length + 1 ∧
    (1000 ≤ m.table.entries.length → HashCells m.table ≤ 7 * m.table.entries.length) := by
  unfold HashMap.withHasher at h
  simp only [bind, Except.bind] at h
  split at h
  · cases h
  split at h
  · cases h
  · rename_i S hS
    have hsp := usingHash_subperm hS
    have := hsp.length_le
    obtain ⟨h1, h2⟩ := cells_of_hash hsort (by omega) h
    exact ⟨h1.subperm.trans hsp, h2⟩

/-- **C76** (`FzHashMap`). -/
theorem c76_fz_hash_map [Target] {find : HbFind} {sort : Sorter (K × V)} (hsort : SorterOk sort) {eqK : K → K → Bool} {bh : K → Nat} {es : List (K × V)}
    (hn : es.length < sizeLimit) {m : HashMap K V} (h : FzHashMap.withHasher find sort eqK bh es = .ok m) :
    m.table.entries.Subperm es ∧ HashCells m.table ≤ 21 * m.table.entries.length + 1 ∧
    (1000 ≤ m.table.entries.length → HashCells m.table ≤ 7 * m.table.entries.length) := by
  unfold FzHashMap.withHasher at h
  simp only [bind, Except.bind] at h
  split at h
  · cases h
  · rename_i S hS
    have hsp := usingHash_subperm hS
    have := hsp.length_le
    split at h
    · cases h
    · rename_i r hr
      cases r with
      | error msg => cases h
      | ok m' =>
        cases h
        obtain ⟨h1, h2⟩ := cells_of_hash hsort (by omega) hr
        exact ⟨h1.subperm.trans hsp, h2⟩

/-- **C76** (`FzStringMap`)  Whichever part of the strings is hashed. -/
theorem c76_fz_string_map [Target] {sort : Sorter (Str × V)} (hsort : SorterOk sort) {bhStr bhSlice : Str → Nat} {es : List (Str × V)}
    (hn : es.length < sizeLimit) {m : FzStringMap V} (h : FzStringMap.withHasher sort bhStr bhSlice es = .ok m) :
    m.entries.Subperm es ∧ StringCells m ≤ 21 * m.entries.length + 1 ∧ (1000 ≤ m.entries.length → StringCells m ≤ 7 * m.entries.length) := by
  have hsp := sad_subperm es (fun x y : Str × V => strCmp x.1 y.1)
  have := hsp.length_le
  unfold FzStringMap.withHasher usingCmp at h
  generalize sortedAndDedupped es (fun x y => strCmp x.1 y.1) = S at *
  simp only [bind, Except.bind] at h
  split at h
  · cases h
  · rename_i a ha
    have key : ∀ (hK : Str → Res Nat) (m' : HashMap Str V) (r : Except String (HashMap Str V)),
        HashMap.fromDedupped .large sort hK S = .ok r → unwrapR r = .ok m' →
        m'.table.entries.Subperm es ∧ HashCells m'.table ≤ 21 * m'.table.entries.length + 1 ∧
          (1000 ≤ m'.table.entries.length → HashCells m'.table ≤ 7 * m'.table.entries.length) := by
      intro hK m' r hr hu
      cases r with
      | error msg => cases hu
      | ok m'' =>
        cases hu
        obtain ⟨h1, h2⟩ := cells_of_hash hsort (by omega) hr
        exact ⟨h1.subperm.trans hsp, h2⟩
    cases a <;> simp only [FzStringMap.build, bind, Except.bind] at h <;> (split at h; · cases h) <;> (rename_i r hr) <;>
      (split at h; · cases h) <;> (rename_i m' hm) <;> (cases h; exact key _ _ _ hr hm)

/-- **C76** (`FzOrderedMap`)  Nothing but entries. -/
theorem c76_fz_ordered_map [Target] {cmp : K → K → Ordering} {es : List (K × V)} {m : EytzingerMap K V} (h : FzOrderedMap.new cmp es = .ok m) :
    m.entries.Subperm es := by
  unfold FzOrderedMap.new EytzingerMap.fromSortedAndDedupped at h
  simp only [bind, Except.bind] at h
  split at h
  · cases h
  · rename_i A hA
    cases h
    exact (eytzingerLayout_perm hA).subperm.trans (sad_subperm es _)

/-- **C76** (`FzScalarMap`)  However far apart the keys are. -/
theorem c76_fz_scalar_map [Target] {b : Build} {sort : Sorter (K × V)} (hsort : SorterOk sort) {cmp : K → K → Ordering} {index : K → Nat}
    (hs : LawfulScalar cmp index) {es : List (K × V)} (hn : es.length < sizeLimit) {m : FzScalarMap K V}
    (h : FzScalarMap.new b sort cmp index es = .ok m) :
    m.entries.Subperm es ∧ ScalarCells m ≤ 21 * m.entries.length + 128 := by
  have hsp := sad_subperm es (fun x y : K × V => cmp x.1 y.1)
  have hle := hsp.length_le
  have hst := sortedAndDedupped_strict (hs.lawfulCmp.entry (V := V)) es
  unfold FzScalarMap.new at h
  generalize sortedAndDedupped es (fun x y => cmp x.1 y.1) = S at *
  simp only [bind, Except.bind] at h
  split at h
  · cases h
  · rename_i a ha
    cases a with
    | denseRange =>
      simp only [FzScalarMap.build, DenseMap.fromSortedAndDedupped, bind, Except.bind] at h
      split at h
      · cases h
      · rename_i d hd
        repeat (split at hd; · cases hd)
        cases hd
        cases h
        refine ⟨hsp, ?_⟩
        simp only [ScalarCells, FzScalarMap.entries]
        omega
    | sparseRange =>
      simp only [FzScalarMap.build, bind, Except.bind] at h
      split at h
      · cases h
      · rename_i sp hp
        cases h
        obtain ⟨h1, h2⟩ := sparse_cells hs hst ha hp
        simp only [ScalarCells, FzScalarMap.entries, h1]
        exact ⟨hsp, by omega⟩
    | general =>
      simp only [FzScalarMap.build, bind, Except.bind] at h
      split at h
      · cases h
      · rename_i r hr
        cases r with
        | error msg => cases h
        | ok m' =>
          cases h
          obtain ⟨h1, h2, -⟩ := cells_of_hash hsort (by omega) hr
          exact ⟨h1.subperm.trans hsp, by simp only [ScalarCells, FzScalarMap.entries]; omega⟩

attribute [local instance] w64 in
/-- The factor of small tables is needed: thirteen hash codes may ask for 256 slots, which is 19.7 for each. -/
example : analyzeHashCodes [0, 1, 2, 3, 4, 5, 6, 7, 8, 9, 10, 11, 128] = .ok (256, 0) := by decide +kernel

attribute [local instance] w64 in
/-- Keys `0`, `127` of an integer map: 128 cells of lookup. -/
example : (FzScalarMap.new .debug slotSort (fun a b : Fin 200 => compare a b) (fun a => a.val) [((0 : Fin 200), "a"), (127, "b")]).map
    ScalarCells = .ok 130 := by cbv

/-! ## Code -/

/-- **C76** (emitters)  Generated code lists some of the entries that were given, and beside them at most one array, which is at most twenty times as
long or has at most 128 cells. -/
theorem c76_emit_hash [Target] {em : Emitter} {unit : V} {find : HbFind} {sort : Sorter (CollectionEntry B K V)} (hsort : SorterOk sort)
    {eqB : B → B → Bool} {fixedState : Nat → B → Nat} {seed : Nat} {entries : List (CollectionEntry B K V)} (hn : entries.length < sizeLimit)
    {item : Item (Emitted K V)} (hi : em.emitHash unit find sort eqB fixedState seed entries = .ok (.ok item)) :
    CompactCode (written em unit entries) item.ctor :=
  Emitter.emitHash_compact hsort hn hi

/-- **C76** (emitter, ordered keys)  No array beside the entries. -/
theorem c76_emit_ordered [Target] {em : Emitter} {unit : V} {cmpB : B → B → Ordering} {entries : List (CollectionEntry B K V)}
    {item : Item (Emitted K V)} (hi : em.emitOrdered unit cmpB entries = .ok (.ok item)) :
    CompactCode (written em unit entries) item.ctor :=
  Emitter.emitOrdered_compact hi

/-- **C76** (emitter, string keys). -/
theorem c76_emit_string [Target] {em : Emitter} {unit : V} {sort : Sorter (CollectionEntry Str K V)} (hsort : SorterOk sort)
    {fsStr fsSlice : Nat → Str → Nat} {seed : Nat} {entries : List (CollectionEntry Str K V)} (hn : entries.length < sizeLimit)
    {item : Item (Emitted K V)} (hi : em.emitString unit sort fsStr fsSlice seed entries = .ok (.ok item)) :
    CompactCode (written em unit entries) item.ctor :=
  Emitter.emitString_compact hsort hn hi

/-- **C76** (emitter, scalar keys). -/
theorem c76_emit_scalar [Target] {em : Emitter} {unit : V} {b : Build} {sort : Sorter (CollectionEntry B K V)} (hsort : SorterOk sort)
    {cmpB : B → B → Ordering} {index : B → Nat} (hB : LawfulScalar cmpB index) {entries : List (CollectionEntry B K V)}
    (hn : entries.length < sizeLimit) {item : Item (Emitted K V)} (hi : em.emitScalar unit b sort cmpB index entries = .ok (.ok item)) :
    CompactCode (written em unit entries) item.ctor :=
  Emitter.emitScalar_compact hsort hB hn hi

/-- **C76** (tokens)  Compact code is short: beside the tokens of the entries, a few hundred tokens for each entry, the types four times, and a constant. -/
theorem c76_tokens {es : List (K × V)} {item : Item (Emitted K V)} (h : CompactCode es item.ctor) (vis : Vis) (g : GenTypes) (t : ExprToks K V) :
    tokens (emittedTokens vis g t item) ≤
      (es.map (fun e => tokens (t.key e.1) + tokens (t.value e.2))).sum + 343 * es.length + 4 * tokens g.keyType + 3 * tokens g.value +
      2 * tokens vis.tokens + 2546 := by
  have h1 := tokens_emitted vis g t item
  have h2 := sum_subperm (fun e : K × V => tokens (t.key e.1) + tokens (t.value e.2) + 3) h.entries
  rw [← tokens_entries] at h2
  have h3 := h.side
  have h4 := h.entries.length_le
  have h5 : ∀ l : List (K × V), (l.map (fun e : K × V => tokens (t.key e.1) + tokens (t.value e.2) + 3)).sum =
      (l.map (fun e => tokens (t.key e.1) + tokens (t.value e.2))).sum + 3 * l.length := by
    intro l
    induction l with
    | nil => rfl
    | cons e l ih => simp only [List.map_cons, List.sum_cons, List.length_cons, ih]; omega
  rw [h5] at h2
  omega

/-! ## Macros -/

variable {S : SynParsers E T} {R : SynPrinters E T} {shape : E → KeySyntax} {isMap : Bool} {kind : MacroKind} {ts : List Tk}
  {env : MacroEnv (List Tk) (List Tk)}

attribute [local instance] w64 in
/-- **C76** (macros)  The expansion of a macro call, whatever its tokens are, has at most 345 times as many tokens, plus a constant. -/
theorem c76_macro (hE : Consumes S.expr) (hT : Consumes S.ty) (hpE : PrintsShort S.expr R.expr) (hpT : PrintsShort S.ty R.ty)
    (hsc : ∀ t, SorterOk (env.sortScalar t)) (hst : SorterOk env.sortStr) (hn : tokens ts < 2 ^ 60) {out : List Tk}
    (h : procMacro S R shape env isMap kind ts = .ok out) : tokens out ≤ 345 * tokens ts + 2600 := by
  unfold procMacro expand at h
  cases hp : parse2 S isMap ts with
  | error msg =>
    rw [hp] at h
    cases h
    exact Nat.le_trans (Nat.le_of_eq (tokens_error msg)) (by omega)
  | ok call =>
    rw [hp] at h
    simp only at h
    have hc := parse2_sound hE hT hp
    obtain ⟨inner, types, c1, c2, c3, c4⟩ := call_tokens hpE hpT hc
    have hv := call_values hc
    generalize hmean : codeMeaning shape R (needsSuffix kind (call.entries.map (fun e => shape e.key))) = mean at h
    cases hm : fzMacro { env with unit := [.group .paren []] } isMap call.form kind (call.entries.map (fun e => e.toMacro mean)) with
    | error f => rw [hm] at h; cases h
    | ok r =>
      rw [hm] at h
      cases r with
      | error msg =>
        cases h
        exact Nat.le_trans (Nat.le_of_eq (tokens_error msg)) (by omega)
      | ok item =>
        cases h
        have hlen : (call.entries.map (fun e => e.toMacro mean)).length = call.entries.length := List.length_map _
        have hcc := fzMacro_compact (env := { env with unit := [.group .paren []] }) hsc hst (isMap := isMap) (by
          intro him e he
          obtain ⟨e', he', rfl⟩ := List.mem_map.1 he
          have := hv e' he'
          rw [him] at this
          cases hev : e'.value with
          | none => simp [ParsedEntry.toMacro, hev]
          | some v => rw [hev] at this; cases this) (by omega) hm
        have ht := c76_tokens hcc call.vis (call.genTypes R isMap) codeToks
        have hsum : ((macroWritten isMap [.group .paren []] (call.entries.map (fun e => e.toMacro mean))).map
            (fun e => tokens (codeToks.key e.1) + tokens (codeToks.value e.2))).sum ≤ (call.entries.map (entryTokens R)).sum + call.entries.length := by
          rw [← hmean]
          clear * -
          generalize call.entries = es
          generalize needsSuffix kind _ = b
          unfold macroWritten
          induction es with
          | nil => exact Nat.le_refl _
          | cons e es ih =>
            simp only [List.map_cons, List.sum_cons, List.length_cons]
            have := entry_code (shape := shape) R isMap b e
            simp only [codeToks] at ih ⊢
            omega
        have hml : (macroWritten isMap [.group .paren []] (call.entries.map (fun e => e.toMacro mean))).length = call.entries.length := by
          unfold macroWritten
          rw [List.length_map, hlen]
        rw [hml] at ht
        simp only [] at ht hsum
        omega

/-! ## Instances -/

theorem atomParser_consumes : Consumes atomParser := by
  intro ts a rest h
  unfold atomParser at h
  split at h
  · cases h; exact ⟨[_], by simp, rfl⟩
  · cases h; exact ⟨[_], by simp, rfl⟩
  · cases h

theorem atomParser_short : PrintsShort atomParser (fun t => [t]) := by
  intro ts a ⟨hne, rest, h⟩
  have h1 : tokens [a] = 1 := by
    unfold atomParser at h
    split at h
    · cases h; rfl
    · cases h; rfl
    · cases h
  rw [h1]
  exact tokens_pos hne

/-- Every call of the macros of the instance, and one of them: 12 tokens become 58. -/
example (isMap : Bool) (kind : MacroKind) (ts : List Tk) (hn : tokens ts < 2 ^ 60) (out : List Tk)
    (h : procMacro atomSyn atomPrint atomShape (demoEnv _ _ []) isMap kind ts = .ok out) : tokens out ≤ 345 * tokens ts + 2600 :=
  c76_macro atomParser_consumes atomParser_consumes atomParser_short atomParser_short (fun _ => slotSort_ok) slotSort_ok hn h

example : tokens atomCall = 12 ∧ (procMacro atomSyn atomPrint atomShape (demoEnv _ _ []) true .scalar atomCall).map tokens = .ok 58 := by
  refine ⟨by rfl, by cbv⟩

attribute [local instance] w64 in
/-- Six entries of which five are kept, and sixteen slots. -/
example : ∃ item, staticMap.emitHash "" listFind slotSort natEq (fun seed q => (seed + 31 * q) % 2 ^ 64) 77
        [⟨3, 3, "a"⟩, ⟨10, 10, "b"⟩, ⟨18, 18, "c"⟩, ⟨3, 3, "d"⟩, ⟨500, 500, "e"⟩, ⟨12, 12, "f"⟩] = .ok (.ok item) ∧
      CompactCode [(3, "a"), (10, "b"), (18, "c"), (3, "d"), (500, "e"), (12, "f")] item.ctor := by
  obtain ⟨item, m, h1, -⟩ := c37_emit_hash (t := natTraits) (em := staticMap) (by unfold ValidOptions; decide) (unit := "") listFind_ok
    slotSort_ok natEq_lawful natEq_lawful natEq_query (fixedState := fun seed q => (seed + 31 * q) % 2 ^ 64) (seed := 77) (by decide)
    (fun a b h => by rw [eq_of_beq h]) (hk := fun q => (77 + 31 * q) % 2 ^ 64) (natEq_hash _)
    (entries := [⟨3, 3, "a"⟩, ⟨10, 10, "b"⟩, ⟨18, 18, "c"⟩, ⟨3, 3, "d"⟩, ⟨500, 500, "e"⟩, ⟨12, 12, "f"⟩])
    (by decide) (by decide) (by decide)
  exact ⟨item, h1, c76_emit_hash slotSort_ok (by decide) h1⟩

attribute [local instance] w64 in
example : (staticMap.emitHash "" listFind slotSort natEq (fun seed q => (seed + 31 * q) % 2 ^ 64) 77
        [⟨3, 3, "a"⟩, ⟨10, 10, "b"⟩, ⟨18, 18, "c"⟩, ⟨3, 3, "d"⟩, ⟨500, 500, "e"⟩, ⟨12, 12, "f"⟩]).map
    (fun r => r.map (fun item => (item.ctor.entries.length, sideArray item.ctor))) = .ok (.ok (5, 16)) := by cbv

end Frozen.Props
