import Verif.Model.ConstEval
import Verif.Lemmas.Macros
import Verif.Lemmas.MacroLits

/-!
# Helper lemmas on constant initializers (C55)
-/

namespace Frozen.Model

open Frozen.Spec Frozen.Props

variable {B K V : Type}

/-- The constructor is a `const fn` and lists exactly the given entries, in some order. -/
def RawOf (es : List (CollectionEntry B K V)) (c : Emitted K V) : Prop :=
  c.constFn = true ∧ c.entries.Perm (es.map (fun e => e.toTokens))

theorem genScan_raw (g : Generator) (es : List (CollectionEntry B K V)) : RawOf es (g.genScan es) := ⟨rfl, List.Perm.refl _⟩

theorem genHash_raw [Target] {g : Generator} {sort : Sorter (CollectionEntry B K V)} (hs : SorterOk sort)
    {es : List (CollectionEntry B K V)} (hn : es.length < sizeLimit) {hash : B → Nat} {hasher : HasherTok} {c : Emitted K V}
    (h : g.genHash sort es hash hasher = .ok c) : RawOf es c := by
  have hcap : es.length ≤ Magnitude.maxCapacity .large := by
    have : Magnitude.maxCapacity .large = usizeMax := rfl
    have hu := target_cases
    omega
  obtain ⟨t, ht, -, hp, -⟩ := (HashTable.new_spec .large hs es (fun x => hash x.key) hn).1 hcap
  unfold Generator.genHash at h
  simp only [ht, bind, Except.bind, unwrapR] at h
  cases hc : t.hasCollisions with
  | error e => rw [hc] at h; cases h
  | ok b =>
    rw [hc] at h
    cases b with
    | true =>
      simp only [if_true] at h
      cases h
      exact ⟨rfl, hp.map _⟩
    | false =>
      simp only [Bool.false_eq_true, if_false] at h
      cases h
      exact ⟨rfl, hp.map _⟩

theorem genDense_raw [Target] {g : Generator} {b : Build} {index : B → Nat} {es : List (CollectionEntry B K V)} {c : Emitted K V}
    (h : g.genDense b index es = .ok c) : RawOf es c := by
  unfold Generator.genDense at h
  simp only [bind, Except.bind] at h
  repeat' split at h
  all_goals first | cases h; done | (cases h; exact ⟨rfl, List.Perm.refl _⟩)

theorem genSparse_raw [Target] {g : Generator} {b : Build} {index : B → Nat} {es : List (CollectionEntry B K V)} {c : Emitted K V}
    (h : g.genSparse b index es = .ok c) : RawOf es c := by
  unfold Generator.genSparse at h
  simp only [bind, Except.bind] at h
  repeat' split at h
  all_goals first | cases h; done | (cases h; exact ⟨rfl, List.Perm.refl _⟩)

theorem genScalar_raw [Target] {g : Generator} {b : Build} {sort : Sorter (CollectionEntry B K V)} (hs : SorterOk sort) {index : B → Nat}
    {es : List (CollectionEntry B K V)} (hn : es.length < sizeLimit) {a : ScalarAnalysis} {c : Emitted K V}
    (h : g.genScalar b sort index es a = .ok c) : RawOf es c := by
  cases a with
  | denseRange => exact genDense_raw h
  | sparseRange => exact genSparse_raw h
  | general =>
    simp only [Generator.genScalar] at h
    by_cases hl : es.length < 8
    · rw [if_pos hl] at h; cases h; exact genScan_raw _ _
    · rw [if_neg hl] at h; exact genHash_raw hs hn h

theorem genStringOrScan_raw [Target] {g : Generator} {sort : Sorter (CollectionEntry Str K V)} (hs : SorterOk sort)
    {fsStr fsSlice : Nat → Str → Nat} {seed : Nat} {es : List (CollectionEntry Str K V)} (hn : es.length < sizeLimit) {c : Emitted K V}
    (h : g.genStringOrScan sort fsStr fsSlice seed es = .ok c) : RawOf es c := by
  unfold Generator.genStringOrScan at h
  split at h
  · cases h; exact genScan_raw _ _
  · simp only [bind, Except.bind] at h
    split at h
    · cases h
    · rename_i a _
      cases a with
      | general => exact genHash_raw hs hn h
      | length => exact genHash_raw hs hn h
      | left r =>
        simp only [Generator.genString, bind, Except.bind] at h
        split at h
        · cases h
        · exact genHash_raw hs hn h
      | right r =>
        simp only [Generator.genString, bind, Except.bind] at h
        split at h
        · cases h
        · exact genHash_raw hs hn h

theorem keepLast_last {α : Type} (eq : α → α → Bool) : ∀ (l : List α) (x : α), l.getLast? = some x → x ∈ keepLast eq l
  | [], x, h => by cases h
  | [y], x, h => by
    cases h
    simp [keepLast]
  | y :: z :: l, x, h => by
    have ih := keepLast_last eq (z :: l) x (by simpa [List.getLast?_cons_cons] using h)
    rw [keepLast]
    split
    · exact ih
    · exact List.mem_cons_of_mem _ ih

theorem finish_shape {α : Type} {em : Emitter} (hv : ValidOptions em) {n : Nat} {gen : Generator → Res α} {item : Item α}
    (h : em.finish n gen = .ok (.ok item)) : ItemShape em item := by
  have hg := Emitter.finish_inv h
  have h2 := Emitter.finish_ok hv hg
  have : item = itemOf em item.ctor := by
    have := h.symm.trans h2
    simpa using this
  rw [this]
  exact itemOf_shape hv _

/-- The entries of a raw constructor for sorted and dedupped entries, against those that were written. -/
theorem raw_entries {em : Emitter} {unit : V} {es : List (CollectionEntry B K V)} {cmp : B → B → Ordering} (hc : LawfulCmp cmp)
    {c : Emitted K V} (h : RawOf (sortedAndDedupped (em.cleanValues unit es) (fun x y => cmp x.key y.key)) c) :
    c.constFn = true ∧
    (∀ x ∈ c.entries, x ∈ es.map (fun e => (e.keyExpr, if em.hasValueType then e.valueExpr else unit))) ∧
    (∀ x, (es.map (fun e => (e.keyExpr, if em.hasValueType then e.valueExpr else unit))).getLast? = some x → x ∈ c.entries) := by
  have hp := sortedAndDedupped_perm (hc.comap (fun x : CollectionEntry B K V => x.key)) (em.cleanValues unit es)
  refine ⟨h.1, fun x hx => ?_, fun x hx => ?_⟩
  · obtain ⟨e, he, rfl⟩ := List.mem_map.1 (h.2.mem_iff.1 hx)
    rw [← Emitter.cleanValues_map]
    exact List.mem_map_of_mem ((keepLast_sublist _ _).subset (hp.mem_iff.1 he))
  · rw [← Emitter.cleanValues_map, List.getLast?_map] at hx
    obtain ⟨e, he, rfl⟩ := Option.map_eq_some_iff.1 hx
    exact h.2.mem_iff.2 (List.mem_map_of_mem (hp.mem_iff.2 (keepLast_last _ _ _ he)))

theorem sortedAndDedupped_length_le {T : Type} {cmp : T → T → Ordering} (hc : LawfulCmp cmp) (es : List T) :
    (sortedAndDedupped es cmp).length ≤ es.length :=
  (sortedAndDedupped_perm hc es).length_eq ▸ (keepLast_sublist _ _).length_le

theorem literalEntries_written {unit : V} {parse : KeySyntax → Except String B} {em : Emitter} {isMap : Bool}
    (hm : em.hasValueType = isMap) :
    ∀ {entries : List (MacroEntry K V)} {es : List (CollectionEntry B K V)}, literalEntries unit parse entries = .ok es →
      es.map (fun e => (e.keyExpr, if em.hasValueType then e.valueExpr else unit)) = macroWritten isMap unit entries
  | [], es, h => by
    simp only [literalEntries] at h
    cases h
    rfl
  | e :: entries, es, h => by
    simp only [literalEntries, bind, Except.bind] at h
    split at h
    · cases h
    · split at h
      · cases h
      · rename_i rest hrest
        cases h
        have ih := literalEntries_written hm hrest
        rw [List.map_cons, ih]
        simp [macroWritten, MacroEntry.toCollection, hm]

attribute [local instance] w64 in
/-- What the handlers for literal keys emit. -/
theorem literal_item {env : MacroEnv K V} (hsc : ∀ t, SorterOk (env.sortScalar t)) (hst : SorterOk env.sortStr) {isMap : Bool}
    {form : MacroForm} {entries : List (MacroEntry K V)} (hn : entries.length < 2 ^ 60) {k : EffectiveKeyKind}
    (hk : (∃ t, k = .allLiteralScalars t) ∨ k = .allLiteralStrings) {item : Item (Emitted K V)}
    (hi : handleKeys env (form.emitter isMap) entries k = .ok (.ok item)) :
    ItemShape { form.emitter isMap with constKeys := true, constValues := true } item ∧ item.ctor.constFn = true ∧
    (∀ x ∈ item.ctor.entries, x ∈ macroWritten isMap env.unit entries) ∧
    (∀ x, (macroWritten isMap env.unit entries).getLast? = some x → x ∈ item.ctor.entries) := by
  have hm : ({ form.emitter isMap with constKeys := true, constValues := true } : Emitter).hasValueType = isMap :=
    form_hasValueType isMap form
  rcases hk with ⟨t, rfl⟩ | rfl
  · change handleLiteralScalarKeys env (form.emitter isMap) t.ty entries = _ at hi
    unfold handleLiteralScalarKeys at hi
    cases hl : literalEntries env.unit (parseInt t.ty) entries with
    | error msg => rw [hl] at hi; cases hi
    | ok es =>
      rw [hl] at hi
      have hlaw := c15_lawful t.ty_mem
      rw [← ScalarTy.cmp_eq_scalarCmp] at hlaw
      unfold Emitter.emitScalar at hi
      simp only [bind, Except.bind] at hi
      split at hi
      · cases hi
      · refine ⟨finish_shape (form_valid isMap form true true) hi, ?_⟩
        rw [← literalEntries_written hm hl]
        refine raw_entries hlaw.lawfulCmp (genScalar_raw (hsc _) ?_ (Emitter.finish_inv hi))
        refine Nat.lt_of_le_of_lt (sortedAndDedupped_length_le (hlaw.lawfulCmp.comap _) _) ?_
        rw [Emitter.cleanValues_length, literalEntries_length hl]
        exact hn
  · change handleLiteralStringKeys env (form.emitter isMap) entries = _ at hi
    unfold handleLiteralStringKeys at hi
    cases hl : literalEntries env.unit parseStr entries with
    | error msg => rw [hl] at hi; cases hi
    | ok es =>
      rw [hl] at hi
      unfold Emitter.emitString usingCmp at hi
      refine ⟨finish_shape (form_valid isMap form true true) hi, ?_⟩
      rw [← literalEntries_written hm hl]
      refine raw_entries strCmp_lawful (genStringOrScan_raw hst ?_ (Emitter.finish_inv hi))
      refine Nat.lt_of_le_of_lt (sortedAndDedupped_length_le (strCmp_lawful.comap _) _) ?_
      rw [Emitter.cleanValues_length, literalEntries_length hl]
      exact hn

attribute [local instance] w64 in
/-- What the handlers for computed keys emit. -/
theorem computed_item {env : MacroEnv K V} {em : Emitter} (hv : ValidOptions { em with constKeys := false, constValues := false })
    {entries : List (MacroEntry K V)} {k : EffectiveKeyKind} (hk : ¬ ((∃ t, k = .allLiteralScalars t) ∨ k = .allLiteralStrings))
    {item : Item (Emitted K V)} (hi : handleKeys env em entries k = .ok (.ok item)) :
    ItemShape { em with constKeys := false, constValues := false } item := by
  cases k with
  | allLiteralScalars t => exact (hk (Or.inl ⟨t, rfl⟩)).elim
  | allLiteralStrings => exact (hk (Or.inr rfl)).elim
  | literalAndExpressionScalars => exact finish_shape hv hi
  | literalAndExpressionStrings => exact finish_shape hv hi
  | hashed => exact finish_shape hv hi
  | ordered => exact finish_shape hv hi

end Frozen.Model
