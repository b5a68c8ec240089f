import Verif.Props.StaticMacros

/-!
# Property theorems: which collections written with a macro are constant data (C88)
-/

namespace Frozen.Props

open Frozen Frozen.Spec Frozen.Model

variable {K V : Type}

/-- All keys are integer literals, or all are string literals. -/
def WrittenOut (keys : List KeySyntax) : Prop := (∀ k ∈ keys, IsIntLit k) ∨ ∀ k ∈ keys, IsStrLit k

private theorem computed_ctor {env : MacroEnv K V} {em : Emitter} {entries : List (MacroEntry K V)} {k : EffectiveKeyKind}
    (hk : ¬ ((∃ t, k = .allLiteralScalars t) ∨ k = .allLiteralStrings)) {item : Item (Emitted K V)}
    (hi : handleKeys env em entries k = .ok (.ok item)) : item.ctor.constFn = false := by
  cases k with
  | allLiteralScalars t => exact (hk (Or.inl ⟨t, rfl⟩)).elim
  | allLiteralStrings => exact (hk (Or.inr rfl)).elim
  | literalAndExpressionScalars =>
    have h' := Emitter.finish_inv hi
    have h := Except.ok.inj h'
    rw [← h]
    split <;> rfl
  | literalAndExpressionStrings =>
    have h' := Emitter.finish_inv hi
    have h := Except.ok.inj h'
    rw [← h]
    split <;> rfl
  | hashed =>
    have h' := Emitter.finish_inv hi
    have h := Except.ok.inj h'
    rw [← h]
    split <;> rfl
  | ordered =>
    have h' := Emitter.finish_inv hi
    have h := Except.ok.inj h'
    rw [← h]
    split <;> rfl

private theorem item_cases {env : MacroEnv K V} (hsc : ∀ t, SorterOk (env.sortScalar t)) (hst : SorterOk env.sortStr) {isMap : Bool}
    {form : MacroForm} {kind : MacroKind} {entries : List (MacroEntry K V)} (hn : entries.length < 2 ^ 60) {item : Item (Emitted K V)}
    (hi : fzMacro env isMap form kind entries = .ok (.ok item)) :
    (WrittenOut (entries.map (fun e => e.key)) ∧ ItemShape { form.emitter isMap with constKeys := true, constValues := true } item ∧
      item.ctor.constFn = true) ∨
    (¬ WrittenOut (entries.map (fun e => e.key)) ∧ ItemShape { form.emitter isMap with constKeys := false, constValues := false } item ∧
      item.ctor.constFn = false) := by
  by_cases hne : entries = []
  · subst hne
    refine Or.inl ⟨Or.inl (by simp), ?_⟩
    unfold fzMacro process at hi
    simp only [List.isEmpty_nil, if_true] at hi
    unfold processEmpty at hi
    split at hi
    · cases hi
    · have hu : usingHash env.find ({ form.emitter isMap with constKeys := true, constValues := true }.cleanValues env.unit
          ([] : List (CollectionEntry (BitVec ScalarType.i32.ty.width) K V))) (fun x => env.fsScalar ScalarType.i32.ty env.seed x.key)
          (fun x y => x.key == y.key) = .ok [] := by
        unfold Emitter.cleanValues
        split <;> rfl
      unfold Emitter.emitHash at hi
      rw [hu] at hi
      refine ⟨finish_shape (form_valid isMap form true true) hi, ?_⟩
      have h := Emitter.finish_inv hi
      simp only [List.length_nil, Nat.zero_lt_succ, if_true, Except.ok.injEq] at h
      rw [← h]
      rfl
  · cases ha : assessKeys kind (entries.map (fun e => e.key)) with
    | error msg =>
      unfold fzMacro process at hi
      rw [if_neg (by simpa using hne)] at hi
      simp only [ha] at hi
      cases hi
    | ok k =>
      unfold fzMacro at hi
      rw [process_of_assess hne ha] at hi
      by_cases hk : (∃ t, k = .allLiteralScalars t) ∨ k = .allLiteralStrings
      · obtain ⟨h1, h2, -, -⟩ := literal_item hsc hst hn hk hi
        refine Or.inl ⟨?_, h1, h2⟩
        rcases hk with ⟨t, rfl⟩ | rfl
        · left
          intro k hk
          obtain ⟨n, s, h, -⟩ := ((c42_classes (by simpa using hne)).1 t |>.1 ha).2.1 k hk
          exact ⟨n, s, h⟩
        · right
          intro k hk
          exact ((c42_classes (by simpa using hne)).2.1.1 ha).2 k hk
      · refine Or.inr ⟨fun h => hk (literal_kind hne ha ?_), computed_item (form_valid isMap form false false) hk hi, computed_ctor hk hi⟩
        rcases h with h | h
        · exact Or.inl fun e he => h _ (List.mem_map_of_mem he)
        · exact Or.inr fun e he => h _ (List.mem_map_of_mem he)

/-- **C88** (partial: keys that are constant but not written as literals are excluded; exact) A macro call that declares a `static` collection
declares constant data, made by the compiler without any call at run time, exactly when its keys are all integer literals or all string literals; in all
other cases it declares a collection that is built on first use. -/
theorem c88_static_partial {env : MacroEnv K V} (hsc : ∀ t, SorterOk (env.sortScalar t)) (hst : SorterOk env.sortStr) {isMap : Bool}
    {symbol aliasName : String} {kind : MacroKind} {entries : List (MacroEntry K V)} (hn : entries.length < 2 ^ 60) {item : Item (Emitted K V)}
    (hi : fzMacro env isMap (.static symbol aliasName) kind entries = .ok (.ok item)) :
    ((∃ c, item = .staticConst symbol (some aliasName) c ∧ c.constFn = true) ↔ WrittenOut (entries.map (fun e => e.key))) ∧
    ((∃ c, item = .staticLazy symbol (some aliasName) c ∧ c.constFn = false) ↔ ¬ WrittenOut (entries.map (fun e => e.key))) := by
  rcases item_cases hsc hst hn hi with ⟨hw, hs, hc⟩ | ⟨hw, hs, hc⟩
  · cases item with
    | staticConst s a c =>
      obtain ⟨-, -, -, h1, h2⟩ := hs
      cases h1
      cases h2
      exact ⟨⟨fun _ => hw, fun _ => ⟨c, rfl, hc⟩⟩, ⟨(fun ⟨_, h, _⟩ => by cases h), fun h => absurd hw h⟩⟩
    | staticLazy s a c => exact absurd ⟨rfl, rfl⟩ hs.2.1
    | letStmt _ _ _ _ => cases hs.1
    | expr _ => cases hs.1
  · cases item with
    | staticConst s a c => cases hs.2.1
    | staticLazy s a c =>
      obtain ⟨-, -, h1, h2⟩ := hs
      cases h1
      cases h2
      exact ⟨⟨(fun ⟨_, h, _⟩ => by cases h), fun h => absurd h hw⟩, ⟨fun _ => hw, fun _ => ⟨c, rfl, hc⟩⟩⟩
    | letStmt _ _ _ _ => cases hs.1
    | expr _ => cases hs.1

/-- **C88** (every form) Whatever the form of the call, the collection is laid out when the macro is expanded, and the code only calls `const` constructors,
exactly when its keys are all integer literals or all string literals; otherwise the data is analysed when the program runs. -/
theorem c88_layout {env : MacroEnv K V} (hsc : ∀ t, SorterOk (env.sortScalar t)) (hst : SorterOk env.sortStr) {isMap : Bool} {form : MacroForm}
    {kind : MacroKind} {entries : List (MacroEntry K V)} (hn : entries.length < 2 ^ 60) {item : Item (Emitted K V)}
    (hi : fzMacro env isMap form kind entries = .ok (.ok item)) :
    item.ctor.constFn = true ↔ WrittenOut (entries.map (fun e => e.key)) := by
  rcases item_cases hsc hst hn hi with ⟨hw, -, hc⟩ | ⟨hw, -, hc⟩
  · exact ⟨fun _ => hw, fun _ => hc⟩
  · exact ⟨fun h => absurd (hc.symm.trans h) (by simp), fun h => absurd h hw⟩

/-- **C88** (violated) A `static` map whose only key is constant but no literal, such as `-1`, a `char` constant or an enum variant, and whose value is constant
is built on first use, though the same map as constant data would be accepted by the compiler. -/
theorem c88_violated : ∃ c c', fzMacro (demoEnv Str Bool true) true (.static "M" "A") .hashed [⟨.other, [65], some true⟩] =
      .ok (.ok (.staticLazy "M" (some "A") c)) ∧
    (Item.staticConst "M" (some "A") c').accepted (fun _ => true) (fun _ => true) = true ∧ c'.entries = c.entries := by
  refine ⟨.scanNew "1".toList [([65], true)], .scanRaw "1".toList [([65], true)], ?_, rfl, rfl⟩
  cbv

/-- A `static` set of two string literals is constant data. -/
example : ∃ c, fzMacro (demoEnv Str Bool true) false (.static "S" "A") .hashed [⟨.lit (.str [65]), [65], none⟩, ⟨.lit (.str [66]), [66], none⟩] =
    .ok (.ok (.staticConst "S" (some "A") c)) := ⟨.scanRaw "2".toList [([65], true), ([66], true)], by cbv⟩

end Frozen.Props
