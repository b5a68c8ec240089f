import Verif.Lemmas.ConstEval
import Verif.Props.Emit

/-!
# C55: static collections and constant initializers

The full claim -- whatever value expressions are written, the item that a macro call expands to is accepted by the compiler -- is false:
`c55_refuted` and `c55_last_value` show that a `static` map with literal keys and a value that is no constant expression is emitted as plain
constant data, although the same call with one computed key is emitted with lazy initialisation.  `c55_accepted_partial` proves the claim
with the missing case excluded.
-/

namespace Frozen.Props

attribute [local instance] w64

open Frozen.Spec Frozen.Model

variable {K V : Type}

/-- The form declares a `static`. -/
def MacroForm.IsStatic : MacroForm → Prop
  | .static _ _ => True
  | _ => False

/-- **C55** (partial: `static` maps with literal keys and a value that is not constant are excluded) The item that a macro call expands to is
accepted by the compiler as far as constant evaluation goes: if it is no `static`, if some key is no literal, if it is a set, or if all values
written are constant. -/
theorem c55_accepted_partial {env : MacroEnv K V} (hsc : ∀ t, SorterOk (env.sortScalar t)) (hst : SorterOk env.sortStr)
    {isMap : Bool} {form : MacroForm} {kind : MacroKind} {entries : List (MacroEntry K V)} (hn : entries.length < 2 ^ 60)
    {item : Item (Emitted K V)} (hi : fzMacro env isMap form kind entries = .ok (.ok item)) {constK : K → Bool} {constV : V → Bool}
    (hunit : constV env.unit = true) (hkey : ∀ e ∈ entries, ∀ l, KeyIs e.key l → constK e.keyValue = true)
    (hcase : ¬ MacroForm.IsStatic form ∨ (∃ e ∈ entries, ∀ l, ¬ KeyIs e.key l) ∨ isMap = false ∨
      ∀ e ∈ entries, ∀ v, e.value = some v → constV v = true) : item.accepted constK constV = true := by
  have hother : ∀ c1 c2, ¬ MacroForm.IsStatic form → ItemShape { form.emitter isMap with constKeys := c1, constValues := c2 } item →
      item.accepted constK constV = true := by
    intro c1 c2 h1 h2
    cases item with
    | staticConst s a c =>
      cases form with
      | static _ _ => exact (h1 trivial).elim
      | short => cases h2.1
      | let_ _ _ _ => cases h2.1
    | staticLazy _ _ _ => rfl
    | letStmt _ _ _ _ => rfl
    | expr _ => rfl
  by_cases hne : entries = []
  · subst hne
    unfold fzMacro process at hi
    simp only [List.isEmpty_nil, if_true] at hi
    unfold processEmpty at hi
    split at hi
    · cases hi
    · have hu : usingHash env.find ({ form.emitter isMap with constKeys := true, constValues := true }.cleanValues env.unit
          ([] : List (CollectionEntry (BitVec ScalarType.i32.ty.width) K V))) (fun x => env.fsScalar ScalarType.i32.ty env.seed x.key)
          (fun x y => x.key == y.key) = .ok [] := by
        unfold Emitter.cleanValues
        split <;> rfl
      unfold Emitter.emitHash at hi
      rw [hu] at hi
      have h := Emitter.finish_inv hi
      simp only [List.length_nil, Nat.zero_lt_succ, if_true, Except.ok.injEq] at h
      cases item with
      | staticConst s a c =>
        have h : _ = c := h
        rw [← h]
        rfl
      | staticLazy _ _ _ => rfl
      | letStmt _ _ _ _ => rfl
      | expr _ => rfl
  · have hcase' : ∀ k, assessKeys kind (entries.map (fun e => e.key)) = .ok k →
        ((∃ t, k = .allLiteralScalars t) ∨ k = .allLiteralStrings) → ∀ e ∈ entries, ∃ l, KeyIs e.key l := by
      intro k ha hk e he
      rcases hk with ⟨t, rfl⟩ | rfl
      · obtain ⟨n, s, h, -⟩ := ((c42_classes (by simpa using hne)).1 t |>.1 ha).2.1 e.key (List.mem_map_of_mem he)
        exact ⟨_, h⟩
      · obtain ⟨v, h⟩ := ((c42_classes (by simpa using hne)).2.1.1 ha).2 e.key (List.mem_map_of_mem he)
        exact ⟨_, h⟩
    cases ha : assessKeys kind (entries.map (fun e => e.key)) with
    | error msg =>
      unfold fzMacro process at hi
      rw [if_neg (by simpa using hne)] at hi
      simp only [ha] at hi
      cases hi
    | ok k =>
      unfold fzMacro at hi
      rw [process_of_assess hne ha] at hi
      by_cases hk : (∃ t, k = .allLiteralScalars t) ∨ k = .allLiteralStrings
      · obtain ⟨h1, h2, h3, -⟩ := literal_item hsc hst hn hk hi
        have hl := hcase' k ha hk
        rcases hcase with h | ⟨e, he, h⟩ | h
        · exact hother _ _ h h1
        · obtain ⟨l, hl⟩ := hl e he
          exact (h l hl).elim
        · cases item with
          | staticConst s a c =>
            simp only [Item.accepted, Bool.and_eq_true, List.all_eq_true]
            refine ⟨h2, fun x hx => ?_⟩
            obtain ⟨e, he, rfl⟩ := List.mem_map.1 (h3 x hx)
            obtain ⟨l, hl⟩ := hl e he
            refine ⟨hkey e he l hl, ?_⟩
            rcases h with h | h
            · simpa [h] using hunit
            · cases hv : e.value with
              | none => simpa [hv] using hunit
              | some v =>
                cases isMap
                · simpa using hunit
                · simpa [hv] using h e he v hv
          | staticLazy _ _ _ => rfl
          | letStmt _ _ _ _ => rfl
          | expr _ => rfl
      · have h1 := computed_item (form_valid isMap form false false) hk hi
        cases item with
        | staticConst s a c => exact absurd h1.2.1 (by simp)
        | staticLazy _ _ _ => rfl
        | letStmt _ _ _ _ => rfl
        | expr _ => rfl

/-- Keys that are all integer literals or all string literals are handled as literals. -/
theorem literal_kind {kind : MacroKind} {entries : List (MacroEntry K V)} (hne : entries ≠ []) {k : EffectiveKeyKind}
    (ha : assessKeys kind (entries.map (fun e => e.key)) = .ok k)
    (hlit : (∀ e ∈ entries, IsIntLit e.key) ∨ ∀ e ∈ entries, IsStrLit e.key) :
    (∃ t, k = .allLiteralScalars t) ∨ k = .allLiteralStrings := by
  obtain ⟨e, he⟩ := List.exists_mem_of_ne_nil _ hne
  by_contra hk
  have hc : ¬ Incompatible kind (entries.map (fun e => e.key)) := fun h => by
    obtain ⟨msg, h⟩ := assess_error h
    rw [ha] at h
    cases h
  have hin : ∀ k' ∈ entries.map (fun e => e.key), ∃ e ∈ entries, e.key = k' := fun k' h => List.mem_map.1 h
  have hke := List.mem_map_of_mem (f := fun e : MacroEntry K V => e.key) he
  have hex : ∀ l : Lit, KeyIs e.key l → NoLits (entries.map (fun e => e.key)) → False := fun l h h' => h' _ hke l h
  rcases assess_cases (kind := kind) (by simpa using hne) hc with ⟨t, h, -⟩ | ⟨h, -⟩ | ⟨-, h⟩ | ⟨-, h⟩ | ⟨-, -, h⟩ | ⟨-, -, h⟩
  · rw [ha] at h; cases h; exact hk (Or.inl ⟨t, rfl⟩)
  · rw [ha] at h; cases h; exact hk (Or.inr rfl)
  · obtain ⟨-, h1, ⟨k', hk', h2⟩, -⟩ := h
    obtain ⟨e', he', rfl⟩ := hin k' hk'
    rcases hlit with hlit | hlit
    · exact h2 (hlit e' he')
    · exact h1 _ hk' (hlit e' he')
  · obtain ⟨h1, ⟨k', hk', h2⟩, h3⟩ := h
    obtain ⟨e', he', rfl⟩ := hin k' hk'
    rcases hlit with hlit | hlit
    · rcases h3 with rfl | ⟨k'', hk'', h3⟩
      · exact h1 (Or.inr (Or.inr (Or.inl ⟨rfl, _, hk', hlit e' he'⟩)))
      · obtain ⟨e'', he'', rfl⟩ := hin k'' hk''
        exact IsStrLit.not_int h3 (hlit e'' he'')
    · exact h2 (hlit e' he')
  all_goals
    rcases hlit with hlit | hlit
    · obtain ⟨n, s, h'⟩ := hlit e he
      exact hex _ h' h
    · obtain ⟨v, h'⟩ := hlit e he
      exact hex _ h' h

/-- **C55** (where the claim fails) A `static` map with literal keys only, whose last value is not constant, is never accepted. -/
theorem c55_last_value {env : MacroEnv K V} (hsc : ∀ t, SorterOk (env.sortScalar t)) (hst : SorterOk env.sortStr)
    {symbol aliasName : String} {kind : MacroKind} {entries : List (MacroEntry K V)} (hn : entries.length < 2 ^ 60)
    {item : Item (Emitted K V)} (hi : fzMacro env true (.static symbol aliasName) kind entries = .ok (.ok item))
    (hlit : (∀ e ∈ entries, IsIntLit e.key) ∨ ∀ e ∈ entries, IsStrLit e.key) {e : MacroEntry K V} (hlast : entries.getLast? = some e) {v : V}
    (hv : e.value = some v) (constK : K → Bool) {constV : V → Bool} (hc : constV v = false) :
    item.accepted constK constV = false := by
  have hne : entries ≠ [] := by rintro rfl; cases hlast
  have he : e ∈ entries := List.mem_of_getLast? hlast
  cases ha : assessKeys kind (entries.map (fun e => e.key)) with
  | error msg =>
    unfold fzMacro process at hi
    rw [if_neg (by simpa using hne)] at hi
    simp only [ha] at hi
    cases hi
  | ok k =>
    unfold fzMacro at hi
    rw [process_of_assess hne ha] at hi
    by_cases hk : (∃ t, k = .allLiteralScalars t) ∨ k = .allLiteralStrings
    · obtain ⟨h1, h2, -, h4⟩ := literal_item hsc hst hn hk hi
      have hmem := h4 (e.keyValue, v) (by
        unfold macroWritten
        rw [List.getLast?_map, hlast]
        simp [hv])
      cases item with
      | staticConst s a c =>
        simp only [Item.accepted, Bool.and_eq_false_iff]
        right
        rw [List.all_eq_false]
        exact ⟨_, hmem, by simp [hc]⟩
      | staticLazy _ _ _ => exact (h1.2.1 ⟨rfl, rfl⟩).elim
      | letStmt _ _ _ _ => cases h1.1
      | expr _ => cases h1.1
    · exact (hk (literal_kind hne ha hlit)).elim

/-- Two keys are the same literal, up to the suffix. -/
def SameLit (k k' : KeySyntax) : Prop :=
  (∃ n s s', KeyIs k (.int n s) ∧ KeyIs k' (.int n s')) ∨ ∃ v, KeyIs k (.str v) ∧ KeyIs k' (.str v)

theorem mem_keepLast_iff {α : Type} {eq : α → α → Bool} {x : α} : ∀ {l : List α},
    x ∈ keepLast eq l ↔ ∃ pre post, l = pre ++ x :: post ∧ ∀ y ∈ post, eq x y = false
  | [] => by simp [keepLast]
  | z :: l => by
    have ih := mem_keepLast_iff (eq := eq) (x := x) (l := l)
    have hr : (∃ pre post, z :: l = pre ++ x :: post ∧ ∀ y ∈ post, eq x y = false) ↔
        (z = x ∧ ∀ y ∈ l, eq x y = false) ∨ x ∈ keepLast eq l := by
      rw [ih]
      constructor
      · rintro ⟨pre, post, h1, h2⟩
        cases pre with
        | nil => cases h1; exact Or.inl ⟨rfl, h2⟩
        | cons p pre => cases h1; exact Or.inr ⟨pre, post, rfl, h2⟩
      · rintro (⟨rfl, h⟩ | ⟨pre, post, rfl, h⟩)
        · exact ⟨[], l, rfl, h⟩
        · exact ⟨z :: pre, post, rfl, h⟩
    rw [hr, show keepLast eq (z :: l) = if l.any (eq z) then keepLast eq l else z :: keepLast eq l from rfl]
    split
    · rename_i ha
      obtain ⟨y, hy, hxy⟩ := List.any_eq_true.1 ha
      refine ⟨Or.inr, ?_⟩
      rintro (⟨rfl, h⟩ | h)
      · rw [h y hy] at hxy; cases hxy
      · exact h
    · rename_i ha
      have ha' : ∀ y ∈ l, eq z y = false := by simpa using ha
      rw [List.mem_cons]
      constructor
      · rintro (rfl | h)
        · exact Or.inl ⟨rfl, ha'⟩
        · exact Or.inr h
      · rintro (⟨rfl, -⟩ | h)
        · exact Or.inl rfl
        · exact Or.inr h

theorem parseInt_inv {t : ScalarTy} {k : KeySyntax} {b : BitVec t.width} (h : parseInt t k = .ok b) :
    ∃ n s, KeyIs k (.int n s) ∧ n ≤ t.maxValue ∧ b = BitVec.ofNat t.width n := by
  unfold parseInt at h
  split at h
  · rename_i n s hk
    split at h
    · rename_i hn
      cases h
      exact ⟨n, s, keyLit_iff.1 hk, hn, rfl⟩
    · cases h
  · cases h

theorem parseStr_inv {k : KeySyntax} {b : Str} (h : parseStr k = .ok b) : KeyIs k (.str b) := by
  unfold parseStr at h
  split at h
  · rename_i v hk
    cases h
    exact keyLit_iff.1 hk
  · cases h

/-- What constant data for literal keys lists: the entries that no entry with the same key follows. -/
theorem literal_entries_iff {B : Type} [Inhabited B] {em : Emitter} {unit : V} {isMap : Bool} (hm : em.hasValueType = isMap)
    {parse : KeySyntax → Except String B} {entries : List (MacroEntry K V)} {es : List (CollectionEntry B K V)}
    (hl : literalEntries unit parse entries = .ok es) {cmp : B → B → Ordering} (hc : LawfulCmp cmp)
    (hsame : ∀ e ∈ entries, ∀ e' ∈ entries, ∀ b b', parse e.key = .ok b → parse e'.key = .ok b' →
      ((cmp b b' == .eq) = true ↔ SameLit e.key e'.key))
    {c : Emitted K V} (h : RawOf (sortedAndDedupped (em.cleanValues unit es) (fun x y => cmp x.key y.key)) c) (x : K × V) :
    x ∈ c.entries ↔ ∃ pre e post, entries = pre ++ e :: post ∧ (∀ e' ∈ post, ¬ SameLit e.key e'.key) ∧
      x = (e.keyValue, if isMap then e.value.getD unit else unit) := by
  obtain ⟨f, hp⟩ : ∃ f : MacroEntry K V → B, ∀ e ∈ entries, parse e.key = .ok (f e) := by
    refine ⟨fun e => (parse e.key).toOption.getD default, fun e he => ?_⟩
    cases hpe : parse e.key with
    | error msg =>
      obtain ⟨msg', h'⟩ := literalEntries_error (unit := unit) hpe he
      rw [hl] at h'
      cases h'
    | ok b => simp [hpe, Except.toOption]
  have hes : es = entries.map (fun e => e.toCollection unit (f e)) := by
    have := (literalEntries_ok (unit := unit) hp).symm.trans hl
    cases this
    rfl
  have hcl : em.cleanValues unit es = entries.map (fun e : MacroEntry K V =>
      (⟨f e, e.keyValue, if isMap then e.value.getD unit else unit⟩ : CollectionEntry B K V)) := by
    subst hes
    unfold Emitter.cleanValues
    rw [hm]
    cases isMap
    · simp [MacroEntry.toCollection]
    · simp [MacroEntry.toCollection]
  rw [h.2.mem_iff, List.mem_map]
  have hmem : ∀ y, y ∈ sortedAndDedupped (em.cleanValues unit es) (fun x y => cmp x.key y.key) ↔ _ := fun y =>
    (sortedAndDedupped_perm (hc.comap (fun x : CollectionEntry B K V => x.key)) (em.cleanValues unit es)).mem_iff.trans mem_keepLast_iff
  constructor
  · rintro ⟨y, hy, rfl⟩
    obtain ⟨pre, post, h1, h2⟩ := (hmem y).1 hy
    rw [hcl] at h1
    obtain ⟨pre', rest, rfl, rfl, h3⟩ := List.map_eq_append_iff.1 h1
    obtain ⟨e, post', rfl, rfl, rfl⟩ := List.map_eq_cons_iff.1 h3
    refine ⟨pre', e, post', rfl, fun e' he' hs => ?_, rfl⟩
    have h4 := h2 _ (List.mem_map_of_mem he')
    have h5 := (hsame e (by simp) e' (by simp [he']) _ _ (hp e (by simp)) (hp e' (by simp [he']))).2 hs
    simp only at h4
    rw [h5] at h4
    cases h4
  · rintro ⟨pre, e, post, rfl, h2, rfl⟩
    let g : MacroEntry K V → CollectionEntry B K V := fun e => ⟨f e, e.keyValue, if isMap then e.value.getD unit else unit⟩
    refine ⟨g e, (hmem _).2 ⟨pre.map g, post.map g, ?_, ?_⟩, rfl⟩
    · rw [hcl, List.map_append, List.map_cons]
    · intro y hy
      obtain ⟨e', he', rfl⟩ := List.mem_map.1 hy
      have h5 := hsame e (by simp) e' (by simp [he']) _ _ (hp e (by simp)) (hp e' (by simp [he']))
      by_contra hcon
      exact h2 e' he' (h5.1 (by simpa using hcon))

/-- **C55**, exactly: a `static` map whose keys are all literals is accepted if and only if every value that ends up in it is constant; a
value that is replaced by a later entry with the same key does not matter. -/
theorem c55_accepted_iff {env : MacroEnv K V} (hsc : ∀ t, SorterOk (env.sortScalar t)) (hst : SorterOk env.sortStr)
    {symbol aliasName : String} {kind : MacroKind} {entries : List (MacroEntry K V)} (hn : entries.length < 2 ^ 60)
    {item : Item (Emitted K V)} (hi : fzMacro env true (.static symbol aliasName) kind entries = .ok (.ok item))
    (hlit : (∀ e ∈ entries, IsIntLit e.key) ∨ ∀ e ∈ entries, IsStrLit e.key) (hne : entries ≠ [])
    {constK : K → Bool} {constV : V → Bool} (hkey : ∀ e ∈ entries, constK e.keyValue = true) :
    item.accepted constK constV = true ↔
      ∀ pre e post, entries = pre ++ e :: post → (∀ e' ∈ post, ¬ SameLit e.key e'.key) → constV (e.value.getD env.unit) = true := by
  obtain ⟨k, hk, hi', h1, h2⟩ : ∃ k, ((∃ t, k = .allLiteralScalars t) ∨ k = .allLiteralStrings) ∧
      handleKeys env ((MacroForm.static symbol aliasName).emitter true) entries k = .ok (.ok item) ∧
      ItemShape { (MacroForm.static symbol aliasName).emitter true with constKeys := true, constValues := true } item ∧
      item.ctor.constFn = true := by
    cases ha : assessKeys kind (entries.map (fun e => e.key)) with
    | error msg =>
      unfold fzMacro process at hi
      rw [if_neg (by simpa using hne)] at hi
      simp only [ha] at hi
      cases hi
    | ok k =>
      unfold fzMacro at hi
      rw [process_of_assess hne ha] at hi
      have hk := literal_kind hne ha hlit
      obtain ⟨h1, h2, -, -⟩ := literal_item hsc hst hn hk hi
      exact ⟨k, hk, hi, h1, h2⟩
  have hent : ∀ x, x ∈ item.ctor.entries ↔ ∃ pre e post, entries = pre ++ e :: post ∧ (∀ e' ∈ post, ¬ SameLit e.key e'.key) ∧
      x = (e.keyValue, e.value.getD env.unit) := by
    intro x
    have hm : ({ (MacroForm.static symbol aliasName).emitter true with constKeys := true, constValues := true } : Emitter).hasValueType
        = true := rfl
    rcases hk with ⟨t, rfl⟩ | rfl
    · change handleLiteralScalarKeys env _ t.ty entries = _ at hi'
      unfold handleLiteralScalarKeys at hi'
      cases hl : literalEntries env.unit (parseInt t.ty) entries with
      | error msg => rw [hl] at hi'; cases hi'
      | ok es =>
        rw [hl] at hi'
        have hlaw := c15_lawful t.ty_mem
        rw [← ScalarTy.cmp_eq_scalarCmp] at hlaw
        unfold Emitter.emitScalar at hi'
        simp only [bind, Except.bind] at hi'
        split at hi'
        · cases hi'
        · have hraw := genScalar_raw (hsc _) (by
            refine Nat.lt_of_le_of_lt (sortedAndDedupped_length_le (hlaw.lawfulCmp.comap _) _) ?_
            rw [Emitter.cleanValues_length, literalEntries_length hl]
            exact hn) (Emitter.finish_inv hi')
          have h := literal_entries_iff (isMap := true) hm hl hlaw.lawfulCmp ?_ hraw x
          · simpa using h
          · intro e he e' he' b b' hb hb'
            obtain ⟨n, s, h3, h4, h5⟩ := parseInt_inv hb
            obtain ⟨n', s', h3', h4', h5'⟩ := parseInt_inv hb'
            subst h5 h5'
            rw [← litMax_eq] at h4 h4'
            rw [ScalarTy.cmp_eq_scalarCmp, scalarCmp, scalarVal_ofNat h4, scalarVal_ofNat h4', beq_iff_eq, compare_eq_iff_eq]
            constructor
            · intro h
              have : n = n' := by exact_mod_cast h
              subst this
              exact Or.inl ⟨n, s, s', h3, h3'⟩
            · rintro (⟨m, u, u', h6, h7⟩ | ⟨v, h6, -⟩)
              · have e1 := (keyLit_iff.2 h3).symm.trans (keyLit_iff.2 h6)
                have e2 := (keyLit_iff.2 h3').symm.trans (keyLit_iff.2 h7)
                cases e1
                cases e2
                rfl
              · have e1 := (keyLit_iff.2 h3).symm.trans (keyLit_iff.2 h6)
                cases e1
    · change handleLiteralStringKeys env _ entries = _ at hi'
      unfold handleLiteralStringKeys at hi'
      cases hl : literalEntries env.unit parseStr entries with
      | error msg => rw [hl] at hi'; cases hi'
      | ok es =>
        rw [hl] at hi'
        unfold Emitter.emitString usingCmp at hi'
        have hraw := genStringOrScan_raw hst (by
            refine Nat.lt_of_le_of_lt (sortedAndDedupped_length_le (strCmp_lawful.comap _) _) ?_
            rw [Emitter.cleanValues_length, literalEntries_length hl]
            exact hn) (Emitter.finish_inv hi')
        have h := literal_entries_iff (isMap := true) hm hl strCmp_lawful ?_ hraw x
        · simpa using h
        · intro e he e' he' b b' hb hb'
          have h3 := parseStr_inv hb
          have h3' := parseStr_inv hb'
          rw [beq_iff_eq, strCmp_eq_iff]
          constructor
          · rintro rfl
            exact Or.inr ⟨b, h3, h3'⟩
          · rintro (⟨m, u, u', h6, -⟩ | ⟨v, h6, h7⟩)
            · have e1 := (keyLit_iff.2 h3).symm.trans (keyLit_iff.2 h6)
              cases e1
            · have e1 := (keyLit_iff.2 h3).symm.trans (keyLit_iff.2 h6)
              have e2 := (keyLit_iff.2 h3').symm.trans (keyLit_iff.2 h7)
              cases e1
              cases e2
              rfl
  cases item with
  | staticConst s a c =>
    simp only [Item.accepted, Bool.and_eq_true, List.all_eq_true]
    constructor
    · rintro ⟨-, h⟩ pre e post h3 h4
      exact (h _ ((hent _).2 ⟨pre, e, post, h3, h4, rfl⟩)).2
    · intro h
      refine ⟨h2, fun x hx => ?_⟩
      obtain ⟨pre, e, post, h3, h4, rfl⟩ := (hent x).1 hx
      exact ⟨hkey e (by rw [h3]; simp), h pre e post h3 h4⟩
  | staticLazy _ _ _ => exact (h1.2.1 ⟨rfl, rfl⟩).elim
  | letStmt _ _ _ _ => cases h1.1
  | expr _ => cases h1.1

/-- **C55** (where the claim fails, one call) `fz_string_map!(static M: A<&str, T>, { "A": not_const() })`: the value labelled `false` is not
constant.  With a computed key instead of the literal the same map is accepted. -/
theorem c55_refuted :
    (∃ item, fzMacro (demoEnv Str Bool true) true (.static "M" "A") .string [⟨.lit (.str [65]), [65], some false⟩] = .ok (.ok item) ∧
      item.accepted (fun _ => true) id = false) ∧
    ∃ item, fzMacro (demoEnv Str Bool true) true (.static "M" "A") .string [⟨.other, [65], some false⟩] = .ok (.ok item) ∧
      item.accepted (fun _ => true) id = true :=
  ⟨⟨.staticConst "M" (some "A") (.scanRaw "1".toList [([65], false)]), by cbv, rfl⟩,
    ⟨.staticLazy "M" (some "A") (.scanNew "1".toList [([65], false)]), by cbv, rfl⟩⟩

/-- A `static` map with five string literals and constant values is accepted; it is stored as constant data. -/
example : ∃ s a c, fzMacro (demoEnv Str Bool true) true (.static "M" "A") .string
      [⟨.lit (.str [65]), [65], some true⟩, ⟨.lit (.str [66, 67]), [66, 67], some true⟩, ⟨.lit (.str [68]), [68], some true⟩,
        ⟨.lit (.str [69]), [69], some true⟩, ⟨.lit (.str [65]), [65], some true⟩] = .ok (.ok (.staticConst s a c)) ∧
    (Item.staticConst s a c).accepted (fun _ => true) id = true := by
  obtain ⟨item, m, h1, h2, -⟩ := c37_macro_strings (env := demoEnv Str Bool true) slotSort_ok (by decide) (isMap := true)
    (form := .static "M" "A") (kind := .string)
    (entries := [⟨.lit (.str [65]), [65], some true⟩, ⟨.lit (.str [66, 67]), [66, 67], some true⟩, ⟨.lit (.str [68]), [68], some true⟩,
        ⟨.lit (.str [69]), [69], some true⟩, ⟨.lit (.str [65]), [65], some true⟩]) (by simp)
    ((c42_classes (by simp)).2.1.1 rfl) (bytesK := fun x => x)
    (by
      intro e he v h
      simp only [List.mem_cons, List.not_mem_nil, or_false] at he
      rcases he with rfl | rfl | rfl | rfl | rfl <;> cases h <;> decide)
    (by decide) (q := strTraits) rfl (fun _ => rfl) rfl
  have h3 := c55_accepted_partial (fun _ => slotSort_ok) slotSort_ok (by decide) h1 (constK := fun _ => true) (constV := id) rfl
    (fun _ _ _ _ => rfl) (Or.inr (Or.inr (Or.inr (by simp))))
  cases item with
  | staticConst s a c => exact ⟨s, a, c, h1, h3⟩
  | staticLazy _ _ _ => exact (h2.2.1 ⟨rfl, rfl⟩).elim
  | letStmt _ _ _ _ => cases h2.1
  | expr _ => cases h2.1

/-- The value of the first entry is not constant but replaced; the map is accepted all the same. -/
example : ∃ item, fzMacro (demoEnv Str Bool true) true (.static "M" "A") .string
      [⟨.lit (.str [65]), [65], some false⟩, ⟨.lit (.str [65]), [65], some true⟩] = .ok (.ok item) ∧
    item.accepted (fun _ => true) id = true := by
  refine ⟨.staticConst "M" (some "A") (.scanRaw "1".toList [([65], true)]), by cbv, ?_⟩
  rw [c55_accepted_iff (env := demoEnv Str Bool true) (fun _ => slotSort_ok) slotSort_ok (symbol := "M") (aliasName := "A")
    (kind := .string) (entries := [⟨.lit (.str [65]), [65], some false⟩, ⟨.lit (.str [65]), [65], some true⟩]) (by decide) (by cbv)
    (Or.inr (by
      intro e he
      simp only [List.mem_cons, List.not_mem_nil, or_false] at he
      rcases he with rfl | rfl <;> exact ⟨_, .lit _⟩)) (by simp) (fun _ _ => rfl)]
  intro pre e post h1 h2
  match pre, h1 with
  | [], h1 =>
    simp only [List.nil_append, List.cons.injEq] at h1
    obtain ⟨rfl, rfl⟩ := h1
    exact (h2 _ (List.mem_singleton_self _) (Or.inr ⟨_, .lit _, .lit _⟩)).elim
  | [_], h1 =>
    simp only [List.cons_append, List.nil_append, List.cons.injEq] at h1
    obtain ⟨-, rfl, -⟩ := h1
    rfl
  | _ :: _ :: _, h1 => simp at h1

end Frozen.Props
