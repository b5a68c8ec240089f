import Verif.Lemmas.Tokens
import Verif.Props.StaticMacros

/-!
# C63, C64: names and types in the code that macros and emitters return

C63: the full claim -- the code means the same wherever it stands, in crates without the standard library and in modules with their own
`vec` and `std` -- is false: `c63_refuted` shows that collections with computed keys use the unqualified names `vec` and `std`.
`c63_names_partial` proves the claim with these two names excepted and `c63_self_contained_iff`, `c63_macro_iff` say exactly when it holds.

C64: the initializer of every declaration has the declared type.
-/

namespace Frozen.Props

open Frozen.Spec Frozen.Model

variable {K V F : Type}

/-- What is allowed: the names of self-contained code, and `vec` or `std` if wanted. -/
private def Allowed (pieces : List (List Tk)) (declared : List String) (vec std : Prop) (u : NameUse) : Prop :=
  (WrittenIn pieces u ∨ (∃ s, u = .member s) ∨ u = .rooted "frozen_collections" ∨
    ∃ s, u = .free s ∧ (s ∈ ["type", "static", "let", "mut"] ∨ s ∈ declared)) ∨
  (u = .free "vec" ∧ vec) ∨ (u = .free "std" ∧ std)

/-- **C63** (partial: the names `vec` and `std` are excepted) Apart from the pieces that the caller wrote and the names it declares, the code consists of
keywords, of paths into the crate `frozen_collections`, of `vec` if the constructor takes a vector, and of `std` if the item is initialised on first use. -/
theorem c63_names_partial (vis : Vis) (g : GenTypes) (t : ExprToks K V) (item : Item (Emitted K V)) :
    ∀ u ∈ namesIn .fresh (emittedTokens vis g t item),
      WrittenIn (callerPieces vis g t item.ctor.entries) u ∨ (∃ s, u = .member s) ∨ u = .rooted "frozen_collections" ∨
      (∃ s, u = .free s ∧ (s ∈ ["type", "static", "let", "mut"] ∨ s ∈ declaredNames item)) ∨
      (u = .free "vec" ∧ UsesVec item.ctor) ∨ (u = .free "std" ∧ IsLazy item) := by
  let A := Allowed (callerPieces vis g t item.ctor.entries) (declaredNames item) (UsesVec item.ctor) (IsLazy item)
  have hA : Allows A := ⟨fun s => .inl (.inr (.inl ⟨s, rfl⟩)), .inl (.inr (.inr (.inl rfl)))⟩
  have hw : ∀ ts ∈ callerPieces vis g t item.ctor.entries, Ok A .fresh ts := fun ts h u hu => .inl (.inl ⟨ts, h, hu⟩)
  have hg : OkTypes A g := by
    refine ⟨hw _ (by simp [callerPieces]), ?_⟩
    unfold GenTypes.value
    cases h : g.valueType with
    | none => exact ok_group (ok_nil _) (ok_nil _)
    | some ts => exact hw _ (by simp [callerPieces, h])
  have he : ∀ x ∈ item.ctor.entries, Ok A .fresh (t.key x.1) ∧ Ok A .fresh (t.value x.2) := fun x hx =>
    ⟨hw _ (by simp only [callerPieces, List.mem_cons, List.mem_append, List.mem_flatMap]; exact .inr (.inr (.inr ⟨x, hx, by simp⟩))),
      hw _ (by simp only [callerPieces, List.mem_cons, List.mem_append, List.mem_flatMap]; exact .inr (.inr (.inr ⟨x, hx, by simp⟩)))⟩
  have h := ok_decl (A := A) (vis := vis) hA (hw _ (by simp [callerPieces])) (ok_sig hA hg item.ctor) (ctor := fun e => e.ctorTokens g t) (item := item)
    (ok_ctor hA hg he fun h => .inr (.inl ⟨rfl, h⟩)) (fun s hs => .inl (.inr (.inr (.inr ⟨s, rfl, .inl hs⟩))))
    (fun s hs => .inl (.inr (.inr (.inr ⟨s, rfl, .inr hs⟩)))) fun h => .inr (.inr ⟨rfl, h⟩)
  intro u hu
  rcases h u hu with (h | h | h | h) | h | h
  · exact .inl h
  · exact .inr (.inl h)
  · exact .inr (.inr (.inl h))
  · exact .inr (.inr (.inr (.inl h)))
  · exact .inr (.inr (.inr (.inr (.inl h))))
  · exact .inr (.inr (.inr (.inr (.inr h))))

/-- The caller's code does not use the name. -/
def Unused (vis : Vis) (g : GenTypes) (t : ExprToks K V) (item : Item (Emitted K V)) (s : String) : Prop :=
  ¬ WrittenIn (callerPieces vis g t item.ctor.entries) (.free s) ∧ s ∉ declaredNames item

/-- **C63** (exactly when the claim holds) The code is self-contained if and only if the constructor does not take a vector and the item is not initialised
on first use. -/
theorem c63_self_contained_iff {vis : Vis} {g : GenTypes} {t : ExprToks K V} {item : Item (Emitted K V)} (hv : Unused vis g t item "vec")
    (hs : Unused vis g t item "std") :
    SelfContained (callerPieces vis g t item.ctor.entries) (declaredNames item) (emittedTokens vis g t item) ↔
      ¬ UsesVec item.ctor ∧ ¬ IsLazy item := by
  have hno : ∀ s, Unused vis g t item s → s ∉ ["type", "static", "let", "mut"] → NameUse.free s ∈ namesIn .fresh (emittedTokens vis g t item) →
      ¬ SelfContained (callerPieces vis g t item.ctor.entries) (declaredNames item) (emittedTokens vis g t item) := by
    intro s hu hk hm h
    rcases h _ hm with h | ⟨_, h⟩ | h | ⟨s', h, h'⟩
    · exact hu.1 h
    · cases h
    · cases h
    · cases h
      exact h'.elim hk hu.2
  refine ⟨fun h => ⟨fun h' => ?_, fun h' => ?_⟩, fun ⟨h1, h2⟩ u hu => ?_⟩
  · exact hno _ hv (by decide) (decl_group (ctor_vec h')) h
  · exact hno _ hs (by decide) (decl_std h') h
  · rcases c63_names_partial vis g t item u hu with h | h | h | h | h | h
    · exact .inl h
    · exact .inr (.inl h)
    · exact .inr (.inr (.inl h))
    · exact .inr (.inr (.inr h))
    · exact (h1 h.2).elim
    · exact (h2 h.2).elim

attribute [local instance] w64 in
/-- The expansion of a macro call takes a vector if and only if the keys are neither all integer literals nor all string literals; if they are, it is
not initialised on first use. -/
theorem macro_vec {env : MacroEnv K V} (hsc : ∀ t, SorterOk (env.sortScalar t)) (hst : SorterOk env.sortStr) {isMap : Bool} {form : MacroForm}
    {kind : MacroKind} {entries : List (MacroEntry K V)} (hn : entries.length < 2 ^ 60) {item : Item (Emitted K V)}
    (hi : fzMacro env isMap form kind entries = .ok (.ok item)) :
    ((∀ e ∈ entries, IsIntLit e.key) ∨ (∀ e ∈ entries, IsStrLit e.key) → ¬ UsesVec item.ctor ∧ ¬ IsLazy item) ∧
    (¬ ((∀ e ∈ entries, IsIntLit e.key) ∨ ∀ e ∈ entries, IsStrLit e.key) → UsesVec item.ctor) := by
  have hvec : ∀ e : Emitted K V, e.constFn = true → ¬ UsesVec e := fun e h => by
    cases e with
    | scanNew => cases h
    | eytzingerNew => cases h
    | fz => cases h
    | _ => exact id
  have hlazy : ∀ em : Emitter, em.constKeys = true → em.constValues = true → ItemShape em item → ¬ IsLazy item := fun em h1 h2 h => by
    cases item with
    | staticLazy s a c => exact (h.2.1 ⟨h1, h2⟩).elim
    | _ => exact id
  by_cases hne : entries = []
  · subst hne
    refine ⟨fun _ => ?_, fun h => (h (.inl (by simp))).elim⟩
    unfold fzMacro process at hi
    simp only [List.isEmpty_nil, if_true] at hi
    unfold processEmpty at hi
    split at hi
    · cases hi
    · have hu : usingHash env.find ({ form.emitter isMap with constKeys := true, constValues := true }.cleanValues env.unit
          ([] : List (CollectionEntry (BitVec ScalarType.i32.ty.width) K V))) (fun x => env.fsScalar ScalarType.i32.ty env.seed x.key)
          (fun x y => x.key == y.key) = .ok [] := by
        unfold Emitter.cleanValues
        split <;> rfl
      unfold Emitter.emitHash at hi
      rw [hu] at hi
      have h := Emitter.finish_inv hi
      simp only [List.length_nil, Nat.zero_lt_succ, if_true, Except.ok.injEq] at h
      exact ⟨hvec _ (by rw [← h]; rfl), hlazy _ rfl rfl (finish_shape (form_valid isMap form true true) hi)⟩
  · cases ha : assessKeys kind (entries.map (fun e => e.key)) with
    | error msg =>
      unfold fzMacro process at hi
      rw [if_neg (by simpa using hne)] at hi
      simp only [ha] at hi
      cases hi
    | ok k =>
      unfold fzMacro at hi
      rw [process_of_assess hne ha] at hi
      refine ⟨fun hl => ?_, fun hl => ?_⟩
      · obtain ⟨h1, h2, -⟩ := literal_item hsc hst hn (literal_kind hne ha hl) hi
        exact ⟨hvec _ h2, hlazy _ rfl rfl h1⟩
      · have key : ∀ e e' : Emitted K V, UsesVec e → UsesVec e' → ∀ c : Prop, [Decidable c] → UsesVec (if c then e else e') := by
          intro e e' h h' c _
          split <;> assumption
        cases k with
        | allLiteralScalars t =>
          refine (hl (.inl fun e he => ?_)).elim
          obtain ⟨n, s, h, -⟩ := ((c42_classes (by simpa using hne)).1 t |>.1 ha).2.1 e.key (List.mem_map_of_mem he)
          exact ⟨n, s, h⟩
        | allLiteralStrings => exact (hl (.inr fun e he => ((c42_classes (by simpa using hne)).2.1.1 ha).2 e.key (List.mem_map_of_mem he))).elim
        | literalAndExpressionScalars =>
          have h := Emitter.finish_item hi
          rw [← Except.ok.inj h]
          exact key _ _ (by exact trivial) (by exact trivial) _
        | literalAndExpressionStrings =>
          have h := Emitter.finish_item hi
          rw [← Except.ok.inj h]
          exact key _ _ (by exact trivial) (by exact trivial) _
        | hashed =>
          have h := Emitter.finish_item hi
          rw [← Except.ok.inj h]
          exact key _ _ (by exact trivial) (by exact trivial) _
        | ordered =>
          have h := Emitter.finish_item hi
          rw [← Except.ok.inj h]
          exact key _ _ (by exact trivial) (by exact trivial) _

attribute [local instance] w64 in
/-- **C63** (exactly when the claim holds) The expansion of a macro call is self-contained if and only if its keys are all integer literals or all string
literals. -/
theorem c63_macro_iff {env : MacroEnv K V} (hsc : ∀ t, SorterOk (env.sortScalar t)) (hst : SorterOk env.sortStr) {isMap : Bool} {form : MacroForm}
    {kind : MacroKind} {entries : List (MacroEntry K V)} (hn : entries.length < 2 ^ 60) {item : Item (Emitted K V)}
    (hi : fzMacro env isMap form kind entries = .ok (.ok item)) {vis : Vis} {g : GenTypes} {t : ExprToks K V} (hv : Unused vis g t item "vec")
    (hs : Unused vis g t item "std") :
    SelfContained (callerPieces vis g t item.ctor.entries) (declaredNames item) (emittedTokens vis g t item) ↔
      (∀ e ∈ entries, IsIntLit e.key) ∨ ∀ e ∈ entries, IsStrLit e.key := by
  rw [c63_self_contained_iff hv hs]
  obtain ⟨h1, h2⟩ := macro_vec hsc hst hn hi
  refine ⟨fun h => ?_, h1⟩
  by_contra hc
  exact h.1 (h2 hc)

/-- **C64** The code of every well-typed constructor denotes a collection, whose type is the one the generator names, and evaluating it has the
outcome that the emitted constructor has. -/
theorem c64_constructor [Target] {P : Prog K V F} {g : GenTypes} {t : ExprToks K V} {e : Emitted K V} (hw : WellTyped e) (hc : CallerOk P g t e)
    (hfz : ∀ kind es, e = .fz kind es → (P.fz kind es).isSome) :
    ∃ T r, e.compile P.eqK P.cmp P.fz = some r ∧ TyToks P.userTy (e.sigTokens g) T ∧ CollMeans P g.valueType.isSome (e.ctorTokens g t) T r := by
  obtain ⟨p, q, f, args, r, h1, h2, h3, h4, h5, h6⟩ := map_means hw hc hfz
  unfold Emitted.sigTokens Emitted.ctorTokens CollMeans
  cases hv : g.valueType with
  | some ts => exact ⟨_, r, h1, h4.ty, h6⟩
  | none =>
    have : GenTypes.valueRTy g = .unit := by unfold GenTypes.valueRTy; rw [hv]
    rw [this] at h6
    refine ⟨_, r, h1, h5.ty, ?_⟩
    show SetMeans P (callOf (e.setSig g) e.setFn (e.mapCtor g t)) _ _
    rw [callOf_eq, ← h3]
    exact .set h2 h5 h6

/-- **C64** In every item that an emitter returns the initializer has the declared type, directly or through the alias, and its evaluation has the outcome
that the emitted constructor has. -/
theorem c64_declares [Target] {P : Prog K V F} (vis : Vis) {g : GenTypes} {t : ExprToks K V} {item : Item (Emitted K V)} (hw : WellTyped item.ctor)
    (hc : CallerOk P g t item.ctor) (hfz : ∀ kind es, item.ctor = .fz kind es → (P.fz kind es).isSome) :
    ∃ r, item.ctor.compile P.eqK P.cmp P.fz = some r ∧
      Declares P g.valueType.isSome vis.tokens (emittedTokens vis g t item) (declKind item) r := by
  obtain ⟨T, r, h1, h2, h3⟩ := c64_constructor hw hc hfz
  refine ⟨r, h1, ?_⟩
  unfold emittedTokens
  cases item with
  | staticConst s a out =>
    cases a with
    | some al =>
      have := Declares.constant (vis := vis.tokens) (name := s) (Named.alias (al := al) h2) h3
      simpa [declTokens, declKind, Item.ctor, List.append_assoc] using this
    | none =>
      have := Declares.constant (vis := vis.tokens) (name := s) (Named.direct h2) h3
      simpa [declTokens, declKind, Item.ctor, List.append_assoc] using this
  | staticLazy s a out =>
    cases a with
    | some al =>
      have := Declares.onFirstUse (vis := vis.tokens) (name := s) (Named.alias (al := al) h2) h3
      simpa [declTokens, declKind, Item.ctor, lazyToks, lazyLockPath, List.append_assoc] using this
    | none =>
      have := Declares.onFirstUse (vis := vis.tokens) (name := s) (Named.direct h2) h3
      simpa [declTokens, declKind, Item.ctor, lazyToks, lazyLockPath, List.append_assoc] using this
  | letStmt mu s a out =>
    cases a with
    | some al =>
      have := Declares.local_ (vis := vis.tokens) (mutable := mu) (name := s) (Named.alias (al := al) h2) h3
      simpa [declTokens, declKind, Item.ctor, List.append_assoc] using this
    | none =>
      have := Declares.local_ (vis := vis.tokens) (mutable := mu) (name := s) (Named.direct h2) h3
      simpa [declTokens, declKind, Item.ctor, List.append_assoc] using this
  | expr out => exact .expression h3

attribute [local instance] w64 in
/-- **C64** The expansion of every macro call is well typed in this sense. -/
theorem c64_macro {env : MacroEnv K V} (hsc : ∀ t, SorterOk (env.sortScalar t)) (hst : SorterOk env.sortStr) (hseed : env.seed < 2 ^ 64)
    {isMap : Bool} {form : MacroForm} {kind : MacroKind} {entries : List (MacroEntry K V)} (hn : entries.length < 2 ^ 56)
    (hkl : ∀ e ∈ entries, ∀ v, KeyIs e.key (.str v) → v.length ≤ usizeMax) {item : Item (Emitted K V)}
    (hi : fzMacro env isMap form kind entries = .ok (.ok item)) {P : Prog K V F} (vis : Vis) {g : GenTypes} {t : ExprToks K V}
    (hc : CallerOk P g t item.ctor) (hfz : ∀ kind es, item.ctor = .fz kind es → (P.fz kind es).isSome) :
    ∃ r, item.ctor.compile P.eqK P.cmp P.fz = some r ∧
      Declares P g.valueType.isSome vis.tokens (emittedTokens vis g t item) (declKind item) r :=
  c64_declares vis (c38_macro hsc hst hseed hn hkl hi) hc hfz

/-! ## Concrete cases -/

/-- The caller's code in the cases below: keys and values that are called `k` and `v`. -/
def demoToks : ExprToks Str Bool where
  key _ := [.ident "k"]
  value _ := [.ident "v"]

/-- `<&'static str, bool>`, the first of them by the name `Name`. -/
def demoTypes : GenTypes where
  keyType := [.ident "Name"]
  valueType := some [.ident "bool"]

theorem demo_unused (item : Item (Emitted Str Bool)) (hd : declaredNames item = ["M", "A"]) (s : String)
    (hs : s ∉ ["pub", "Name", "bool", "k", "v", "M", "A"]) : Unused .pub demoTypes demoToks item s := by
  simp only [List.mem_cons, List.not_mem_nil, or_false, not_or] at hs
  refine ⟨?_, by rw [hd]; simp [hs]⟩
  rintro ⟨ts, h, hu⟩
  simp only [callerPieces, demoTypes, demoToks, List.mem_cons, List.mem_append, List.mem_flatMap, Option.toList_some, List.not_mem_nil, or_false,
    Vis.tokens] at h
  rcases h with rfl | rfl | rfl | ⟨x, -, rfl | rfl⟩ <;> simp [namesIn, namesTk, PathPos.use] at hu <;> simp [hu] at hs

attribute [local instance] w64 in
/-- **C63** (refutation of the full claim) The static map of one computed key names `vec` and `std` without a leading `::`. -/
theorem c63_refuted : ∃ item, fzMacro (demoEnv Str Bool true) true (.static "M" "A") .string [⟨.other, [65], some false⟩] = .ok (.ok item) ∧
    NameUse.free "vec" ∈ namesIn .fresh (emittedTokens .pub demoTypes demoToks item) ∧
    NameUse.free "std" ∈ namesIn .fresh (emittedTokens .pub demoTypes demoToks item) ∧
    ¬ SelfContained (callerPieces .pub demoTypes demoToks item.ctor.entries) (declaredNames item) (emittedTokens .pub demoTypes demoToks item) := by
  refine ⟨.staticLazy "M" (some "A") (.scanNew "1".toList [([65], false)]), by cbv, decl_group (ctor_vec trivial), decl_std trivial, ?_⟩
  rw [c63_self_contained_iff (demo_unused _ rfl _ (by decide)) (demo_unused _ rfl _ (by decide))]
  exact fun h => h.1 trivial

/-- The tokens of a set of three entries, in full, and its names. -/
example : emittedTokens (V := Unit) .inherited { keyType := [.ident "u8"], valueType := none }
      { key := fun n : Nat => [.lit (toString n)], value := fun _ => [.group .paren []] } (.expr (.scanRaw "2".toList [(7, ()), (8, ())])) =
    [.punct ':' true, .punct ':' false, .ident "frozen_collections", .punct ':' true, .punct ':' false, .ident "inline_sets",
      .punct ':' true, .punct ':' false, .ident "InlineScanSet", .punct ':' true, .punct ':' false, .punct '<' false, .ident "u8", .punct ',' false,
      .lit "2", .punct '>' false, .punct ':' true, .punct ':' false, .ident "new", .group .paren [
      .punct ':' true, .punct ':' false, .ident "frozen_collections", .punct ':' true, .punct ':' false, .ident "inline_maps",
      .punct ':' true, .punct ':' false, .ident "InlineScanMap", .punct ':' true, .punct ':' false, .punct '<' false, .ident "u8", .punct ',' false,
      .group .paren [], .punct ',' false, .lit "2", .punct '>' false, .punct ':' true, .punct ':' false, .ident "new_raw", .group .paren [
      .group .bracket [.group .paren [.lit "7", .punct ',' false, .group .paren []], .punct ',' false,
        .group .paren [.lit "8", .punct ',' false, .group .paren []], .punct ',' false]]]] := by
  rfl

/-- A static map of literal keys is self-contained: the hypotheses of `c63_macro_iff` are met. -/
example : ∃ item, fzMacro (demoEnv Str Bool true) true (.static "M" "A") .string [⟨.lit (.str [65]), [65], some false⟩] = .ok (.ok item) ∧
    SelfContained (callerPieces .pub demoTypes demoToks item.ctor.entries) (declaredNames item) (emittedTokens .pub demoTypes demoToks item) :=
  ⟨.staticConst "M" (some "A") (.scanRaw "1".toList [([65], false)]), by cbv,
    (c63_self_contained_iff (demo_unused _ rfl _ (by decide)) (demo_unused _ rfl _ (by decide))).2 ⟨id, id⟩⟩

/-- What the code of `demoToks` means: `k` is any key of type `Name` and `v` any value of type `bool`. -/
def demoProg : Prog Str Bool Unit where
  userTy ts := ts = [.ident "Name"] ∨ ts = [.ident "bool"]
  keyExpr ts ty _ := ts = [.ident "k"] ∧ ty = .user [.ident "Name"]
  valExpr ts ty _ := ts = [.ident "v"] ∧ ty = .user [.ident "bool"]
  eqK x y := x == y
  cmp := strCmp
  fz _ _ := none

attribute [local instance] w64 in
/-- The hypotheses of `c64_macro` are met by a mutable map of a literal key. -/
example : ∃ item r, fzMacro (demoEnv Str Bool true) true (.let_ true "M" "A") .string [⟨.lit (.str [65]), [65], some false⟩] = .ok (.ok item) ∧
    item.ctor.compile demoProg.eqK demoProg.cmp demoProg.fz = some r ∧
    Declares demoProg true [] (emittedTokens .inherited demoTypes demoToks item) (.local_ true "M" (some "A")) r := by
  obtain ⟨r, h1, h2⟩ := c64_declares (P := demoProg) (g := demoTypes) (t := demoToks) .inherited
    (item := .letStmt true "M" (some "A") (.scanRaw "1".toList [([65], false)])) (numLit_iff.1 (by decide))
    ⟨.inl rfl, fun ts h => .inr (Option.some.inj h).symm, fun x _ => ⟨⟨rfl, rfl⟩, rfl, rfl⟩⟩ (by intro _ _ h; cases h)
  exact ⟨_, r, by cbv, h1, h2⟩

end Frozen.Props
