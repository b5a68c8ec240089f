import Verif.Lemmas.Parsing
import Verif.Lemmas.MacroShape
import Verif.Props.Emit

/-!
# C56: macro calls are read as they are written
-/

namespace Frozen.Props

attribute [local instance] w64

open Frozen.Spec Frozen.Model

variable {E T K V : Type} {S : SynParsers E T} {isMap : Bool}

/-- **C56** (every call of the documented forms is accepted, and read as what was written)  Names, visibility, `static`, `let`, `mut`, types and entries
-- all of them, in order, keys and values not exchanged -- are those of the call; a comma at the end changes nothing.  Expressions are supposed
to be read correctly in front of a comma, a colon and the end of the input, types in front of a comma and `>`. -/
theorem c56_complete {ts : List Tk} {call : ParsedCall E T}
    (h : CallToks S.modPath (ReadsAs S.expr [',', ':']) (ReadsAs S.ty [',', '>']) isMap ts call) : parse2 S isMap ts = .ok call :=
  parse2_complete h

/-- **C56** (nothing else is accepted)  In particular there is no `static mut`, no visibility without `static`, no entry without value in a map, no entry
with value in a set, nothing behind the braces. -/
theorem c56_sound (hE : Consumes S.expr) (hT : Consumes S.ty) {ts : List Tk} {call : ParsedCall E T} (h : parse2 S isMap ts = .ok call) :
    CallToks S.modPath (ReadsAsIn S.expr) (ReadsAsIn S.ty) isMap ts call :=
  parse2_sound hE hT h

/-- **C56** (calls are not ambiguous). -/
theorem c56_unique {ts : List Tk} {call call' : ParsedCall E T}
    (h : CallToks S.modPath (ReadsAs S.expr [',', ':']) (ReadsAs S.ty [',', '>']) isMap ts call)
    (h' : CallToks S.modPath (ReadsAs S.expr [',', ':']) (ReadsAs S.ty [',', '>']) isMap ts call') : call = call' := by
  have := (c56_complete h).symm.trans (c56_complete h')
  simpa using this

/-- **C56** (visibilities are for statics, statics are immutable). -/
theorem c56_options (hE : Consumes S.expr) (hT : Consumes S.ty) {ts : List Tk} {call : ParsedCall E T} (h : parse2 S isMap ts = .ok call) :
    (∀ rest, ts = .ident "pub" :: rest → ∃ m, call = .long m ∧ m.isStatic = true ∧ m.visibility.tokens.head?.isSome) ∧
    (∀ m, call = .long m → ¬ (m.isStatic = true ∧ m.isMutable = true) ∧ m.varName ∉ reservedWords ∧ m.typeName ∉ reservedWords ∧
      m.valueType.isSome = isMap) := by
  have hlong : ∀ {ts : List Tk} {name al : String} {kt : T} {vt : Option T} {es : List (ParsedEntry E)},
      LongToks (ReadsAsIn S.expr) (ReadsAsIn S.ty) isMap ts name al kt vt es → name ∉ reservedWords ∧ al ∉ reservedWords ∧ vt.isSome = isMap := by
    intro ts name al kt vt es h
    cases h with
    | mk h1 h2 _ _ ht _ _ _ => exact ⟨h1, h2, by cases ht <;> rfl⟩
  cases c56_sound hE hT h with
  | @short v inner es hv hes =>
    refine ⟨fun rest hr => ?_, fun m hm => by cases hm⟩
    cases hv <;> simp at hr
  | @let_ v ts name al kt vt es mu hv hl =>
    refine ⟨fun rest hr => ?_, fun m hm => ?_⟩
    · cases hv <;> simp at hr
    · cases hm
      exact ⟨by simp, hlong hl⟩
  | @static v ts vis name al kt vt es hv hl =>
    refine ⟨fun rest hr => ⟨_, rfl, rfl, ?_⟩, fun m hm => ?_⟩
    · cases hv <;> first | rfl | simp at hr
    · cases hm
      exact ⟨by simp, hlong hl⟩

/-- **C56** (the expansion of the tokens is that of the written call)  so that C37, C39, C42, C48, C49 and C55, which start from a parsed call, apply. -/
theorem c56_expansion {ts : List Tk} {call : ParsedCall E T}
    (h : CallToks S.modPath (ReadsAs S.expr [',', ':']) (ReadsAs S.ty [',', '>']) isMap ts call) {mean : ExprMeaning E K V}
    {v : Vis} {form : MacroForm} {args : List (MacroEntry K V)} (hc : Asks mean call v form args) (env : MacroEnv K V) (kind : MacroKind) :
    (∀ vis item, fzMacroTokens S mean env isMap kind ts = .ok (.ok (vis, item)) ↔
      vis = v ∧ fzMacro env isMap form kind args = .ok (.ok item)) ∧
    (∀ msg, fzMacroTokens S mean env isMap kind ts = .ok (.error msg) ↔ fzMacro env isMap form kind args = .ok (.error msg)) ∧
    (∀ f, fzMacroTokens S mean env isMap kind ts = .error f ↔ fzMacro env isMap form kind args = .error f) := by
  obtain ⟨rfl, rfl, rfl⟩ : v = call.vis ∧ form = call.form ∧ args = call.entries.map (fun e => e.toMacro mean) := by
    cases hc with
    | short es => exact ⟨rfl, rfl, rfl⟩
    | static hs => exact ⟨rfl, by simp [ParsedCall.form, hs], rfl⟩
    | let_ hs => exact ⟨rfl, by simp [ParsedCall.form, hs], rfl⟩
  unfold fzMacroTokens
  rw [c56_complete h]
  simp only
  cases hr : fzMacro env isMap call.form kind (call.entries.map (fun e => e.toMacro mean)) with
  | error f => simp
  | ok r =>
    cases r with
    | error msg => simp
    | ok item =>
      refine ⟨fun vis item' => ?_, by simp, by simp⟩
      simp only [Except.ok.injEq, Prod.mk.injEq]
      exact ⟨fun ⟨h1, h2⟩ => ⟨h1.symm, h2⟩, fun ⟨h1, h2⟩ => ⟨h1.symm, h2⟩⟩

/-- **C56** (declarations, `static`)  `vis static NAME: Alias<…>, { … }` expands to `vis type Alias = …; vis static NAME: … = …;` with the visibility and names
of the call; the static is an `Alias`, or a `LazyLock` around one. -/
theorem c56_static_declares {v ts : List Tk} {vis vis' : Vis} {name al : String} {kt : T} {vt : Option T} {es : List (ParsedEntry E)}
    (hv : VisToks S.modPath v vis) (hl : LongToks (ReadsAs S.expr [',', ':']) (ReadsAs S.ty [',', '>']) isMap ts name al kt vt es)
    {mean : ExprMeaning E K V} {env : MacroEnv K V} {kind : MacroKind} {item : Item (Emitted K V)}
    (h : fzMacroTokens S mean env isMap kind (v ++ .ident "static" :: ts) = .ok (.ok (vis', item))) (sig : List Tk)
    (ctor : Emitted K V → List Tk) :
    (v = vis.tokens ∨ v = [.group .none []] ∧ vis.tokens = []) ∧
    ∃ ty init, declTokens vis' sig ctor item =
        vis.tokens ++ [.ident "type", .ident al, .punct '=' false] ++ sig ++ [.punct ';' false] ++
        vis.tokens ++ [.ident "static", .ident name, .punct ':' false] ++ ty ++ [.punct '=' false] ++ init ++ [.punct ';' false] ∧
      ((ty = [.ident al] ∧ init = ctor item.ctor) ∨
       (ty = lazyLockPath ++ [.punct '<' false, .ident al, .punct '>' false] ∧
        init = lazyLockPath ++ [.punct ':' true, .punct ':' false, .ident "new",
          .group .paren [.punct '|' true, .punct '|' false, .group .brace (ctor item.ctor)]])) := by
  refine ⟨?_, ?_⟩
  · cases hv with
    | none => exact Or.inl rfl
    | empty => exact Or.inr ⟨rfl, rfl⟩
    | pub => exact Or.inl rfl
    | word _ => exact Or.inl rfl
    | inPath _ _ => exact Or.inl rfl
  · obtain ⟨rfl, h2⟩ := ((c56_expansion (CallToks.static hv hl) (Asks.static (mean := mean) rfl) env kind).1 vis' item).1 h
    obtain ⟨c1, c2, hs⟩ := fzMacro_shape h2
    cases item with
    | staticConst s a out =>
      obtain ⟨-, -, -, h3, h4⟩ := hs
      obtain rfl : name = s := Option.some.inj h3
      obtain rfl : some al = a := h4
      exact ⟨[.ident al], ctor out, by simp [declTokens, ParsedCall.vis], Or.inl ⟨rfl, rfl⟩⟩
    | staticLazy s a out =>
      obtain ⟨-, -, h3, h4⟩ := hs
      obtain rfl : name = s := Option.some.inj h3
      obtain rfl : some al = a := h4
      exact ⟨lazyLockPath ++ [.punct '<' false, .ident al, .punct '>' false], lazyLockPath ++ [.punct ':' true, .punct ':' false, .ident "new",
        .group .paren [.punct '|' true, .punct '|' false, .group .brace (ctor out)]], by simp [declTokens, ParsedCall.vis], Or.inr ⟨rfl, rfl⟩⟩
    | letStmt _ _ _ _ => cases hs.1
    | expr _ => cases hs.1

/-- **C56** (declarations, `let`) `let [mut] name: Alias<…>, { … }` expands to `type Alias = …; let [mut] name: Alias = …;`. -/
theorem c56_let_declares {v ts : List Tk} {vis' : Vis} {name al : String} {kt : T} {vt : Option T} {es : List (ParsedEntry E)} {mutable : Bool}
    (hv : VisToks S.modPath v .inherited) (hl : LongToks (ReadsAs S.expr [',', ':']) (ReadsAs S.ty [',', '>']) isMap ts name al kt vt es)
    {mean : ExprMeaning E K V} {env : MacroEnv K V} {kind : MacroKind} {item : Item (Emitted K V)}
    (h : fzMacroTokens S mean env isMap kind (v ++ .ident "let" :: ((if mutable then [.ident "mut"] else []) ++ ts)) = .ok (.ok (vis', item)))
    (sig : List Tk) (ctor : Emitted K V → List Tk) :
    declTokens vis' sig ctor item =
      [.ident "type", .ident al, .punct '=' false] ++ sig ++ [.punct ';' false, .ident "let"] ++ (if mutable then [.ident "mut"] else []) ++
      [.ident name, .punct ':' false, .ident al, .punct '=' false] ++ ctor item.ctor ++ [.punct ';' false] := by
  obtain ⟨rfl, h2⟩ := ((c56_expansion (CallToks.let_ mutable hv hl) (Asks.let_ (mean := mean) rfl) env kind).1 vis' item).1 h
  obtain ⟨c1, c2, hs⟩ := fzMacro_shape h2
  cases item with
  | staticConst s a out => cases hs.1
  | staticLazy s a out => cases hs.1
  | letStmt mu s a out =>
    obtain ⟨-, h1, h3, h4⟩ := hs
    obtain rfl : mutable = mu := h1
    obtain rfl : name = s := Option.some.inj h3
    obtain rfl : some al = a := h4
    simp [declTokens, Item.ctor]
  | expr _ => cases hs.2.1

/-- **C56** (expressions) `{ … }` expands to the constructor call alone. -/
theorem c56_short_expands {v inner : List Tk} {vis' : Vis} {es : List (ParsedEntry E)}
    (hv : VisToks S.modPath v .inherited) (hes : ListToks (ReadsAs S.expr [',', ':']) isMap inner es)
    {mean : ExprMeaning E K V} {env : MacroEnv K V} {kind : MacroKind} {item : Item (Emitted K V)}
    (h : fzMacroTokens S mean env isMap kind (v ++ [.group .brace inner]) = .ok (.ok (vis', item))) (sig : List Tk)
    (ctor : Emitted K V → List Tk) : declTokens vis' sig ctor item = ctor item.ctor := by
  obtain ⟨rfl, h2⟩ := ((c56_expansion (CallToks.short (Rt := ReadsAs S.ty [',', '>']) hv hes) (Asks.short (mean := mean) es) env kind).1 vis' item).1 h
  obtain ⟨c1, c2, hs⟩ := fzMacro_shape h2
  cases item with
  | staticConst s a out => cases hs.1
  | staticLazy s a out => cases hs.1
  | letStmt mu s a out => cases hs.2.2.1
  | expr out => rfl

/-! ## An instance -/

/-- A parser that takes one identifier or literal. -/
def demoAtom : TkParser String
  | .ident s :: ts => .ok (s, ts)
  | .lit s :: ts => .ok (s, ts)
  | _ => .error "expected an expression"

def demoSyn : SynParsers String String where
  expr := demoAtom
  ty := demoAtom
  modPath ts := !ts.isEmpty

theorem demoAtom_reads (ends : List Char) (s : String) : ReadsAs demoAtom ends [.ident s] s ∧ ReadsAs demoAtom ends [.lit s] s :=
  ⟨⟨by simp, fun _ _ => rfl⟩, ⟨by simp, fun _ _ => rfl⟩⟩

theorem demoAtom_consumes : Consumes demoAtom := by
  intro ts a rest h
  unfold demoAtom at h
  split at h
  · cases h; exact ⟨[_], by simp, rfl⟩
  · cases h; exact ⟨[_], by simp, rfl⟩
  · cases h

/-- `pub(crate) static M: Alias<u8, str>, { 1: a, k: b, }`. -/
def demoCall : List Tk :=
  [.ident "pub", .group .paren [.ident "crate"], .ident "static", .ident "M", .punct ':' false, .ident "Alias", .punct '<' false,
   .ident "u8", .punct ',' false, .ident "str", .punct '>' true, .punct ',' false,
   .group .brace [.lit "1", .punct ':' false, .ident "a", .punct ',' false, .ident "k", .punct ':' false, .ident "b", .punct ',' false]]

/-- What the call says. -/
def demoForm : LongForm String String where
  varName := "M"
  typeName := "Alias"
  keyType := "u8"
  valueType := some "str"
  entries := [⟨"1", some "a"⟩, ⟨"k", some "b"⟩]
  visibility := .restricted [.ident "crate"]
  isStatic := true
  isMutable := false

theorem demoCall_reads : CallToks demoSyn.modPath (ReadsAs demoSyn.expr [',', ':']) (ReadsAs demoSyn.ty [',', '>']) true demoCall
    (.long demoForm) := by
  have p : ∀ c j, IsPunct c (.punct c j) := fun c j => ⟨j, rfl⟩
  have r := demoAtom_reads
  refine CallToks.static (VisToks.word (Or.inl rfl)) (LongToks.mk (types := [.ident "u8", .punct ',' false, .ident "str"]) (by decide) (by decide) (p _ _) (p _ _)
    (TypeToks.map (k := [.ident "u8"]) (r _ _).1 (p _ _) (r _ _).1) (p _ _) (p _ _) ?_)
  refine ListToks.cons (ts := [.lit "1", .punct ':' false, .ident "a"]) (EntryToks.map (k := [.lit "1"]) (r _ _).2 (p _ _) (r _ _).1) (p _ _) ?_
  exact ListToks.cons (ts := [.ident "k", .punct ':' false, .ident "b"]) (EntryToks.map (k := [.ident "k"]) (r _ _).1 (p _ _) (r _ _).1) (p _ _)
    ListToks.nil

example : parse2 demoSyn true demoCall = .ok (.long demoForm) :=
  c56_complete demoCall_reads

/-- Calls of no documented form are rejected: `static mut`, `pub let`, a map entry without value, tokens behind the braces. -/
example : (parse2 demoSyn true (.ident "static" :: .ident "mut" :: demoCall.drop 3)).toOption.isNone = true ∧
    (parse2 demoSyn true (.ident "pub" :: .ident "let" :: demoCall.drop 3)).toOption.isNone = true ∧
    (parse2 demoSyn true [.group .brace [.lit "1"]]).toOption.isNone = true ∧
    (parse2 demoSyn false [.group .brace [.lit "1"], .lit "2"]).toOption.isNone = true ∧
    (parse2 demoSyn false [.group .brace [.lit "1"]]).toOption.isSome = true := by
  refine ⟨?_, ?_, ?_, ?_, ?_⟩ <;> cbv

/-- Meaning of the expressions of the instance: `1` is a literal, anything else is computed. -/
def demoMean : ExprMeaning String Str String where
  shape s := if s = "1" then .lit (.int 1 "u8") else .other
  keyVal s := s.toUTF8.toList
  valueVal s := s

/-- The expansion of the call succeeds: a lazily initialised static of the declared names. -/
example : ∃ item, fzMacroTokens demoSyn demoMean (demoEnv Str String "") true .scalar demoCall = .ok (.ok (.restricted [.ident "crate"], item)) := by
  refine ⟨.staticLazy "M" (some "Alias") (.scanNew "2".toList [("1".toUTF8.toList, "a"), ("k".toUTF8.toList, "b")]), ?_⟩
  exact ((c56_expansion demoCall_reads (Asks.static (mean := demoMean) rfl) (demoEnv Str String "") .scalar).1 _ _).2 ⟨rfl, by rfl⟩

end Frozen.Props
