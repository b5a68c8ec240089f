import Verif.Lemmas.Builder

/-!
# C74: build scripts that emit collections
-/

namespace Frozen.Props

open Frozen.Spec Frozen.Model

variable {B Q F : Type} {X : XidTables} {key : List Tk} {calls : List BuilderCall} {q : QueryTraits Q (List Tk)} {eqK : List Tk → List Tk → Bool}
  {mt : Q → List Tk → Bool} {es : List (List Tk × List Tk)} {r : Res (Except String (List Tk))}

/-! ## Configuration -/

/-- **C74** (last call wins)  Each setting of the emitter is that of the last call of its method. -/
theorem c74_last_call_wins (key : List Tk) (calls : List BuilderCall) :
    let e := CollectionEmitter.build key calls
    e.keyType = key ∧ e.valueType = askedValueType calls ∧ e.symbolName = askedName calls ∧ e.aliasName = askedAlias calls ∧
    e.constKeys = askedConstKeys calls ∧ e.constValues = askedConstValues calls ∧ e.visibility = askedVis calls ∧
    e.isMutable = askedMutable calls ∧ e.isStatic = askedStatic calls := by
  simp only [build_eq]
  simp

/-- **C74** (order)  Calls of different methods can be exchanged. -/
theorem c74_order (key : List Tk) {a b : BuilderCall} (h : methodOf a ≠ methodOf b) (xs ys : List BuilderCall) :
    CollectionEmitter.build key (xs ++ a :: b :: ys) = CollectionEmitter.build key (xs ++ b :: a :: ys) := by
  unfold CollectionEmitter.build
  rw [List.foldl_append, List.foldl_append]
  generalize xs.foldl CollectionEmitter.apply (CollectionEmitter.new key) = e
  show ys.foldl CollectionEmitter.apply ((e.apply a).apply b) = ys.foldl CollectionEmitter.apply ((e.apply b).apply a)
  have : (e.apply a).apply b = (e.apply b).apply a := by
    cases a <;> cases b <;> first | rfl | exact absurd rfl h
  rw [this]

/-- **C74** (repeated calls)  A call that is followed by another call of the method has no effect. -/
theorem c74_overridden (key : List Tk) {a b : BuilderCall} (h : methodOf a = methodOf b) (xs ys zs : List BuilderCall) :
    CollectionEmitter.build key (xs ++ a :: ys ++ b :: zs) = CollectionEmitter.build key (xs ++ ys ++ b :: zs) := by
  have key' : ∀ {α : Type} (f : BuilderCall → Option α), ((f a).isSome → (f b).isSome) →
      lastSet f (xs ++ a :: ys ++ b :: zs) = lastSet f (xs ++ ys ++ b :: zs) := by
    intro α f hf
    rw [lastSet_append, lastSet_append, lastSet_append, lastSet_append]
    simp only [lastSet]
    cases lastSet f zs with
    | some x => rfl
    | none =>
      cases hb : f b with
      | some x => rfl
      | none =>
        have ha : f a = none := by
          cases ha : f a with
          | none => rfl
          | some x => rw [ha, hb] at hf; exact absurd (hf rfl) (by simp)
        rw [ha]
        cases lastSet f ys <;> rfl
  rw [build_eq, build_eq]
  have e1 : askedValueType (xs ++ a :: ys ++ b :: zs) = askedValueType (xs ++ ys ++ b :: zs) :=
    key' _ (by cases a <;> cases b <;> simp_all [methodOf])
  have e2 : askedName (xs ++ a :: ys ++ b :: zs) = askedName (xs ++ ys ++ b :: zs) :=
    key' _ (by cases a <;> cases b <;> simp_all [methodOf])
  have e3 : askedAlias (xs ++ a :: ys ++ b :: zs) = askedAlias (xs ++ ys ++ b :: zs) :=
    key' _ (by cases a <;> cases b <;> simp_all [methodOf])
  have e4 : askedConstKeys (xs ++ a :: ys ++ b :: zs) = askedConstKeys (xs ++ ys ++ b :: zs) :=
    congrArg (fun o => o.getD false) (key' _ (by cases a <;> cases b <;> simp_all [methodOf]))
  have e5 : askedConstValues (xs ++ a :: ys ++ b :: zs) = askedConstValues (xs ++ ys ++ b :: zs) :=
    congrArg (fun o => o.getD false) (key' _ (by cases a <;> cases b <;> simp_all [methodOf]))
  have e6 : askedVis (xs ++ a :: ys ++ b :: zs) = askedVis (xs ++ ys ++ b :: zs) :=
    congrArg (fun o => o.getD Vis.inherited) (key' _ (by cases a <;> cases b <;> simp_all [methodOf]))
  have e7 : askedMutable (xs ++ a :: ys ++ b :: zs) = askedMutable (xs ++ ys ++ b :: zs) :=
    congrArg (fun o => o.getD false) (key' _ (by cases a <;> cases b <;> simp_all [methodOf]))
  have e8 : askedStatic (xs ++ a :: ys ++ b :: zs) = askedStatic (xs ++ ys ++ b :: zs) :=
    congrArg (fun o => o.getD false) (key' _ (by cases a <;> cases b <;> simp_all [methodOf]))
  rw [e1, e2, e3, e4, e5, e6, e7, e8]

/-! ## Emission -/

/-- What is known about the outcome before identifiers are created. -/
theorem emission_item [Target] (h : Emission X key calls q eqK mt es r) :
    ∃ r0, r = (CollectionEmitter.build key calls).toCode X r0 ∧
      (¬ Consistent calls → ∃ msg, r0 = .ok (.error msg)) ∧
      (Consistent calls → EmitsMap q (CollectionEmitter.build key calls).emitter eqK mt es r0) ∧
      ∀ item, r0 = .ok (.ok item) → WellTyped item.ctor ∧ ∀ x ∈ item.ctor.entries, x ∈ es := by
  have hu := target_cases
  cases h with
  | hash hfind hsort heB he hq hseed hB hh hag hhash hn =>
    have hg := Emitter.emitHash_spec (em := (CollectionEmitter.build key calls).emitter) (unit := unitExpr) hfind hsort heB he hseed hB hh hag hhash hn
    refine ⟨_, rfl, fun hc => hg.outcome.1 (fun hv => hc ((consistent_iff key calls).1 hv)), fun hc => ?_, fun item hi => ⟨?_, ?_⟩⟩
    · rw [← written_asked key]
      exact c37_emit_hash ((consistent_iff key calls).2 hc) hfind hsort heB he hq hseed hB hh hag hhash hn
    · exact c38_emit_hash hsort hseed hn hi
    · rw [← written_asked key]
      exact emitHash_entries hfind hsort heB hB hn hi
  | ordered hB hc hq heqv hag hn =>
    have hg := Emitter.emitOrdered_spec (em := (CollectionEmitter.build key calls).emitter) (unit := unitExpr) hB hc hq heqv hag hn
    refine ⟨_, rfl, fun hc => hg.outcome.1 (fun hv => hc ((consistent_iff key calls).1 hv)), fun hcc => ?_, fun item hi => ⟨?_, ?_⟩⟩
    · rw [← written_asked key]
      exact c37_emit_ordered ((consistent_iff key calls).2 hcc) hB hc hq heqv hag hn
    · exact c38_emit_ordered hn hi
    · rw [← written_asked key]
      exact emitOrdered_entries hB hi
  | scalar b hsort hB hk heqv hag hn hspan =>
    have hg := Emitter.emitScalar_spec (em := (CollectionEmitter.build key calls).emitter) (unit := unitExpr) b hsort hB hk heqv hag hn hspan
    refine ⟨_, rfl, fun hc => hg.outcome.1 (fun hv => hc ((consistent_iff key calls).1 hv)), fun hc => ?_, fun item hi => ⟨?_, ?_⟩⟩
    · rw [← written_asked key]
      exact c37_emit_scalar ((consistent_iff key calls).2 hc) b hsort hB hk heqv hag hn hspan
    · exact c38_emit_scalar hsort hB hn hi
    · rw [← written_asked key]
      exact emitScalar_entries hsort hB (by omega) hi
  | string hsort hseed heqv hstr hslice hag hn hkl =>
    have hg := Emitter.emitString_spec (em := (CollectionEmitter.build key calls).emitter) (unit := unitExpr) hsort hseed heqv hstr hslice hag hn hkl
    refine ⟨_, rfl, fun hc => hg.outcome.1 (fun hv => hc ((consistent_iff key calls).1 hv)), fun hc => ?_, fun item hi => ⟨?_, ?_⟩⟩
    · rw [← written_asked key]
      exact c37_emit_string ((consistent_iff key calls).2 hc) hsort hseed heqv hstr hslice hag hn hkl
    · exact c38_emit_string hsort hseed hn hkl hi
    · rw [← written_asked key]
      exact emitString_entries hsort hn hi

/-- **C74** (the emitted code)  If the settings are consistent and the names are names, then the call succeeds, and the code has exactly one meaning:
the declaration that the calls ask for, of a collection that behaves like the given entries. -/
theorem c74_code [Target] (h : Emission X key calls q eqK mt es r) (hX : XidOk X) (hc : Consistent calls) (hn : GoodNames X calls) {c : Caller} (hsane : c.Sane)
    (hty : ScriptTyped c key calls es) (eqK' : List Tk → List Tk → Bool) (cmp : List Tk → List Tk → Ordering)
    (fz : FzKind → List (List Tk × List Tk) → Option (Res F)) :
    ∃ out m, r = .ok (.ok out) ∧
      OnlyMeans (Caller.prog c eqK' cmp fz) (askedValueType calls).isSome (askedVis calls) out (askedDecl calls) (.ok (.inl m)) ∧
      Behaves (InlineMap.impl q) m eqK mt es := by
  obtain ⟨r0, rfl, -, h2, h3⟩ := emission_item h
  obtain ⟨item, m, rfl, hs, hcomp, hb⟩ := h2 hc
  obtain ⟨hw, hent⟩ := h3 item rfl
  have htypes : (CollectionEmitter.build key calls).types = askedTypes key calls := by rw [build_eq]; rfl
  have hvis : (CollectionEmitter.build key calls).visibility = askedVis calls := by rw [build_eq]
  refine ⟨emittedTokens (askedVis calls) (askedTypes key calls) codeToks item, m, ?_, ?_, hb⟩
  · unfold CollectionEmitter.toCode
    simp only [(formatNames_iff hX hs).1 hn, bind, Except.bind, htypes, hvis]
  · have hcall : CallerOk (Caller.prog c eqK' cmp fz) (askedTypes key calls) codeToks item.ctor :=
      ⟨hty.keyTy, hty.valTy, fun x hx => ⟨⟨hty.keys x (hent x hx), rfl⟩, hty.values x (hent x hx), rfl⟩⟩
    have hcf := hcomp F eqK' cmp fz
    obtain ⟨r', h1', h2'⟩ := c64_declares (askedVis calls) hw hcall (by
      intro kd es' he
      rw [he, compile_fz] at hcf
      cases hf : fz kd es' with
      | none => rw [hf] at hcf; cases hcf
      | some x => show (fz kd es').isSome = true; rw [hf]; rfl)
    have : r' = .ok (.inl m) := by
      have := h1'.symm.trans hcf
      exact Option.some.inj this
    subst this
    rw [shape_asked hs] at h2'
    intro d' r'
    refine ⟨fun h => c64_unambiguous (caller_readable hsane eqK' cmp fz) h h2', ?_⟩
    rintro ⟨rfl, rfl⟩
    exact h2'

/-- **C74** (misconfigured emitters)  If the settings contradict each other, then the call returns an error. -/
theorem c74_misconfigured [Target] (h : Emission X key calls q eqK mt es r) (hc : ¬ Consistent calls) : ∃ msg, r = .ok (.error msg) := by
  obtain ⟨r0, rfl, h1, -⟩ := emission_item h
  obtain ⟨msg, rfl⟩ := h1 hc
  exact ⟨msg, rfl⟩

/-- **C74** (the claim that misconfiguration is an error is false)  If the settings are consistent but a name is not one, then the call panics. -/
theorem c74_bad_name_panics [Target] (h : Emission X key calls q eqK mt es r) (hX : XidOk X) (hc : Consistent calls) (hn : ¬ GoodNames X calls) :
    ∃ msg, r = .error (.panic msg) := by
  obtain ⟨r0, rfl, -, h2, -⟩ := emission_item h
  obtain ⟨item, m, rfl, hs, -⟩ := h2 hc
  obtain ⟨msg, hm⟩ := (formatNames_iff hX hs).2 hn
  refine ⟨msg, ?_⟩
  unfold CollectionEmitter.toCode
  simp only [hm, bind, Except.bind]

/-- **C74** (exactly when)  The outcome of the call is code, an error or a panic, according to the settings and the names alone. -/
theorem c74_outcome_partial [Target] (h : Emission X key calls q eqK mt es r) (hX : XidOk X) :
    ((∃ out, r = .ok (.ok out)) ↔ Consistent calls ∧ GoodNames X calls) ∧
    ((∃ msg, r = .ok (.error msg)) ↔ ¬ Consistent calls) ∧
    ((∃ f, r = .error f) ↔ Consistent calls ∧ ¬ GoodNames X calls) := by
  by_cases hc : Consistent calls
  · by_cases hn : GoodNames X calls
    · obtain ⟨r0, rfl, -, h2, -⟩ := emission_item h
      obtain ⟨item, m, rfl, hs, -⟩ := h2 hc
      have : (CollectionEmitter.build key calls).toCode X (.ok (.ok item)) = .ok (.ok (emittedTokens (CollectionEmitter.build key calls).visibility
          (CollectionEmitter.build key calls).types codeToks item)) := by
        unfold CollectionEmitter.toCode
        simp only [(formatNames_iff hX hs).1 hn, bind, Except.bind]
      rw [this]
      simp [hc, hn]
    · obtain ⟨msg, rfl⟩ := c74_bad_name_panics h hX hc hn
      simp [hc, hn]
  · obtain ⟨msg, rfl⟩ := c74_misconfigured h hc
    simp [hc]

/-- **C74** (keywords)  A keyword is accepted as the name of the collection; the code `let kw: …` is not Rust. -/
theorem c74_keyword_accepted [Target] (hX : XidOk X) {s : String} (hs : s ∈ keywords) (h : Emission X key [.symbolName s] q eqK mt es r) :
    ∃ rest, r = .ok (.ok (.ident "let" :: .ident s :: .punct ':' false :: rest)) := by
  have hid : IsName X s := by
    left
    have hl : ∀ cs : List Char, cs ≠ [] → cs.all Char.isAlpha = true → IdentText X cs := by
      intro cs hne ha
      cases cs with
      | nil => exact (hne rfl).elim
      | cons c rest =>
        rw [List.all_cons, Bool.and_eq_true] at ha
        exact ⟨c, rest, rfl, .inr (hX.letter c ha.1).1, fun d hd => (hX.letter d (List.all_eq_true.1 ha.2 d hd)).2⟩
    have : ∀ s ∈ keywords, s.toList ≠ [] ∧ s.toList.all Char.isAlpha = true := by decide
    exact hl _ (this s hs).1 (this s hs).2
  have hc : Consistent [.symbolName s] := ⟨by simp [askedStatic, lastSet], by simp [askedName, lastSet]⟩
  have hn : GoodNames X [.symbolName s] := ⟨by simpa [askedName, lastSet] using hid, by simp [askedAlias, lastSet]⟩
  obtain ⟨r0, rfl, -, h2, -⟩ := emission_item h
  obtain ⟨item, m, rfl, hsh, -⟩ := h2 hc
  have hi : ∃ ctor, item = .letStmt false s none ctor := by
    rw [build_eq] at hsh
    cases item with
    | staticConst s a c => cases hsh.1
    | staticLazy s a c => cases hsh.1
    | letStmt mu s' a c =>
      obtain ⟨-, h3, h4, h5⟩ := hsh
      cases h3; cases h4; cases h5
      exact ⟨c, rfl⟩
    | expr c => cases hsh.2.1
  obtain ⟨ctor, rfl⟩ := hi
  unfold CollectionEmitter.toCode
  simp only [(formatNames_iff hX hsh).1 hn, bind, Except.bind]
  exact ⟨_, rfl⟩

/-! ## Concrete cases -/

/-- Identifiers in ASCII. -/
def asciiXid : XidTables where
  start c := c.isAlpha
  cont c := c.isAlphanum || c == '_'

theorem asciiXid_ok : XidOk asciiXid where
  digit c h := by
    show c.isAlpha = false
    simp only [Char.isDigit, Bool.and_eq_true, decide_eq_true_eq] at h
    have h1 : c.val.toNat ≤ 57 := h.2
    cases hc : c.isAlpha with
    | false => rfl
    | true =>
      simp only [Char.isAlpha, Char.isUpper, Char.isLower, Bool.or_eq_true, Bool.and_eq_true, decide_eq_true_eq] at hc
      rcases hc with hc | hc
      · have : 65 ≤ c.val.toNat := hc.1
        omega
      · have : 97 ≤ c.val.toNat := hc.1
        omega
  hash := by decide
  letter c h := by
    refine ⟨h, ?_⟩
    show (c.isAlphanum || c == '_') = true
    simp [Char.isAlphanum, h]

/-- Keys are two string literals. -/
def greetingBytes : List Tk → Str
  | [.lit s] => if s = "\"hello\"" then [104] else if s = "\"world\"" then [119] else []
  | _ => []

/-- Queries are strings. -/
def greetingTraits : QueryTraits Str (List Tk) where
  equivalent x k := x == greetingBytes k
  compare _ _ := .eq
  index _ := 0
  fixedState seed x := (seed + x.length) % 2 ^ 64
  bytes x := x
  fixedStateSlice seed x := (seed + x.length) % 2 ^ 64

/-- Keys are literals, values identifiers; the types are `Key` and `Value`. -/
def greetingCaller : Caller where
  userTy ts := ts = [.ident "Key"] ∨ ts = [.ident "Value"]
  keyTy ts _ := ∃ s, ts = [.lit s]
  valTy ts _ := ∃ s, ts = [.ident s]

theorem greetingCaller_sane : greetingCaller.Sane where
  types := by rintro ts (rfl | rfl) <;> rfl
  pairs := by
    rintro k v k' v' X Y X' Y' ⟨s, rfl⟩ ⟨s', rfl⟩ ⟨t, rfl⟩ ⟨t', rfl⟩ e
    simp only [List.cons_append, List.nil_append, List.cons.injEq] at e
    rw [e.1]

/-- The settings of the example in the documentation of `CollectionEmitter`; the name is given twice. -/
def greetingCalls : List BuilderCall :=
  [.symbolName "OLD", .valueType [.ident "Value"], .symbolName "MY_MAP", .aliasName "MyMap", .staticInstance true]

def greetingEntries : List (CollectionEntry Str (List Tk) (List Tk)) :=
  [.mapEntry [104] [.lit "\"hello\""] [.ident "A"], .mapEntry [119] [.lit "\"world\""] [.ident "B"],
   .mapEntry [104] [.lit "\"hello\""] [.ident "C"]]

theorem greeting_emission [Target] (calls : List BuilderCall) : Emission asciiXid [.ident "Key"] calls greetingTraits
    (fun a b => greetingBytes a == greetingBytes b) greetingTraits.equivalent (askedEntries calls greetingEntries)
    ((CollectionEmitter.build [.ident "Key"] calls).emitString asciiXid slotSort (fun s x => (s + x.length) % 2 ^ 64)
      (fun s x => (s + x.length) % 2 ^ 64) 5 greetingEntries) := by
  have hu := target_cases
  refine Emission.string slotSort_ok (by decide) rfl (fun _ => rfl) rfl ?_ (by simp only [greetingEntries, List.length_cons, List.length_nil]; omega) ?_
  · intro x hx
    simp only [greetingEntries, List.mem_cons, List.not_mem_nil, or_false] at hx
    rcases hx with rfl | rfl | rfl <;> rfl
  · intro x hx
    simp only [greetingEntries, List.mem_cons, List.not_mem_nil, or_false] at hx
    rcases hx with rfl | rfl | rfl <;> simp only [CollectionEntry.mapEntry, List.length_cons, List.length_nil] <;> omega

/-- The settings in another order, without the first of the two names. -/
example (key : List Tk) : CollectionEmitter.build key greetingCalls = CollectionEmitter.build key
    [.symbolName "MY_MAP", .valueType [.ident "Value"], .aliasName "MyMap", .staticInstance true] :=
  (c74_overridden key (a := .symbolName "OLD") (b := .symbolName "MY_MAP") rfl [] [.valueType [.ident "Value"]]
    [.aliasName "MyMap", .staticInstance true]).trans
    (c74_order key (a := .valueType [.ident "Value"]) (b := .symbolName "MY_MAP") (by decide) [] [.aliasName "MyMap", .staticInstance true])

attribute [local instance] w64 in
/-- The documented example: the code declares `MyMap` and a static `MY_MAP` that is initialised on first use; "hello" has the value that was given
last. -/
example : ∃ out m, (CollectionEmitter.build [.ident "Key"] greetingCalls).emitString asciiXid slotSort (fun s x => (s + x.length) % 2 ^ 64)
      (fun s x => (s + x.length) % 2 ^ 64) 5 greetingEntries = .ok (.ok out) ∧
    (∀ d r, Declares (F := Unit) (Caller.prog greetingCaller (fun _ _ => false) (fun _ _ => .eq) (fun _ _ => none)) true [] out d r ↔
      d = .onFirstUse "MY_MAP" (some "MyMap") ∧ r = .ok (.inl m)) ∧
    (InlineMap.impl greetingTraits).get m [104] = .ok (some [.ident "C"]) ∧ (InlineMap.impl greetingTraits).get m [120] = .ok none := by
  obtain ⟨out, m, h1, h2, h3⟩ := c74_code (F := Unit) (greeting_emission greetingCalls) asciiXid_ok
    (show Consistent greetingCalls from ⟨by decide, by decide⟩)
    ⟨fun s hs => by cases hs; exact .inl ⟨'M', "Y_MAP".toList, rfl, by decide, by decide⟩,
     fun s hs => by cases hs; exact .inl ⟨'M', "yMap".toList, rfl, by decide, by decide⟩⟩ greetingCaller_sane
    (by
      refine ⟨.inl rfl, fun ts h => .inr (Option.some.inj h).symm, ?_, ?_⟩
      · intro e he
        simp only [askedEntries, greetingEntries, List.map_cons, List.map_nil, List.mem_cons, List.not_mem_nil, or_false] at he
        rcases he with rfl | rfl | rfl <;> exact ⟨_, rfl⟩
      · intro e he
        simp only [askedEntries, greetingEntries, List.map_cons, List.map_nil, List.mem_cons, List.not_mem_nil, or_false] at he
        rcases he with rfl | rfl | rfl <;> exact ⟨_, rfl⟩)
    (fun _ _ => false) (fun _ _ => .eq) (fun _ _ => none)
  exact ⟨out, m, h1, h2, (h3.lookups.get [104]).trans (by rfl), (h3.lookups.get [120]).trans (by rfl)⟩

attribute [local instance] w64 in
/-- A static that is mutable is refused. -/
example : ∃ msg, (CollectionEmitter.build [.ident "Key"] (greetingCalls ++ [.mutable true])).emitString asciiXid slotSort
    (fun s x => (s + x.length) % 2 ^ 64) (fun s x => (s + x.length) % 2 ^ 64) 5 greetingEntries = .ok (.error msg) :=
  c74_misconfigured (greeting_emission _) (fun h => h.1 ⟨rfl, rfl⟩)

attribute [local instance] w64 in
/-- A name with a space is not refused: the build script panics. -/
example : ∃ msg, (CollectionEmitter.build [.ident "Key"] [.symbolName "my map"]).emitString asciiXid slotSort
    (fun s x => (s + x.length) % 2 ^ 64) (fun s x => (s + x.length) % 2 ^ 64) 5 greetingEntries = .error (.panic msg) := by
  refine c74_bad_name_panics (greeting_emission _) asciiXid_ok ⟨by decide, fun h => by cases h⟩ (fun h => ?_)
  have hn := (formatIdent_iff asciiXid_ok "my map").1 (h.1 _ rfl)
  exact absurd hn (by rw [show formatIdent asciiXid "my map" = .error (.panic "not a valid Ident") by rfl]; simp)

attribute [local instance] w64 in
/-- `symbol_name("fn")` gives `let fn: …`. -/
example : ∃ rest, (CollectionEmitter.build [.ident "Key"] [.symbolName "fn"]).emitString asciiXid slotSort
    (fun s x => (s + x.length) % 2 ^ 64) (fun s x => (s + x.length) % 2 ^ 64) 5 greetingEntries =
      .ok (.ok (.ident "let" :: .ident "fn" :: .punct ':' false :: rest)) :=
  c74_keyword_accepted asciiXid_ok (by decide) (greeting_emission _)

/-- What the emitted map answers to the queries. -/
def emittedAnswers [Target] (r : Res (Except String (Item (Emitted Nat Nat)))) (qs : List Nat) : Option (List (Res (Option Nat))) :=
  match r with
  | .ok (.ok item) =>
    match item.ctor.compile (F := Unit) natEq natCmp (fun _ _ => none) with
    | some (.ok (.inl m)) => some (qs.map (fun q => (InlineMap.impl natTraits).get m q))
    | _ => none
  | _ => none

/-- The agreement of keys and code for keys in `Emission.hash` cannot be dropped.  In the documentation of `CollectionEmitter` the entries have a key
that differs from the value of the code, `map_entry("Hello", "hello", ..)`; with four such entries no key of the emitted map is found. -/
theorem c74_keys_must_agree [T : Target] : emittedAnswers (staticMap.emitHash 0 listFind slotSort natEq (fun s k => (s + 31 * k) % 2 ^ 64) 7
      [⟨1, 11, 1⟩, ⟨2, 12, 2⟩, ⟨3, 13, 3⟩, ⟨4, 14, 4⟩]) [11, 12, 13, 14] = some [.ok none, .ok none, .ok none, .ok none] := by
  obtain ⟨_, rfl | rfl⟩ := T <;> cbv

/-! ## Entries -/

/-- **C74** (entries)  An entry made by `set_entry` is one made by `map_entry` with the value `()`; in a set the value makes no difference. -/
theorem c74_set_entries [Target] (X : XidTables) (e : CollectionEmitter) :
    (∀ (k : B) ke, CollectionEntry.setEntry k ke = CollectionEntry.mapEntry k ke [.group .paren []]) ∧
    (e.valueType = none → ∀ (ks : List (B × List Tk)) (v : B × List Tk → List Tk),
      (∀ find sort eqB fixedState seed, e.emitHash X find sort eqB fixedState seed (ks.map fun k => .setEntry k.1 k.2) =
        e.emitHash X find sort eqB fixedState seed (ks.map fun k => .mapEntry k.1 k.2 (v k))) ∧
      (∀ cmpB, e.emitOrdered X cmpB (ks.map fun k => .setEntry k.1 k.2) = e.emitOrdered X cmpB (ks.map fun k => .mapEntry k.1 k.2 (v k))) ∧
      (∀ b sort cmpB index, e.emitScalar X b sort cmpB index (ks.map fun k => .setEntry k.1 k.2) =
        e.emitScalar X b sort cmpB index (ks.map fun k => .mapEntry k.1 k.2 (v k)))) ∧
    (e.valueType = none → ∀ (ks : List (Str × List Tk)) (v : Str × List Tk → List Tk) sort fsStr fsSlice seed,
      e.emitString X sort fsStr fsSlice seed (ks.map fun k => .setEntry k.1 k.2) =
        e.emitString X sort fsStr fsSlice seed (ks.map fun k => .mapEntry k.1 k.2 (v k))) := by
  have clean : e.valueType = none → ∀ {B : Type} (ks : List (B × List Tk)) (v : B × List Tk → List Tk),
      e.emitter.cleanValues unitExpr (ks.map fun k => CollectionEntry.setEntry k.1 k.2) =
        e.emitter.cleanValues unitExpr (ks.map fun k => CollectionEntry.mapEntry k.1 k.2 (v k)) := by
    intro h B ks v
    have hv : e.emitter.hasValueType = false := by
      show e.valueType.isSome = false
      rw [h]; rfl
    unfold Emitter.cleanValues
    rw [hv]
    simp [CollectionEntry.setEntry, CollectionEntry.mapEntry]
  refine ⟨fun k ke => rfl, fun h ks v => ⟨?_, ?_, ?_⟩, fun h ks v sort fsStr fsSlice seed => ?_⟩
  · intro find sort eqB fixedState seed
    unfold CollectionEmitter.emitHash Emitter.emitHash
    rw [clean h ks v]
  · intro cmpB
    unfold CollectionEmitter.emitOrdered Emitter.emitOrdered
    rw [clean h ks v]
  · intro b sort cmpB index
    unfold CollectionEmitter.emitScalar Emitter.emitScalar
    rw [clean h ks v]
  · unfold CollectionEmitter.emitString Emitter.emitString
    rw [clean h ks v]

/-- A set of numbers: the entries may carry any value. -/
example (v : Nat × List Tk → List Tk) (cmp : Nat → Nat → Ordering) [Target] :
    (CollectionEmitter.build [.ident "u8"] [.symbolName "SMALL"]).emitOrdered asciiXid cmp
        ([(3, [numTk "3".toList]), (5, [numTk "5".toList])].map fun k => .setEntry k.1 k.2) =
      (CollectionEmitter.build [.ident "u8"] [.symbolName "SMALL"]).emitOrdered asciiXid cmp
        ([(3, [numTk "3".toList]), (5, [numTk "5".toList])].map fun k => .mapEntry k.1 k.2 (v k)) :=
  ((c74_set_entries asciiXid (CollectionEmitter.build [.ident "u8"] [.symbolName "SMALL"])).2.1 rfl _ v).2.1 cmp

end Frozen.Props
