import Verif.Lemmas.MacroShape
import Verif.Lemmas.TokenUnique
import Verif.Lemmas.Parsing
import Verif.Props.MacroExpr
import Verif.Props.Unambiguous
import Verif.Props.ExpandSpec

/-! # Helper lemmas on macros as functions from tokens to tokens -/

namespace Frozen.Model

open Frozen.Spec Frozen.Props

variable {K V F : Type}

attribute [local instance] w64 in
/-- Whatever the kind of the keys, the emitted constructor lists entries of the call only. -/
theorem fzMacro_entries {env : MacroEnv K V} (hsc : ∀ t, SorterOk (env.sortScalar t)) (hst : SorterOk env.sortStr) {isMap : Bool}
    {form : MacroForm} {kind : MacroKind} {entries : List (MacroEntry K V)} (hset : SetValues isMap entries) (hn : entries.length < 2 ^ 60)
    {item : Item (Emitted K V)} (hi : fzMacro env isMap form kind entries = .ok (.ok item)) :
    ∀ x ∈ item.ctor.entries, x ∈ macroWritten isMap env.unit entries := by
  unfold fzMacro process at hi
  split at hi
  · rename_i hemp
    obtain rfl : entries = [] := List.isEmpty_iff.1 hemp
    unfold processEmpty at hi
    split at hi
    · cases hi
    · unfold Emitter.emitHash at hi
      simp only [bind, Except.bind, Emitter.cleanValues] at hi
      split at hi
      · cases hi
      · rename_i es hes
        have : es = [] := by
          split at hes <;> exact (Except.ok.inj hes).symm
        subst this
        have := Emitter.finish_inv hi
        simp only [List.length_nil, Nat.ofNat_pos, if_true, Except.ok.injEq] at this
        rw [← this]
        intro x hx
        exact absurd hx (by simp [Generator.genScan, Emitted.entries])
  · split at hi
    · cases hi
    · rename_i k _
      by_cases hk : (∃ t, k = .allLiteralScalars t) ∨ k = .allLiteralStrings
      · exact (literal_item hsc hst hn hk hi).2.2.1
      · rw [← exprEntries_tokens hset]
        have key : ∀ (em : Emitter) (n : Nat) (kd : FzKind) (b : Bool),
            em.finish (exprEntries env.unit entries).length (fun g => .ok (if (exprEntries env.unit entries).length < n then
              g.genScanVec (exprEntries env.unit entries) else if b then g.genEytzingerVec (exprEntries env.unit entries) else
              g.genFz kd (exprEntries env.unit entries))) = .ok (.ok item) →
            item.ctor.entries = (exprEntries env.unit entries).map (fun e => e.toTokens) := by
          intro em n kd b h
          have h' := Emitter.finish_inv h
          rw [← Except.ok.inj h']
          split
          · rfl
          · split <;> rfl
        intro x hx
        cases k with
        | allLiteralScalars t => exact (hk (Or.inl ⟨t, rfl⟩)).elim
        | allLiteralStrings => exact (hk (Or.inr rfl)).elim
        | literalAndExpressionScalars => rw [key _ 8 .scalar false hi] at hx; exact hx
        | literalAndExpressionStrings => rw [key _ 4 .string false hi] at hx; exact hx
        | hashed => rw [key _ 4 .hash false hi] at hx; exact hx
        | ordered => rw [key _ 4 .hash true hi] at hx; exact hx

/-! ## Calls -/

variable {E T : Type}

theorem entries_values {Re : List Tk → E → Prop} {isMap : Bool} : ∀ {ts : List Tk} {es : List (ParsedEntry E)}, ListToks Re isMap ts es →
    ∀ e ∈ es, e.value.isSome = isMap := by
  intro ts es h
  induction h with
  | nil => simp
  | one he => cases he <;> simp
  | cons he _ _ ih => cases he <;> simpa using ih

theorem call_values {S : SynParsers E T} {Re : List Tk → E → Prop} {Rt : List Tk → T → Prop} {isMap : Bool} {ts : List Tk} {call : ParsedCall E T}
    (h : CallToks S.modPath Re Rt isMap ts call) : ∀ e ∈ call.entries, e.value.isSome = isMap := by
  cases h with
  | short _ hes => exact entries_values hes
  | let_ _ _ hl => cases hl with | mk _ _ _ _ _ _ _ hes => exact entries_values hes
  | static _ hl => cases hl with | mk _ _ _ _ _ _ _ hes => exact entries_values hes

theorem asks_eq {mean : ExprMeaning E K V} {call : ParsedCall E T} {v : Vis} {form : MacroForm} {args : List (MacroEntry K V)}
    (h : Asks mean call v form args) : v = call.vis ∧ form = call.form ∧ args = call.entries.map (fun e => e.toMacro mean) := by
  cases h with
  | short es => exact ⟨rfl, rfl, rfl⟩
  | static hs => exact ⟨rfl, by simp [ParsedCall.form, hs], rfl⟩
  | let_ hs => exact ⟨rfl, by simp [ParsedCall.form, hs], rfl⟩

theorem needsSuffix_iff {kind : MacroKind} {keys : List KeySyntax} (hne : keys ≠ []) :
    needsSuffix kind keys = true ↔ AllInts kind keys .undecided := by
  rw [← (c42_classes hne).1 .undecided]
  unfold needsSuffix
  split
  · rename_i h; simp [h]
  · rename_i h; simpa using h

/-- The code that is emitted for the keys is the code that the rule for suffixes gives. -/
theorem suffix_args {R : SynPrinters E T} {shape : E → KeySyntax} {kind : MacroKind} {es : List (ParsedEntry E)} {b : Bool}
    (hb : b = true ↔ AllInts kind (es.map (fun e => shape e.key)) .undecided) :
    es.map (fun e => e.toMacro (codeMeaning shape R (needsSuffix kind (es.map (fun e => shape e.key))))) =
      es.map (fun e => e.toMacro (codeMeaning shape R b)) := by
  cases es with
  | nil => rfl
  | cons e es =>
    have : needsSuffix kind ((e :: es).map (fun e => shape e.key)) = b := by
      rw [Bool.eq_iff_iff, needsSuffix_iff (by simp), hb]
    rw [this]

theorem toMacro_keys {shape : E → KeySyntax} {R : SynPrinters E T} {b : Bool} (es : List (ParsedEntry E)) :
    (es.map (fun e => e.toMacro (codeMeaning shape R b))).map (fun e => e.key) = es.map (fun e => shape e.key) := by
  rw [List.map_map]
  rfl

theorem keyCode_eq {R : SynPrinters E T} {shape : E → KeySyntax} {b : Bool} {ts code : List Tk} {e : E} (he : R.expr e = ts)
    (h : KeyCode b ts code) : code = (codeMeaning shape R b).keyVal e := by
  show code = if b then suffixI32 (R.expr e) else R.expr e
  rw [he]
  cases h with
  | asWritten => rfl
  | suffixed h => cases h <;> rfl

theorem asksCode {R : SynPrinters E T} {shape : E → KeySyntax} {b : Bool} {call : ParsedCall E T} {v : Vis} {form : MacroForm}
    {args : List (MacroEntry (List Tk) (List Tk))} (h : AsksCode R shape b call v form args) : Asks (codeMeaning shape R b) call v form args := by
  obtain ⟨mean, h1, h2, h3, h4⟩ := h
  have key : ∀ e ∈ listed call, (⟨mean.shape e.key, mean.keyVal e.key, e.value.map mean.valueVal⟩ : MacroEntry (List Tk) (List Tk)) =
      ⟨(codeMeaning shape R b).shape e.key, (codeMeaning shape R b).keyVal e.key, e.value.map (codeMeaning shape R b).valueVal⟩ := by
    intro e he
    rw [← keyCode_eq rfl (h3 e he), h1, h2]
    rfl
  cases h4 with
  | short es =>
    rw [List.map_congr_left (l := es) key]
    exact Asks.short es
  | @static m hs =>
    rw [List.map_congr_left (l := m.entries) key]
    exact Asks.static hs
  | @let_ m hs =>
    rw [List.map_congr_left (l := m.entries) key]
    exact Asks.let_ hs

attribute [local instance] w64 in
/-- The expansion of a call in terms of what was written. -/
theorem expand_eq {S : SynParsers E T} {R : SynPrinters E T} {shape : E → KeySyntax} {env : MacroEnv (List Tk) (List Tk)} {isMap : Bool}
    {kind : MacroKind} {ts : List Tk} {call : ParsedCall E T}
    (h : CallToks S.modPath (ReadsAs S.expr [',', ':']) (ReadsAs S.ty [',', '>']) isMap ts call) {b : Bool} {v : Vis} {form : MacroForm}
    {args : List (MacroEntry (List Tk) (List Tk))} (hc : Asks (codeMeaning shape R b) call v form args)
    (hb : b = true ↔ AllInts kind (args.map (fun e => e.key)) .undecided) {g : GenTypes} (hg : AsksTypes R isMap call g) :
    expand S R shape env isMap kind ts =
      match fzMacro { env with unit := [.group .paren []] } isMap form kind args with
      | .error f => .error f
      | .ok (.error msg) => .ok (.error msg)
      | .ok (.ok item) => .ok (.ok (emittedTokens v g codeToks item)) := by
  obtain ⟨rfl, rfl, rfl⟩ := asks_eq hc
  rw [toMacro_keys] at hb
  have hgt : call.genTypes R isMap = g := by
    cases hg with
    | shortMap es => rfl
    | shortSet es => rfl
    | longMap hv => simp [ParsedCall.genTypes, hv]
    | longSet hv => simp [ParsedCall.genTypes, hv]
  unfold expand
  rw [parse2_complete h]
  simp only [suffix_args hb, hgt]
  rfl

theorem asksTypes_isSome {R : SynPrinters E T} {isMap : Bool} {call : ParsedCall E T} {g : GenTypes} (hg : AsksTypes R isMap call g) :
    g.valueType.isSome = isMap := by
  cases hg <;> rfl

theorem caller_readable {c : Caller} (hc : c.Sane) (eqK : List Tk → List Tk → Bool) (cmp : List Tk → List Tk → Ordering)
    (fz : FzKind → List (List Tk × List Tk) → Option (Res F)) : Readable (Caller.prog c eqK cmp fz) where
  types := hc.types
  pairs := fun h1 h2 h3 h4 e => hc.pairs h1.1 h2.1 h3.1 h4.1 e
  keys := fun h1 h2 => h1.2.trans h2.2.symm
  values := fun h1 h2 => h1.2.trans h2.2.symm

theorem shape_requested {isMap c : Bool} {form : MacroForm} {item : Item (Emitted K V)}
    (h : ItemShape { form.emitter isMap with constKeys := c, constValues := c } item) : declKind item = requested c form := by
  cases item with
  | staticConst s a out =>
    obtain ⟨h1, h2, -, h3, h4⟩ := h
    cases form with
    | short => cases h1
    | static x y => cases h3; cases h4; simp only at h2; subst h2; rfl
    | let_ => cases h1
  | staticLazy s a out =>
    obtain ⟨h1, h2, h3, h4⟩ := h
    cases form with
    | short => cases h1
    | static x y =>
      cases h3
      cases h4
      cases c with
      | true => exact absurd ⟨rfl, rfl⟩ h2
      | false => rfl
    | let_ => cases h1
  | letStmt mu s a out =>
    obtain ⟨h1, h2, h3, h4⟩ := h
    cases form with
    | short => cases h3
    | static x y => cases h1
    | let_ => cases h3; cases h2; cases h4; rfl
  | expr out =>
    obtain ⟨h1, h2, -, -⟩ := h
    cases form with
    | short => rfl
    | static x y => cases h1
    | let_ => cases h2

attribute [local instance] w64 in
/-- Statics with a computed key are initialised on first use. -/
theorem computed_decl {env : MacroEnv K V} {isMap : Bool} {form : MacroForm} {kind : MacroKind} {entries : List (MacroEntry K V)} (hne : entries ≠ [])
    (h1 : ∀ t, ¬ AllInts kind (entries.map (fun e => e.key)) t) (h2 : ¬ AllStrs kind (entries.map (fun e => e.key)))
    {item : Item (Emitted K V)} (hi : fzMacro env isMap form kind entries = .ok (.ok item)) : declKind item = requested false form := by
  have hne' : entries.map (fun e => e.key) ≠ [] := by simpa using hne
  unfold fzMacro process at hi
  rw [if_neg (by simpa using hne)] at hi
  split at hi
  · cases hi
  · rename_i k hk
    refine shape_requested (isMap := isMap) (computed_item (form_valid isMap form false false) ?_ hi)
    rintro (⟨t, rfl⟩ | rfl)
    · exact h1 t (((c42_classes hne').1 t).1 hk)
    · exact h2 ((c42_classes hne').2.1.1 hk)

attribute [local instance] w64 in
/-- If the macro emits an item that compiles, then the expansion of the call has the meaning of the item. -/
theorem expand_item {S : SynParsers E T} {R : SynPrinters E T} {shape : E → KeySyntax} {env : MacroEnv (List Tk) (List Tk)}
    (hsc : ∀ t, SorterOk (env.sortScalar t)) (hst : SorterOk env.sortStr) (hseed : env.seed < 2 ^ 64) {isMap : Bool}
    {kind : MacroKind} {ts : List Tk} {call : ParsedCall E T}
    (h : CallToks S.modPath (ReadsAs S.expr [',', ':']) (ReadsAs S.ty [',', '>']) isMap ts call) {b : Bool} {v : Vis} {form : MacroForm}
    {args : List (MacroEntry (List Tk) (List Tk))} (hc : Asks (codeMeaning shape R b) call v form args)
    (hb : b = true ↔ AllInts kind (args.map (fun e => e.key)) .undecided) {g : GenTypes} (hg : AsksTypes R isMap call g)
    (hn : args.length < 2 ^ 56) (hkl : ∀ e ∈ args, ∀ v, KeyIs e.key (.str v) → v.length ≤ usizeMax) {c : Caller} (hsane : c.Sane)
    (hty : CallTyped c g args) {item : Item (Emitted (List Tk) (List Tk))}
    (hi : fzMacro { env with unit := [.group .paren []] } isMap form kind args = .ok (.ok item))
    {eqK : List Tk → List Tk → Bool} {cmp : List Tk → List Tk → Ordering} {fz : FzKind → List (List Tk × List Tk) → Option (Res F)}
    {r : Res (InlineMap (List Tk) (List Tk) ⊕ F)} (hr : item.ctor.compile eqK cmp fz = some r) :
    ∃ out, expand S R shape env isMap kind ts = .ok (.ok out) ∧ OnlyMeans (Caller.prog c eqK cmp fz) isMap v out (declKind item) r := by
  have hval : ∀ e ∈ args, e.value.isSome = isMap := by
    intro e he
    obtain ⟨-, -, rfl⟩ := asks_eq hc
    obtain ⟨x, hx, rfl⟩ := List.mem_map.1 he
    have := call_values h x hx
    simpa [ParsedEntry.toMacro] using this
  have hset : SetValues isMap args := by
    rintro rfl e he
    simpa using hval e he
  refine ⟨emittedTokens v g codeToks item, ?_, ?_⟩
  · rw [expand_eq h hc hb hg, hi]
  · have hent := fzMacro_entries (env := { env with unit := [.group .paren []] }) hsc hst hset (by omega) hi
    have hcall : CallerOk (Caller.prog c eqK cmp fz) g codeToks item.ctor := by
      refine ⟨hty.keyTy, hty.valTy, ?_⟩
      intro x hx
      obtain ⟨e, he, rfl⟩ := List.mem_map.1 (hent x hx)
      refine ⟨⟨hty.keys e he, rfl⟩, ?_, rfl⟩
      have hv := hty.values e he
      have hsome := asksTypes_isSome hg
      cases isMap with
      | true =>
        cases hev : e.value with
        | some w =>
          simp only [codeToks, if_true, Option.getD_some]
          exact hv w hev
        | none => exact absurd (hval e he) (by simp [hev])
      | false =>
        have hnone : g.valueType = none := by simpa using hsome
        have := hty.unit hnone
        simpa [codeToks, GenTypes.valueRTy, hnone] using this
    have hP := caller_readable hsane eqK cmp fz
    have := fun d r' => c64_meaning (env := { env with unit := [.group .paren []] }) hsc hst hseed hn hkl hi hP v hcall (d := d) (r := r') (by
      intro kd es he
      rw [he] at hr
      cases hf : fz kd es with
      | none =>
        rw [compile_fz, hf] at hr
        cases hr
      | some x => show (fz kd es).isSome = true; rw [hf]; rfl)
    intro d' r'
    have key := this d' r'
    rw [asksTypes_isSome hg] at key
    rw [key]
    show _ ∧ item.ctor.compile eqK cmp fz = some r' ↔ _
    rw [hr]
    simp [eq_comm]

/-- An error message is no collection. -/
theorem compileError_meaningless [Target] {P : Prog K V F} {isMap : Bool} {vis : Vis} {msg : String} {d : DeclKind} {r : Res (InlineMap K V ⊕ F)} :
    ¬ Declares P isMap vis.tokens (compileError msg) d r := by
  intro h
  have hh : (compileError msg).head? = some (.punct ':' true) := rfl
  have hl : (compileError msg).getLast? = some (.group .brace [.lit ("\"" ++ msg ++ "\"")]) := rfl
  generalize compileError msg = ts at h hh hl
  have hstatic : ∀ {pre d' x : List Tk} {X : RTy} {al : Option String}, Named P.userTy vis.tokens al pre d' X → (pre ++ vis.tokens ++ .ident "static" :: x).head? ≠
      some (.punct ':' true) := by
    intro pre d' x X al hn
    rw [named_head hn]
    cases vis <;> cases pre <;> simp [Vis.tokens]
  have hlocal : ∀ {pre d' x : List Tk} {X : RTy} {al : Option String}, Named P.userTy [] al pre d' X → (pre ++ .ident "let" :: x).head? ≠ some (.punct ':' true) := by
    intro pre d' x X al hn
    have := named_head (x := .ident "let" :: x) hn
    rw [List.append_nil] at this
    rw [this]
    cases pre <;> simp
  cases h with
  | constant ht hi => exact hstatic ht (by simpa only [List.append_assoc, List.cons_append, List.nil_append] using hh)
  | onFirstUse ht hi => exact hstatic ht (by simpa only [List.append_assoc, List.cons_append, List.nil_append] using hh)
  | local_ ht hi => exact hlocal ht (by simpa only [List.append_assoc, List.cons_append, List.nil_append] using hh)
  | expression hi =>
    unfold CollMeans at hi
    cases isMap with
    | true =>
      replace hi : MapMeans P ts _ r := hi
      cases hi <;> rw [callToks_last] at hl <;> cases hl
    | false =>
      replace hi : SetMeans P ts _ r := hi
      cases hi
      rw [callToks_last] at hl
      cases hl

end Frozen.Model
