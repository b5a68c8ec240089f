import Verif.Lemmas.Expand

/-!
# C71: from the tokens of a macro call to the behaviour of the collection
-/

namespace Frozen.Props

open Frozen.Spec Frozen.Model

variable {E T Q F : Type} {S : SynParsers E T} {R : SynPrinters E T} {shape : E → KeySyntax} {env : MacroEnv (List Tk) (List Tk)}
  {isMap : Bool} {kind : MacroKind} {c : Caller} {ts : List Tk} {v : Vis} {form : MacroForm} {args : List (MacroEntry (List Tk) (List Tk))}
  {g : GenTypes}

attribute [local instance] w64 in
theorem emitsMap_expands (henv : EnvOk env) (hw : WrittenCall S R shape isMap kind c ts v form args g) {q : QueryTraits Q (List Tk)}
    {eq : List Tk → List Tk → Bool} {mt : Q → List Tk → Bool} {es : List (List Tk × List Tk)}
    (h : EmitsMap q { form.emitter isMap with constKeys := true, constValues := true } eq mt es
      (fzMacro { env with unit := unitCode } isMap form kind args))
    (eqK : List Tk → List Tk → Bool) (cmp : List Tk → List Tk → Ordering) (fz : FzKind → List (List Tk × List Tk) → Option (Res F)) :
    ∃ m, ExpandsTo S R shape env isMap kind ts (Caller.prog c eqK cmp fz) v (requested true form) (.ok (.inl m)) ∧
      Behaves (InlineMap.impl q) m eq mt es := by
  obtain ⟨call, b, h1, h2, h3, h4⟩ := hw.reads
  replace h2 := asksCode h2
  obtain ⟨item, m, hi, hs, hcomp, hb⟩ := h
  obtain ⟨out, ho, hm⟩ := expand_item henv.scalars henv.strs henv.seed h1 h2 h3 h4 hw.size hw.strs hw.sane hw.typed hi (hcomp F eqK cmp fz)
  rw [shape_requested hs] at hm
  exact ⟨m, ⟨out, by unfold procMacro; rw [ho], hm⟩, hb⟩

attribute [local instance] w64 in
/-- **C71** (integer literals)  The code that a macro call expands to has exactly one meaning: the declaration that the call asks for, of a collection
that behaves like the written entries.  The values have to fit the type (see C42) and must not contain both `0` and `u64::MAX` (see C18); `bitsK`
is the value of an integer expression. -/
theorem c71_scalars (henv : EnvOk env) (hw : WrittenCall S R shape isMap kind c ts v form args g) (hne : args ≠ []) {t : ScalarType}
    (hk : AllInts kind (args.map (fun e => e.key)) t) {bitsK : List Tk → BitVec t.ty.width}
    (hval : ∀ e ∈ args, ∀ n s, KeyIs e.key (.int n s) → n ≤ litMax t ∧ ScalarVal t.ty.signed (bitsK e.keyValue) = n)
    (hspan : ¬ ((∃ e ∈ args, ∃ s, KeyIs e.key (.int 0 s)) ∧ ∃ e ∈ args, ∃ s, KeyIs e.key (.int (2 ^ 64 - 1) s)))
    {q : QueryTraits Q (List Tk)} (heqv : q.equivalent = scalarMatch (fun k => t.ty.index 64 (bitsK k)) q.index)
    (eqK : List Tk → List Tk → Bool) (cmp : List Tk → List Tk → Ordering) (fz : FzKind → List (List Tk × List Tk) → Option (Res F)) :
    ∃ m, ExpandsTo S R shape env isMap kind ts (Caller.prog c eqK cmp fz) v (requested true form) (.ok (.inl m)) ∧
      Behaves (InlineMap.impl q) m (fun a b => bitsK a == bitsK b) q.equivalent (macroWritten isMap unitCode args) :=
  emitsMap_expands henv hw (c37_macro_scalar_exprs (env := { env with unit := unitCode }) (henv.scalars _) hne hk hval hspan hw.size heqv) eqK cmp fz

attribute [local instance] w64 in
/-- **C71** (string literals)  `bytesK` are the bytes of a string expression. -/
theorem c71_strings (henv : EnvOk env) (hw : WrittenCall S R shape isMap kind c ts v form args g) (hne : args ≠ [])
    (hk : AllStrs kind (args.map (fun e => e.key))) {bytesK : List Tk → Str}
    (hval : ∀ e ∈ args, ∀ v, KeyIs e.key (.str v) → bytesK e.keyValue = v)
    {q : QueryTraits Q (List Tk)} (heqv : q.equivalent = fun x k => q.bytes x == bytesK k)
    (hstr : ∀ x, q.fixedState env.seed x = env.fsStr env.seed (q.bytes x)) (hslice : q.fixedStateSlice env.seed = env.fsSlice env.seed)
    (eqK : List Tk → List Tk → Bool) (cmp : List Tk → List Tk → Ordering) (fz : FzKind → List (List Tk × List Tk) → Option (Res F)) :
    ∃ m, ExpandsTo S R shape env isMap kind ts (Caller.prog c eqK cmp fz) v (requested true form) (.ok (.inl m)) ∧
      Behaves (InlineMap.impl q) m (fun a b => bytesK a == bytesK b) q.equivalent (macroWritten isMap unitCode args) := by
  have hsz := hw.size
  have hu := limits_w64
  exact emitsMap_expands henv hw (c37_macro_strings (env := { env with unit := unitCode }) henv.strs henv.seed hne hk
    (fun e he w h => ⟨hval e he w h, hw.strs e he w h⟩) (by omega) heqv hstr hslice) eqK cmp fz

attribute [local instance] w64 in
/-- **C71** (no entries, types declared). -/
theorem c71_empty (henv : EnvOk env) (hw : WrittenCall S R shape isMap kind c ts v form [] g) (hf : form ≠ .short)
    {eq : List Tk → List Tk → Bool} (he : LawfulEq' eq) {q : QueryTraits Q (List Tk)} (hq : LawfulQuery eq q.equivalent)
    (eqK : List Tk → List Tk → Bool) (cmp : List Tk → List Tk → Ordering) (fz : FzKind → List (List Tk × List Tk) → Option (Res F)) :
    ∃ m, ExpandsTo S R shape env isMap kind ts (Caller.prog c eqK cmp fz) v (requested true form) (.ok (.inl m)) ∧
      Behaves (InlineMap.impl q) m eq q.equivalent [] :=
  emitsMap_expands henv hw ((c37_macro_empty { env with unit := unitCode } isMap kind he hq).2 form
    (by cases form <;> first | rfl | exact absurd rfl hf)) eqK cmp fz

/-- The keys of the call are not all integer literals of one type, nor all string literals. -/
def SomeComputed (kind : MacroKind) (keys : List KeySyntax) : Prop := (∀ t, ¬ AllInts kind keys t) ∧ ¬ AllStrs kind keys

attribute [local instance] w64 in
/-- **C71** (computed keys)  The outcome of evaluating the code is that of C39, and no other reading of the code exists. -/
theorem c71_computed (henv : EnvOk env) (hw : WrittenCall S R shape isMap kind c ts v form args g) (hne : args ≠ [])
    (hk : SomeComputed kind (args.map (fun e => e.key))) {eqK : List Tk → List Tk → Bool} {cmp : List Tk → List Tk → Ordering}
    {fz : FzKind → List (List Tk × List Tk) → Option (Res F)} {item : Item (Emitted (List Tk) (List Tk))}
    {r : Res (InlineMap (List Tk) (List Tk) ⊕ F)} (hi : fzMacro { env with unit := unitCode } isMap form kind args = .ok (.ok item))
    (hr : item.ctor.compile eqK cmp fz = some r) :
    ExpandsTo S R shape env isMap kind ts (Caller.prog c eqK cmp fz) v (requested false form) r := by
  obtain ⟨call, b, h1, h2, h3, h4⟩ := hw.reads
  replace h2 := asksCode h2
  obtain ⟨out, ho, hm⟩ := expand_item henv.scalars henv.strs henv.seed h1 h2 h3 h4 hw.size hw.strs hw.sane hw.typed hi hr
  rw [computed_decl hne hk.1 hk.2 hi] at hm
  exact ⟨out, by unfold procMacro; rw [ho], hm⟩

theorem someComputed_of {kind : MacroKind} {keys : List KeySyntax} (hne : keys ≠ [])
    (h : MixedInts kind keys ∨ MixedStrs kind keys ∨ (kind = .hashed ∧ NoLits keys) ∨ (kind = .ordered ∧ NoLits keys)) : SomeComputed kind keys := by
  have hc := c42_classes (kind := kind) hne
  rcases h with h | h | h | h
  · have := hc.2.2.1.2 h
    exact ⟨fun t ht => by simp [(hc.1 t).2 ht] at this, fun ht => by simp [hc.2.1.2 ht] at this⟩
  · have := hc.2.2.2.1.2 h
    exact ⟨fun t ht => by simp [(hc.1 t).2 ht] at this, fun ht => by simp [hc.2.1.2 ht] at this⟩
  · have := hc.2.2.2.2.1.2 h
    exact ⟨fun t ht => by simp [(hc.1 t).2 ht] at this, fun ht => by simp [hc.2.1.2 ht] at this⟩
  · have := hc.2.2.2.2.2.2 h
    exact ⟨fun t ht => by simp [(hc.1 t).2 ht] at this, fun ht => by simp [hc.2.1.2 ht] at this⟩

theorem reads_setValues (h : ReadsCall S R shape isMap kind ts v form args g) : SetValues isMap args := by
  obtain ⟨call, b, h1, h2, -⟩ := h
  replace h2 := asksCode h2
  rintro rfl e he
  obtain ⟨-, -, rfl⟩ := asks_eq h2
  obtain ⟨x, hx, rfl⟩ := List.mem_map.1 he
  have := call_values h1 x hx
  simpa [ParsedEntry.toMacro] using this

attribute [local instance] w64 in
theorem yields_expands (henv : EnvOk env) (hw : WrittenCall S R shape isMap kind c ts v form args g) (hne : args ≠ [])
    (hk : SomeComputed kind (args.map (fun e => e.key))) {eqK : List Tk → List Tk → Bool} {cmp : List Tk → List Tk → Ordering}
    {fz : FzKind → List (List Tk × List Tk) → Option (Res F)} {I : MapImpl (InlineMap (List Tk) (List Tk) ⊕ F) Q (List Tk) (List Tk)}
    {mt : Q → List Tk → Bool} {es : List (List Tk × List Tk)}
    (h : MacroYields (fzMacro { env with unit := unitCode } isMap form kind args) eqK cmp fz I mt es) :
    ∃ m, ExpandsTo S R shape env isMap kind ts (Caller.prog c eqK cmp fz) v (requested false form) (.ok m) ∧ Behaves I m eqK mt es := by
  obtain ⟨item, m, hi, hr, hb⟩ := h
  exact ⟨m, c71_computed henv hw hne hk hi hr, hb⟩

attribute [local instance] w64 in
/-- **C71** (computed hashed keys that are different, or at least four). -/
theorem c71_hashed (henv : EnvOk env) (hw : WrittenCall S R shape isMap .hashed c ts v form args g) (hne : args ≠ [])
    (hk : NoLits (args.map (fun e => e.key))) {find : HbFind} (hfind : HbFindOk find) {sort : Sorter (List Tk × List Tk)} (hsort : SorterOk sort)
    {eqK : List Tk → List Tk → Bool} (he : LawfulEq' eqK) {q : QueryTraits Q (List Tk)} (hq : LawfulQuery eqK q.equivalent)
    {hK : List Tk → Nat} {hQ : Q → Nat} (hh : LawfulHash eqK q.equivalent hK hQ) {cmp : List Tk → List Tk → Ordering}
    {fz : FzKind → List (List Tk × List Tk) → Option (Res (HashMap (List Tk) (List Tk)))}
    (hfz : ∀ es, fz .hash es = some (FzHashMap.withHasher find sort eqK hK es)) (hd : DistinctKeys eqK args ∨ 4 ≤ args.length) :
    ∃ m, ExpandsTo S R shape env isMap .hashed ts (Caller.prog c eqK cmp fz) v (requested false form) (.ok m) ∧
      Behaves (sumImpl (InlineMap.impl q) (FzHashMap.impl hQ q.equivalent)) m eqK q.equivalent (macroWritten isMap unitCode args) := by
  have hsz := hw.size
  have hu := limits_w64
  exact yields_expands henv hw hne (someComputed_of (by simpa using hne) (.inr (.inr (.inl ⟨rfl, hk⟩))))
    (c39_hash_partial (env := { env with unit := unitCode }) hk hne (reads_setValues hw.reads) (by omega) hfind hsort he hq hh hfz hd)

attribute [local instance] w64 in
/-- **C71** (computed ordered keys that are different). -/
theorem c71_ordered (henv : EnvOk env) (hw : WrittenCall S R shape isMap .ordered c ts v form args g) (hne : args ≠ [])
    (hk : NoLits (args.map (fun e => e.key))) {cmp : List Tk → List Tk → Ordering} (hc : LawfulCmp cmp) {q : QueryTraits Q (List Tk)}
    (hq : LawfulQueryCmp cmp q.compare) (heqv : q.equivalent = fun x k => q.compare x k == .eq)
    {fz : FzKind → List (List Tk × List Tk) → Option (Res F)} {J : MapImpl F Q (List Tk) (List Tk)}
    (hd : DistinctKeys (fun a b => cmp a b == .eq) args) :
    ∃ m, ExpandsTo S R shape env isMap .ordered ts (Caller.prog c (fun a b => cmp a b == .eq) cmp fz) v (requested false form) (.ok m) ∧
      Behaves (sumImpl (InlineMap.impl q) J) m (fun a b => cmp a b == .eq) q.equivalent (macroWritten isMap unitCode args) := by
  have hsz := hw.size
  have hu := limits_w64
  exact yields_expands henv hw hne (someComputed_of (by simpa using hne) (.inr (.inr (.inr ⟨rfl, hk⟩))))
    (c39_ordered_partial (env := { env with unit := unitCode }) hk hne (reads_setValues hw.reads) (by omega) hc hq heqv hd)

attribute [local instance] w64 in
/-- **C71** (scalar keys of which some are computed, different or at least eight, not spanning all of `usize`). -/
theorem c71_scalar_exprs (henv : EnvOk env) (hw : WrittenCall S R shape isMap kind c ts v form args g) (hne : args ≠ [])
    (hk : MixedInts kind (args.map (fun e => e.key))) {b : Build} {sort : Sorter (List Tk × List Tk)} (hsort : SorterOk sort)
    {cmp : List Tk → List Tk → Ordering} {index : List Tk → Nat} (hs : LawfulScalar cmp index) {q : QueryTraits Q (List Tk)}
    (heqv : q.equivalent = scalarMatch index q.index) {fz : FzKind → List (List Tk × List Tk) → Option (Res (FzScalarMap (List Tk) (List Tk)))}
    (hfz : ∀ es, fz .scalar es = some (FzScalarMap.new b sort cmp index es))
    (hd : DistinctKeys (fun a b => cmp a b == .eq) args ∨ 8 ≤ args.length)
    (hspan : 8 ≤ args.length → ∀ x ∈ args, ∀ y ∈ args, index x.keyValue - index y.keyValue < usizeMax) :
    ∃ m, ExpandsTo S R shape env isMap kind ts (Caller.prog c (fun a b => cmp a b == .eq) cmp fz) v (requested false form) (.ok m) ∧
      Behaves (sumImpl (InlineMap.impl q) (FzScalarMap.impl q.index (scalarMatch index q.index))) m (fun a b => cmp a b == .eq) q.equivalent
        (macroWritten isMap unitCode args) :=
  yields_expands henv hw hne (someComputed_of (by simpa using hne) (.inl hk))
    (c39_scalar_partial (env := { env with unit := unitCode }) hk hne (reads_setValues hw.reads) hw.size hsort hs heqv hfz hd hspan)

attribute [local instance] w64 in
/-- **C71** (string keys of which some are computed): fewer than four different keys. -/
theorem c71_string_exprs_small (henv : EnvOk env) (hw : WrittenCall S R shape isMap kind c ts v form args g) (hne : args ≠ [])
    (hk : MixedStrs kind (args.map (fun e => e.key))) (hn : args.length < 4) {bytesK : List Tk → Str} {q : QueryTraits Q (List Tk)}
    (heqv : q.equivalent = fun x k => q.bytes x == bytesK k) {cmp : List Tk → List Tk → Ordering}
    {fz : FzKind → List (List Tk × List Tk) → Option (Res F)} {J : MapImpl F Q (List Tk) (List Tk)}
    (hd : DistinctKeys (fun a b => bytesK a == bytesK b) args) :
    ∃ m, ExpandsTo S R shape env isMap kind ts (Caller.prog c (fun a b => bytesK a == bytesK b) cmp fz) v (requested false form) (.ok m) ∧
      Behaves (sumImpl (InlineMap.impl q) J) m (fun a b => bytesK a == bytesK b) q.equivalent (macroWritten isMap unitCode args) :=
  yields_expands henv hw hne (someComputed_of (by simpa using hne) (.inr (.inl hk)))
    (c39_string_small_partial (env := { env with unit := unitCode }) hk hne (reads_setValues hw.reads) hn heqv hd)

attribute [local instance] w64 in
/-- **C71** (string keys of which some are computed): four keys or more, of a type for which `FzStringMap::new` exists (see C48). -/
theorem c71_string_exprs_large (henv : EnvOk env) (hw : WrittenCall S R shape isMap kind c ts v form args g) (hne : args ≠ [])
    (hk : MixedStrs kind (args.map (fun e => e.key))) (h4 : 4 ≤ args.length) {kt : StrKeyType} (hkt : kt ≠ .other)
    {sort : Sorter (Str × List Tk)} (hsort : SorterOk sort) (bhStr bhSlice : Str → Nat) (bytesK : List Tk → Str)
    (eqK : List Tk → List Tk → Bool) (cmp : List Tk → List Tk → Ordering) :
    ∃ m, ExpandsTo S R shape env isMap kind ts (Caller.prog c eqK cmp (fzStringCtor kt sort bhStr bhSlice bytesK)) v (requested false form)
        (.ok (.inr m)) ∧
      Behaves (FzStringMap.impl bhStr bhSlice) m (fun a b => a == b) (fun a b => a == b)
        ((macroWritten isMap unitCode args).map (fun e => (bytesK e.1, e.2))) := by
  have hsz := hw.size
  have hu := limits_w64
  obtain ⟨item, m, hi, hr, hb⟩ := c39_string_large (env := { env with unit := unitCode }) (isMap := isMap) (form := form) hk hne
    (reads_setValues hw.reads) h4 (by omega) hkt hsort bhStr bhSlice bytesK eqK cmp
  exact ⟨m, c71_computed henv hw hne (someComputed_of (by simpa using hne) (.inr (.inl hk))) hi hr, hb⟩

/-! ## Calls that are rejected -/

attribute [local instance] w64 in
/-- **C71** (errors)  A call of no documented form expands to a compile error. -/
theorem c71_malformed (hE : Consumes S.expr) (hT : Consumes S.ty)
    (h : ∀ call, ¬ CallToks S.modPath (ReadsAsIn S.expr) (ReadsAsIn S.ty) isMap ts call) :
    ∃ msg, procMacro S R shape env isMap kind ts = .ok (stopCode msg) := by
  cases hp : parse2 S isMap ts with
  | error msg => exact ⟨msg, by unfold procMacro expand; rw [hp]; rfl⟩
  | ok call => exact absurd (parse2_sound hE hT hp) (h call)

attribute [local instance] w64 in
/-- **C71** (errors)  So does, among the calls of a documented form, exactly one without entries and types, one whose keys do not go together, and one
with an integer that does not fit (see C42). -/
theorem c71_rejected (h : ReadsCall S R shape isMap kind ts v form args g) :
    (∃ msg, expand S R shape env isMap kind ts = .ok (.error msg)) ↔
      (args = [] ∧ form = .short) ∨ Incompatible kind (args.map (fun e => e.key)) ∨
      ∃ t, AllInts kind (args.map (fun e => e.key)) t ∧ ∃ e ∈ args, ∃ n s, KeyIs e.key (.int n s) ∧ litMax t < n := by
  obtain ⟨call, b, h1, h2, h3, h4⟩ := h
  replace h2 := asksCode h2
  rw [← c42_macro_error_iff { env with unit := unitCode } isMap form kind args, expand_eq h1 h2 h3 h4]
  constructor
  · rintro ⟨msg, he⟩
    split at he
    · cases he
    · rename_i msg' hm
      exact ⟨msg', hm⟩
    · cases he
  · rintro ⟨msg, he⟩
    refine ⟨msg, ?_⟩
    change fzMacro { env with unit := [.group .paren []] } isMap form kind args = _ at he
    rw [he]

attribute [local instance] w64 in
/-- **C71** (errors)  A compile error is no collection, under any reading. -/
theorem c71_error {msg : String} (h : expand S R shape env isMap kind ts = .ok (.error msg)) {K V : Type} (P : Prog K V F) (vis : Vis)
    (d : DeclKind) (r : Res (InlineMap K V ⊕ F)) :
    procMacro S R shape env isMap kind ts = .ok (stopCode msg) ∧ ¬ Declares P isMap vis.tokens (stopCode msg) d r :=
  ⟨by unfold procMacro; rw [h]; rfl, compileError_meaningless⟩

/-! ## An instance -/

/-- A parser that takes one identifier or literal. -/
def atomParser : TkParser Tk
  | .ident s :: ts => .ok (.ident s, ts)
  | .lit s :: ts => .ok (.lit s, ts)
  | _ => .error "expected an expression"

def atomSyn : SynParsers Tk Tk where
  expr := atomParser
  ty := atomParser
  modPath ts := !ts.isEmpty

def atomPrint : SynPrinters Tk Tk where
  expr t := [t]
  ty t := [t]

theorem atomParser_reads (ends : List Char) (s : String) : ReadsAs atomParser ends [.ident s] (.ident s) ∧ ReadsAs atomParser ends [.lit s] (.lit s) :=
  ⟨⟨by simp, fun _ _ => rfl⟩, ⟨by simp, fun _ _ => rfl⟩⟩

/-- The literals of the instance. -/
def atomShape : Tk → KeySyntax
  | .lit s => if s = "7" then .lit (.int 7 "") else if s = "3" then .lit (.int 3 "") else .lit .other
  | _ => .other

/-- Their values in the emitted code. -/
def atomBits : List Tk → BitVec 32
  | [.lit s] => if s = "7i32" then 7 else if s = "3i32" then 3 else 0
  | _ => 0

/-- Keys are literals, values identifiers, types are inferred. -/
def atomCaller : Caller where
  userTy ts := ts = [.ident "_"]
  keyTy ts _ := ∃ s, ts = [.lit s]
  valTy ts _ := ∃ s, ts = [.ident s]

theorem atomCaller_sane : atomCaller.Sane where
  types := by rintro ts rfl; rfl
  pairs := by
    rintro k v k' v' X Y X' Y' ⟨s, rfl⟩ ⟨s', rfl⟩ ⟨t, rfl⟩ ⟨t', rfl⟩ e
    simp only [List.cons_append, List.nil_append, List.cons.injEq] at e
    rw [e.1]

/-- `{ 7: a, 3: b, 7: c }`. -/
def atomCall : List Tk :=
  [.group .brace [.lit "7", .punct ':' false, .ident "a", .punct ',' false, .lit "3", .punct ':' false, .ident "b", .punct ',' false,
    .lit "7", .punct ':' false, .ident "c"]]

theorem atomCall_reads : CallToks atomSyn.modPath (ReadsAs atomSyn.expr [',', ':']) (ReadsAs atomSyn.ty [',', '>']) true atomCall
    (.short [⟨.lit "7", some (.ident "a")⟩, ⟨.lit "3", some (.ident "b")⟩, ⟨.lit "7", some (.ident "c")⟩]) := by
  have p : ∀ c j, IsPunct c (.punct c j) := fun c j => ⟨j, rfl⟩
  have r := atomParser_reads
  refine CallToks.short (v := []) VisToks.none ?_
  refine ListToks.cons (ts := [.lit "7", .punct ':' false, .ident "a"]) (EntryToks.map (k := [.lit "7"]) (r _ _).2 (p _ _) (r _ _).1) (p _ _) ?_
  refine ListToks.cons (ts := [.lit "3", .punct ':' false, .ident "b"]) (EntryToks.map (k := [.lit "3"]) (r _ _).2 (p _ _) (r _ _).1) (p _ _) ?_
  exact ListToks.one (EntryToks.map (k := [.lit "7"]) (r _ _).2 (p _ _) (r _ _).1)

/-- What the call asks for; `i32` is added to the keys. -/
def atomArgs : List (MacroEntry (List Tk) (List Tk)) :=
  [⟨.lit (.int 7 ""), [.lit "7i32"], some [.ident "a"]⟩, ⟨.lit (.int 3 ""), [.lit "3i32"], some [.ident "b"]⟩,
   ⟨.lit (.int 7 ""), [.lit "7i32"], some [.ident "c"]⟩]

theorem atomArgs_ints : AllInts .scalar (atomArgs.map (fun e => e.key)) .undecided :=
  ((c42_classes (by simp [atomArgs])).1 .undecided).1 rfl

theorem atomCall_written [Target] : WrittenCall atomSyn atomPrint atomShape true .scalar atomCaller atomCall .inherited .short atomArgs
    ⟨[.ident "_"], some [.ident "_"]⟩ where
  reads := by
    refine ⟨_, true, atomCall_reads, ⟨codeMeaning atomShape atomPrint true, rfl, rfl, ?_, ?_⟩, ⟨fun _ => atomArgs_ints, fun _ => rfl⟩,
      AsksTypes.shortMap _⟩
    · intro e he
      simp only [listed, List.mem_cons, List.not_mem_nil, or_false] at he
      rcases he with rfl | rfl | rfl <;> exact KeyCode.suffixed (LitCode.bare _)
    have : atomArgs = _ := (show atomArgs = ([⟨.lit "7", some (.ident "a")⟩, ⟨.lit "3", some (.ident "b")⟩, ⟨.lit "7", some (.ident "c")⟩] :
      List (ParsedEntry Tk)).map (fun e => e.toMacro (codeMeaning atomShape atomPrint true)) by rfl)
    rw [this]
    exact Asks.short _
  sane := atomCaller_sane
  typed := by
    refine ⟨rfl, fun ts h => (Option.some.inj h).symm, ?_, ?_, fun h => by cases h⟩
    · intro e he
      simp only [atomArgs, List.mem_cons, List.not_mem_nil, or_false] at he
      rcases he with rfl | rfl | rfl <;> exact ⟨_, rfl⟩
    · intro e he w hw
      simp only [atomArgs, List.mem_cons, List.not_mem_nil, or_false] at he
      rcases he with rfl | rfl | rfl <;> cases hw <;> exact ⟨_, rfl⟩
  size := by
    have := target_cases
    simp only [atomArgs, List.length_cons, List.length_nil]
    omega
  strs := by
    intro e he w h
    simp only [atomArgs, List.mem_cons, List.not_mem_nil, or_false] at he
    rcases he with rfl | rfl | rfl <;> cases h

/-- Queries are integers. -/
def atomTraits : QueryTraits (BitVec 32) (List Tk) where
  equivalent := scalarMatch (fun k => ScalarType.undecided.ty.index 64 (atomBits k)) (ScalarType.undecided.ty.index 64)
  compare _ _ := .eq
  index := ScalarType.undecided.ty.index 64
  fixedState _ _ := 0
  bytes _ := []
  fixedStateSlice _ _ := 0

attribute [local instance] w64 in
/-- `fz_scalar_map!({ 7: a, 3: b, 7: c })`: whoever reads the expansion finds an expression for a map in which `7` has the value `c`. -/
example : ∃ out m, procMacro atomSyn atomPrint atomShape (demoEnv _ _ []) true .scalar atomCall = .ok out ∧
    (∀ d r, Declares (F := Unit) (Caller.prog atomCaller (fun _ _ => false) (fun _ _ => .eq) (fun _ _ => none)) true [] out d r ↔
      d = .expression ∧ r = .ok (.inl m)) ∧
    (InlineMap.impl atomTraits).get m 7 = .ok (some [.ident "c"]) ∧ (InlineMap.impl atomTraits).get m 8 = .ok none := by
  obtain ⟨m, ⟨out, h1, h2⟩, h3⟩ := c71_scalars (F := Unit) (env := demoEnv _ _ []) ⟨fun _ => slotSort_ok, slotSort_ok, by decide⟩ atomCall_written
    (by simp [atomArgs]) atomArgs_ints (bitsK := atomBits)
    (by
      intro e he n s h
      simp only [atomArgs, List.mem_cons, List.not_mem_nil, or_false] at he
      rcases he with rfl | rfl | rfl <;> cases h <;> decide)
    (by
      rintro ⟨⟨e, he, s, h⟩, -⟩
      simp only [atomArgs, List.mem_cons, List.not_mem_nil, or_false] at he
      rcases he with rfl | rfl | rfl <;> cases h)
    (q := atomTraits) rfl (fun _ _ => false) (fun _ _ => .eq) (fun _ _ => none)
  exact ⟨out, m, h1, h2, (h3.lookups.get 7).trans (by rfl), (h3.lookups.get 8).trans (by rfl)⟩

/-- `fz_scalar_map!({ 7 })` expands to a compile error. -/
example : ∃ msg, procMacro atomSyn atomPrint atomShape (demoEnv _ _ []) true .scalar [.group .brace [.lit "7"]] = .ok (stopCode msg) :=
  ⟨_, rfl⟩

end Frozen.Props
