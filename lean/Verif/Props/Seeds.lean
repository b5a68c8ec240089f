import Verif.Props.StdSpec
import Verif.Lemmas.StdImpls
import Verif.Lemmas.Seeds
import Verif.Props.History
import Verif.Props.Sets
import Verif.Props.Strategy
import Verif.Props.Expand

/-!
# C75: what depends on the hash function and on the seed
-/

namespace Frozen.Props

open Frozen.Spec Frozen.Model

variable {Q K V B M M' T : Type}

/-! ## Running programs -/

/-- **C75** (maps)  Two maps of any type that are built of the same entries, with whatever hash functions, cannot be told apart except by the order of
iteration: any operations that do not make use of positions observe the same, entries being listed in some order, and leave the same entries. -/
theorem c75_histories [Target] {eqK : K → K → Bool} {mt : Q → K → Bool} {es : List (K × V)} {I : MapImpl M Q K V} {J : MapImpl M' Q K V} {m : M} {m' : M'}
    (hb : Built eqK mt es I m) (hb' : Built eqK mt es J m') {eqQ : Q → Q → Bool} (hc : EqCompatible eqQ mt) {ops : List (Op Q K V)}
    (hops : ∀ op ∈ ops, OrderFree op) :
    List.Forall₂ SameOut (I.run eqQ m ops).1 (J.run eqQ m' ops).1 ∧
      (I.entries (I.run eqQ m ops).2).Perm (J.entries (J.run eqQ m' ops).2) := by
  obtain ⟨_, F⟩ := hb.facts
  obtain ⟨_, G⟩ := hb'.facts
  obtain ⟨h1, h2, -⟩ := run_sim F.query F.lawful hc ops F.inv
  obtain ⟨h3, h4, -⟩ := run_sim G.query G.lawful hc ops G.inv
  rw [h1, h2, h3, h4]
  have hd : Distinct (entryEq eqK) (J.entries m') :=
    Distinct.perm G.eq.entry G.perm.symm (by unfold survivors; exact keepLast_distinct es)
  exact dictRun_perm F.query eqQ ops hops (F.perm.trans G.perm.symm) hd

/-- **C75** (sets) -/
theorem c75_sets [Target] {eqT : T → T → Bool} {mt : Q → T → Bool} {xs : List T} {I : SetImpl M Q T} {J : SetImpl M' Q T} {m : M} {m' : M'}
    (hb : BuiltSet eqT mt xs I m) (hb' : BuiltSet eqT mt xs J m') :
    (∀ q, I.contains m q = J.contains m' q) ∧ (∀ q, I.get m q = J.get m' q) ∧ I.len m = J.len m' ∧ (I.items m).Perm (J.items m') := by
  obtain ⟨he, -, hs⟩ := hb.spec
  obtain ⟨-, -, hs'⟩ := hb'.spec
  have nd : ∀ {l : List T}, Distinct eqT l → l.Nodup := by
    intro l h
    refine List.Pairwise.imp (fun {a b} hab => ?_) h
    rintro rfl
    rw [he.refl] at hab
    cases hab
  have hp : (I.items m).Perm (J.items m') :=
    (List.perm_ext_iff_of_nodup (nd hs.distinct) (nd hs'.distinct)).2 (fun x => (hs.mem x).trans (hs'.mem x).symm)
  refine ⟨fun q => by rw [hs.contains, hs'.contains], fun q => by rw [hs.get, hs'.get], ?_, hp⟩
  rw [hs.len, hs'.len, hp.length_eq]

/-- **C75** (`FzHashMap`)  Two runs of a program use different hash functions: both build the map, and all operations agree. -/
theorem c75_fz_hash_map [Target] {find find' : HbFind} (hf : HbFindOk find) (hf' : HbFindOk find') {sort sort' : Sorter (K × V)} (hs : SorterOk sort)
    (hs' : SorterOk sort') {eqK : K → K → Bool} (he : LawfulEq' eqK) {mt : Q → K → Bool} (hq : LawfulQuery eqK mt) {hK hK' : K → Nat}
    {hQ hQ' : Q → Nat} (hh : LawfulHash eqK mt hK hQ) (hh' : LawfulHash eqK mt hK' hQ') {eqQ : Q → Q → Bool} (hc : EqCompatible eqQ mt)
    {es : List (K × V)} (hn : es.length < sizeLimit) :
    ∃ m m', FzHashMap.withHasher find sort eqK hK es = .ok m ∧ FzHashMap.withHasher find' sort' eqK hK' es = .ok m' ∧
      ∀ ops, (∀ op ∈ ops, OrderFree op) →
        List.Forall₂ SameOut ((FzHashMap.impl hQ mt).run eqQ m ops).1 ((FzHashMap.impl hQ' mt).run eqQ m' ops).1 := by
  obtain ⟨m, h1, -⟩ := c01_fz_hash_map hf hs he hq hh es hn
  obtain ⟨m', h2, -⟩ := c01_fz_hash_map hf' hs' he hq hh' es hn
  exact ⟨m, m', h1, h2, fun ops hops => (c75_histories (.fzHash hf hs he hq hh hn h1) (.fzHash hf' hs' he hq hh' hn h2) hc hops).1⟩

/-- **C75** (`FzStringMap`)  The two hash functions may even lead to different strategies. -/
theorem c75_fz_string_map [Target] {sort sort' : Sorter (Str × V)} (hs : SorterOk sort) (hs' : SorterOk sort') (bhStr bhSlice bhStr' bhSlice' : Str → Nat)
    {eqQ : Str → Str → Bool} (hc : EqCompatible eqQ (fun a b : Str => a == b)) {es : List (Str × V)} (hn : es.length < sizeLimit) :
    ∃ m m', FzStringMap.withHasher sort bhStr bhSlice es = .ok m ∧ FzStringMap.withHasher sort' bhStr' bhSlice' es = .ok m' ∧
      ∀ ops, (∀ op ∈ ops, OrderFree op) →
        List.Forall₂ SameOut ((FzStringMap.impl bhStr bhSlice).run eqQ m ops).1 ((FzStringMap.impl bhStr' bhSlice').run eqQ m' ops).1 := by
  obtain ⟨m, h1, -⟩ := c04_fz_string_map hs bhStr bhSlice es hn
  obtain ⟨m', h2, -⟩ := c04_fz_string_map hs' bhStr' bhSlice' es hn
  exact ⟨m, m', h1, h2, fun ops hops => (c75_histories (.fzString hs hn h1) (.fzString hs' hn h2) hc hops).1⟩

/-- The entries of a hash map in iteration order. -/
def hashedOrder [Target] (h : Nat → Nat) (es : List (Nat × Char)) : Option (List (Nat × Char)) :=
  match FzHashMap.withHasher listFind slotSort natEq h es with
  | .ok m => some ((FzHashMap.impl h natEq).entries m)
  | .error _ => none

/-- The order of iteration is what the claim has to except: it depends on the hash function. -/
theorem c75_order_depends [T : Target] : ∃ (h h' : Nat → Nat) (es : List (Nat × Char)),
    hashedOrder h es = some es ∧ hashedOrder h' es = some es.reverse ∧ es ≠ es.reverse := by
  obtain ⟨_, rfl | rfl⟩ := T <;> exact ⟨fun n => 3 - n, id, [(0, 'a'), (1, 'b')], by cbv, by cbv, by decide⟩

-- Two hash functions, a lookup, a listing, an update and another lookup.
attribute [local instance] w64 in
example : ∃ m m', FzHashMap.withHasher listFind slotSort natEq id [(0, 'a'), (1, 'b')] = .ok m ∧
    FzHashMap.withHasher listFind slotSort natEq (fun n => 3 - n) [(0, 'a'), (1, 'b')] = .ok m' ∧
    List.Forall₂ SameOut
      ((FzHashMap.impl id natEq).run natEq m [.get 1, .iterate, .update 1 (fun _ => 'c'), .valuesMut (fun _ v => v), .get 1]).1
      ((FzHashMap.impl (fun n => 3 - n) natEq).run natEq m' [.get 1, .iterate, .update 1 (fun _ => 'c'), .valuesMut (fun _ v => v), .get 1]).1 := by
  obtain ⟨m, m', h1, h2, h3⟩ := c75_fz_hash_map (Q := Nat) listFind_ok listFind_ok slotSort_ok slotSort_ok natEq_lawful natEq_query (natEq_hash id)
    (natEq_hash (fun n => 3 - n)) (c23_key_queries_compatible natEq_lawful) (es := [(0, 'a'), (1, 'b')]) (by decide)
  exact ⟨m, m', h1, h2, h3 _ (by
    intro op hop
    simp only [List.mem_cons, List.not_mem_nil, or_false] at hop
    rcases hop with rfl | rfl | rfl | rfl | rfl <;> first | trivial | exact fun _ _ => rfl)⟩

-- Two hash sets of the same elements.
attribute [local instance] w64 in
example : ∃ m m', FzHashSet.withHasher listFind slotSort natEq id [3, 1, 3] = .ok m ∧
    FzHashSet.withHasher listFind slotSort natEq (fun n => 3 - n) [3, 1, 3] = .ok m' ∧
    ∀ q, (fzSetImpl (FzHashMap.impl id natEq)).contains m q = (fzSetImpl (FzHashMap.impl (fun n => 3 - n) natEq)).contains m' q := by
  obtain ⟨m, h1, -⟩ := c01_fz_hash_map (Q := Nat) listFind_ok slotSort_ok natEq_lawful natEq_query (natEq_hash id) (unitEntries [3, 1, 3]) (by decide)
  obtain ⟨m', h2, -⟩ := c01_fz_hash_map (Q := Nat) listFind_ok slotSort_ok natEq_lawful natEq_query (natEq_hash (fun n => 3 - n))
    (unitEntries [3, 1, 3]) (by decide)
  exact ⟨m, m', h1, h2, (c75_sets (.fzHash listFind_ok slotSort_ok natEq_lawful natEq_query (natEq_hash id) (by decide) h1)
    (.fzHash listFind_ok slotSort_ok natEq_lawful natEq_query (natEq_hash (fun n => 3 - n)) (by decide) h2)).1⟩

-- Strings under a constant hash function and under another one.
attribute [local instance] w64 in
example : ∃ m m', FzStringMap.withHasher slotSort (fun _ => 0) (fun _ => 0) [([1, 2], 'a'), ([1, 3], 'b')] = .ok m ∧
    FzStringMap.withHasher slotSort (fun s => s.sum.toNat) (fun s => s.sum.toNat) [([1, 2], 'a'), ([1, 3], 'b')] = .ok m' ∧
    List.Forall₂ SameOut ((FzStringMap.impl (fun _ => 0) (fun _ => 0)).run (fun a b => a == b) m [.get [1, 3], .iterate]).1
      ((FzStringMap.impl (fun s => s.sum.toNat) (fun s => s.sum.toNat)).run (fun a b => a == b) m' [.get [1, 3], .iterate]).1 := by
  obtain ⟨m, m', h1, h2, h3⟩ := c75_fz_string_map slotSort_ok slotSort_ok (fun _ => 0) (fun _ => 0) (fun s => s.sum.toNat) (fun s => s.sum.toNat)
    (c23_key_queries_compatible strEq_lawful) (es := [([1, 2], 'a'), ([1, 3], 'b')]) (by decide)
  exact ⟨m, m', h1, h2, h3 _ (by
    intro op hop
    simp only [List.mem_cons, List.not_mem_nil, or_false] at hop
    rcases hop with rfl | rfl <;> trivial)⟩

/-! ## Generated code -/

attribute [local instance] w64 in
theorem processEmpty_seed (env : MacroEnv K V) (s s' : Nat) (unit : V) (em : Emitter) (b : Bool) :
    processEmpty { { env with seed := s } with unit := unit } em b = processEmpty { { env with seed := s' } with unit := unit } em b := by
  have h : ∀ (em : Emitter), em.cleanValues unit ([] : List (CollectionEntry (BitVec ScalarType.i32.ty.width) K V)) = [] := by
    intro em
    unfold Emitter.cleanValues
    split <;> rfl
  unfold processEmpty Emitter.emitHash
  simp only [h]
  rfl

attribute [local instance] w64 in
/-- **C75** (macros without seeds)  Unless its keys are string literals, a call is replaced by the same code in each build. -/
theorem c75_macro_same_partial {E T : Type} {S : SynParsers E T} {R : SynPrinters E T} {shape : E → KeySyntax} {env : MacroEnv (List Tk) (List Tk)}
    {isMap : Bool} {kind : MacroKind} {ts : List Tk} {v : Vis} {form : MacroForm} {args : List (MacroEntry (List Tk) (List Tk))} {g : GenTypes}
    (hr : ReadsCall S R shape isMap kind ts v form args g) (hk : args = [] ∨ ¬ AllStrs kind (args.map (fun e => e.key))) (s s' : Nat) :
    procMacro S R shape { env with seed := s } isMap kind ts = procMacro S R shape { env with seed := s' } isMap kind ts := by
  obtain ⟨call, b, h1, h2, h3, h4⟩ := hr
  replace h2 := asksCode h2
  have key : fzMacro { { env with seed := s } with unit := [.group .paren []] } isMap form kind args =
      fzMacro { { env with seed := s' } with unit := [.group .paren []] } isMap form kind args := by
    unfold fzMacro process
    by_cases hne : args = []
    · subst hne
      exact processEmpty_seed _ _ _ _ _ _
    · have he : args.isEmpty = false := by cases args with | nil => exact absurd rfl hne | cons _ _ => rfl
      rw [he]
      simp only [Bool.false_eq_true, if_false]
      cases ha : assessKeys kind (args.map (fun e => e.key)) with
      | error msg => rfl
      | ok k =>
        cases k with
        | allLiteralStrings =>
          exact absurd ((c42_classes (by simpa using hne)).2.1.1 ha) (hk.resolve_left hne)
        | _ => rfl
  unfold procMacro
  rw [expand_eq h1 h2 h3 h4, expand_eq h1 h2 h3 h4, key]

/-- **C75** (string collections of build scripts)  The code depends on the seed exactly if it hashes parts of the keys or whole keys. -/
theorem c75_emit_string_iff [Target] {em : Emitter} {unit : V} {sort : Sorter (CollectionEntry Str K V)} {fsStr fsSlice : Nat → Str → Nat} {s s' : Nat}
    (hs : s < 2 ^ 64) (hs' : s' < 2 ^ 64) (hne : s ≠ s') {entries : List (CollectionEntry Str K V)} {item item' : Item (Emitted K V)}
    (hi : em.emitString unit sort fsStr fsSlice s entries = .ok (.ok item))
    (hi' : em.emitString unit sort fsStr fsSlice s' entries = .ok (.ok item')) (vis : Vis) (g : GenTypes) (t : ExprToks K V) {D : Finset Str}
    (hD : ∀ v, v ∈ D ↔ ∃ e ∈ entries, e.key = v) :
    emittedTokens vis g t item = emittedTokens vis g t item' ↔ D.card < 4 ∨ LengthsTell D := by
  have hp := string_keys (em := em) (unit := unit) entries (R := D.toList) (Finset.nodup_toList _) (by intro v; rw [Finset.mem_toList, hD])
  have e : ((usingCmp (em.cleanValues unit entries) (fun x y => strCmp x.key y.key)).map (fun x => x.key)).toFinset = D := by
    ext v
    rw [List.mem_toFinset, hp.mem_iff, Finset.mem_toList]
  unfold Emitter.emitString at hi hi'
  generalize usingCmp (em.cleanValues unit entries) (fun x y => strCmp x.key y.key) = L at *
  have hnd : (L.map (fun x => x.key)).Nodup := hp.nodup_iff.2 (Finset.nodup_toList _)
  subst e
  constructor
  · intro h
    by_contra hcon
    rw [not_or] at hcon
    exact emitted_seed_ne hs hs' hne (genStringOrScan_seed hnd (by omega) hcon.2 (Emitter.finish_inv hi))
      (genStringOrScan_seed hnd (by omega) hcon.2 (Emitter.finish_inv hi')) h
  · intro h
    have h1 : (fun g : Generator => g.genStringOrScan sort fsStr fsSlice s L) = fun g => g.genStringOrScan sort fsStr fsSlice s' L := by
      funext g
      exact genStringOrScan_length hnd h s s'
    dsimp only at hi hi'
    rw [h1, hi'] at hi
    rw [Except.ok.inj (Except.ok.inj hi)]

/-- **C75** (hash collections of build scripts)  The code depends on the seed exactly if there are four keys. -/
theorem c75_emit_hash_iff [Target] {em : Emitter} {unit : V} {find : HbFind} (hfind : HbFindOk find) {sort : Sorter (CollectionEntry B K V)}
    {eqB : B → B → Bool} (he : LawfulEq' eqB) {fixedState : Nat → B → Nat} (hh : ∀ seed a b, eqB a b = true → fixedState seed a = fixedState seed b)
    {s s' : Nat} (hs : s < 2 ^ 64) (hs' : s' < 2 ^ 64) (hne : s ≠ s') {entries : List (CollectionEntry B K V)} {R : List B}
    (hR : Representatives eqB (entries.map (fun e => (e.key, ()))) R) {item item' : Item (Emitted K V)}
    (hi : em.emitHash unit find sort eqB fixedState s entries = .ok (.ok item))
    (hi' : em.emitHash unit find sort eqB fixedState s' entries = .ok (.ok item')) (vis : Vis) (g : GenTypes) (t : ExprToks K V) :
    emittedTokens vis g t item = emittedTokens vis g t item' ↔ R.length < 4 := by
  have hu : ∀ seed, usingHash find (em.cleanValues unit entries) (fun x => fixedState seed x.key) (fun x y => eqB x.key y.key) =
      .ok (keepLast (fun x y => eqB x.key y.key) (em.cleanValues unit entries)) := fun seed =>
    c07_using_hash hfind (he.comap (fun x : CollectionEntry B K V => x.key)) (fun a b h => hh seed _ _ h) _
  have hl := kept_length (em := em) (unit := unit) he hR (List.Perm.refl _)
  unfold Emitter.emitHash at hi hi'
  simp only [hu, bind, Except.bind] at hi hi'
  generalize keepLast (fun x y => eqB x.key y.key) (em.cleanValues unit entries) = L at *
  by_cases h4 : L.length < 4
  · simp only [h4, if_true] at hi hi'
    rw [hi] at hi'
    refine ⟨fun _ => by omega, fun _ => ?_⟩
    rw [Except.ok.inj (Except.ok.inj hi')]
  · simp only [h4, if_false] at hi hi'
    refine ⟨fun h => absurd h ?_, fun h => by omega⟩
    exact emitted_seed_ne hs hs' hne (genHash_seed (Emitter.finish_inv hi)) (genHash_seed (Emitter.finish_inv hi'))

attribute [local instance] w64 in
/-- **C75** (macros with string literals)  The code is the same in each build exactly if there are fewer than four keys or their lengths serve as hash
codes.  `bytesK` are the bytes of a string expression. -/
theorem c75_macro_strings_iff {E T : Type} {S : SynParsers E T} {R : SynPrinters E T} {shape : E → KeySyntax}
    {env : MacroEnv (List Tk) (List Tk)} {isMap : Bool} {kind : MacroKind} {c : Caller} {ts : List Tk} {v : Vis} {form : MacroForm}
    {args : List (MacroEntry (List Tk) (List Tk))} {g : GenTypes} (henv : EnvOk env)
    (hw : WrittenCall S R shape isMap kind c ts v form args g) (hne : args ≠ []) (hk : AllStrs kind (args.map (fun e => e.key)))
    {bytesK : List Tk → Str} (hval : ∀ e ∈ args, ∀ v, KeyIs e.key (.str v) → bytesK e.keyValue = v) {D : Finset Str}
    (hD : ∀ v, v ∈ D ↔ ∃ e ∈ args, KeyIs e.key (.str v)) {s s' : Nat} (hs : s < 2 ^ 64) (hs' : s' < 2 ^ 64) (hss : s ≠ s') :
    procMacro S R shape { env with seed := s } isMap kind ts = procMacro S R shape { env with seed := s' } isMap kind ts ↔
      D.card < 4 ∨ LengthsTell D := by
  obtain ⟨call, b, h1, h2, h3, h4⟩ := hw.reads
  replace h2 := asksCode h2
  have hstr : ∀ e ∈ args, ∃ v, KeyIs e.key (.str v) := fun e he => hk.2 e.key (List.mem_map_of_mem he)
  have em : ∀ n, fzMacro { { env with seed := n } with unit := unitCode } isMap form kind args =
      ({ form.emitter isMap with constKeys := true, constValues := true } : Emitter).emitString unitCode env.sortStr env.fsStr env.fsSlice n
        (args.map (fun e => e.toCollection unitCode (strOf e.key))) := by
    intro n
    unfold fzMacro
    rw [process_of_assess hne ((c42_classes (by simpa using hne)).2.1.2 hk)]
    change handleLiteralStringKeys _ _ _ = _
    unfold handleLiteralStringKeys
    rw [literalEntries_ok (f := fun e => strOf e.key) (fun e he => by
      obtain ⟨v, h⟩ := hstr e he
      exact parseStr_ok h)]
  have tot : ∀ n, n < 2 ^ 64 → ∃ item, fzMacro { { env with seed := n } with unit := unitCode } isMap form kind args = .ok (.ok item) := by
    intro n hn
    have hsz := hw.size
    have hu := limits_w64
    obtain ⟨item, m, hi, -⟩ := c37_macro_strings (env := { { env with seed := n } with unit := unitCode }) henv.strs hn hne hk
      (fun e he w h => ⟨hval e he w h, hw.strs e he w h⟩) (by omega) (isMap := isMap) (form := form)
      (q := { equivalent := fun (x : Str) k => x == bytesK k
              compare := fun _ _ => .eq
              index := fun _ => 0
              fixedState := env.fsStr
              bytes := id
              fixedStateSlice := env.fsSlice }) rfl (fun _ => rfl) rfl
    exact ⟨item, hi⟩
  obtain ⟨item, hi⟩ := tot s hs
  obtain ⟨item', hi'⟩ := tot s' hs'
  have out : ∀ n it, fzMacro { { env with seed := n } with unit := unitCode } isMap form kind args = .ok (.ok it) →
      procMacro S R shape { env with seed := n } isMap kind ts = .ok (emittedTokens v g codeToks it) := by
    intro n it h
    unfold procMacro
    rw [expand_eq h1 h2 h3 h4]
    have : fzMacro { { env with seed := n } with unit := [.group .paren []] } isMap form kind args = .ok (.ok it) := h
    rw [this]
  rw [out s item hi, out s' item' hi']
  rw [em] at hi hi'
  rw [← c75_emit_string_iff hs hs' hss hi hi' v g codeToks (D := D)]
  · exact ⟨fun h => Except.ok.inj h, fun h => by rw [h]⟩
  · intro w
    rw [hD]
    constructor
    · rintro ⟨x, hx, h⟩
      exact ⟨_, List.mem_map_of_mem hx, strOf_eq h⟩
    · rintro ⟨y, hy, h⟩
      obtain ⟨x, hx, rfl⟩ := List.mem_map.1 hy
      obtain ⟨u, hu⟩ := hstr x hx
      refine ⟨x, hx, ?_⟩
      have : strOf x.key = w := h
      rw [strOf_eq hu] at this
      rwa [← this]

/-! ### A call whose expansion differs between builds -/

/-- String literals. -/
def wordBytes (s : String) : Str := s.toList.map (fun c => UInt8.ofNat c.toNat)

/-- Literals are strings. -/
def wordShape : Tk → KeySyntax
  | .lit s => .lit (.str (wordBytes s))
  | _ => .other

/-- Keys are literals, the only value is `()`, types are inferred. -/
def wordCaller : Caller where
  userTy ts := ts = [.ident "_"]
  keyTy ts _ := ∃ s, ts = [.lit s]
  valTy ts _ := ts = unitCode

theorem wordCaller_sane : wordCaller.Sane where
  types := by rintro ts rfl; rfl
  pairs := by
    rintro k v k' v' X Y X' Y' ⟨s, rfl⟩ rfl ⟨t, rfl⟩ rfl e
    simp only [List.cons_append, List.nil_append, List.cons.injEq] at e
    rw [e.1]

/-- `{ a, b, c, d }` for four literals. -/
def wordCall (a b c d : String) : List Tk :=
  [.group .brace [.lit a, .punct ',' false, .lit b, .punct ',' false, .lit c, .punct ',' false, .lit d]]

/-- What the call asks for. -/
def wordArgs (a b c d : String) : List (MacroEntry (List Tk) (List Tk)) :=
  [a, b, c, d].map (fun s => ⟨.lit (.str (wordBytes s)), [.lit s], none⟩)

theorem wordArgs_strs (a b c d : String) : AllStrs .string ((wordArgs a b c d).map (fun e => e.key)) := by
  refine ⟨by decide, fun k hk => ?_⟩
  simp only [wordArgs, List.map_map, List.mem_map] at hk
  obtain ⟨s, -, rfl⟩ := hk
  exact ⟨_, KeyIs.lit _⟩

theorem wordCall_written [Target] {a b c d : String} (hl : ∀ s ∈ [a, b, c, d], s.toList.length ≤ usizeMax) :
    WrittenCall atomSyn atomPrint wordShape false .string wordCaller (wordCall a b c d) .inherited .short (wordArgs a b c d)
      ⟨[.ident "_"], none⟩ where
  reads := by
    have p : ∀ c j, IsPunct c (.punct c j) := fun c j => ⟨j, rfl⟩
    have r := atomParser_reads
    have hc := c42_classes (kind := .string) (keys := (wordArgs a b c d).map (fun e => e.key)) (by simp [wordArgs])
    refine ⟨.short [⟨.lit a, none⟩, ⟨.lit b, none⟩, ⟨.lit c, none⟩, ⟨.lit d, none⟩], false, ?_,
      ⟨codeMeaning wordShape atomPrint false, rfl, rfl, ?_, ?_⟩, ⟨fun h => (by cases h), fun h => ?_⟩, AsksTypes.shortSet _⟩
    · refine CallToks.short (v := []) VisToks.none ?_
      refine ListToks.cons (ts := [.lit a]) (EntryToks.set (r _ _).2) (p _ _) ?_
      refine ListToks.cons (ts := [.lit b]) (EntryToks.set (r _ _).2) (p _ _) ?_
      refine ListToks.cons (ts := [.lit c]) (EntryToks.set (r _ _).2) (p _ _) ?_
      exact ListToks.one (EntryToks.set (r _ _).2)
    · exact fun e _ => KeyCode.asWritten _
    · have : wordArgs a b c d = ([⟨.lit a, none⟩, ⟨.lit b, none⟩, ⟨.lit c, none⟩, ⟨.lit d, none⟩] :
        List (ParsedEntry Tk)).map (fun e => e.toMacro (codeMeaning wordShape atomPrint false)) := rfl
      rw [this]
      exact Asks.short _
    · have h1 := (hc.1 .undecided).2 h
      have h2 := hc.2.1.2 (wordArgs_strs a b c d)
      rw [h1] at h2
      cases h2
  sane := wordCaller_sane
  typed := by
    refine ⟨rfl, fun ts h => (by cases h), ?_, ?_, fun _ => rfl⟩
    · intro e he
      obtain ⟨s, -, rfl⟩ := List.mem_map.1 he
      exact ⟨_, rfl⟩
    · intro e he w hw
      obtain ⟨s, -, rfl⟩ := List.mem_map.1 he
      cases hw
  size := by
    have := target_cases
    simp [wordArgs]
    omega
  strs := by
    intro e he w h
    obtain ⟨s, hs, rfl⟩ := List.mem_map.1 he
    cases h
    simpa [wordBytes] using hl s hs

attribute [local instance] w64 in
/-- The expansion of the call with four different literals is the same in each build exactly if the lengths tell the literals apart. -/
theorem wordCall_same_iff {a b c d : String} (hl : ∀ s ∈ [a, b, c, d], s.toList.length ≤ usizeMax) {bytesK : List Tk → Str}
    (hb : ∀ s ∈ [a, b, c, d], bytesK [.lit s] = wordBytes s) {s s' : Nat} (hs : s < 2 ^ 64) (hs' : s' < 2 ^ 64) (hss : s ≠ s') :
    procMacro atomSyn atomPrint wordShape { demoEnv (List Tk) (List Tk) [] with seed := s } false .string (wordCall a b c d) =
        procMacro atomSyn atomPrint wordShape { demoEnv (List Tk) (List Tk) [] with seed := s' } false .string (wordCall a b c d) ↔
      ([a, b, c, d].map wordBytes).toFinset.card < 4 ∨ LengthsTell ([a, b, c, d].map wordBytes).toFinset := by
  refine c75_macro_strings_iff (env := demoEnv (List Tk) (List Tk) []) ⟨fun _ => slotSort_ok, slotSort_ok, by decide⟩ (wordCall_written hl)
    (by simp [wordArgs]) (wordArgs_strs a b c d) (bytesK := bytesK) ?_ ?_ hs hs' hss
  · intro e he v h
    obtain ⟨x, hx, rfl⟩ := List.mem_map.1 he
    cases h
    exact hb x hx
  · intro v
    rw [List.mem_toFinset, List.mem_map]
    constructor
    · rintro ⟨x, hx, rfl⟩
      exact ⟨_, List.mem_map_of_mem hx, KeyIs.lit _⟩
    · rintro ⟨e, he, h⟩
      obtain ⟨x, hx, rfl⟩ := List.mem_map.1 he
      cases h
      exact ⟨x, hx, rfl⟩

/-- The bytes of an expression that is a literal. -/
def wordCode : List Tk → Str
  | [.lit s] => wordBytes s
  | _ => []

attribute [local instance] w64 in
/-- **C75** (builds are not reproducible)  `fz_string_set!({ "ab", "ac", "ad", "ae" })` is replaced by different code whenever the crate is built with
another seed. -/
theorem c75_violated : ∃ ts : List Tk, ∀ s s', s < 2 ^ 64 → s' < 2 ^ 64 → s ≠ s' →
    procMacro atomSyn atomPrint wordShape { demoEnv (List Tk) (List Tk) [] with seed := s } false .string ts ≠
      procMacro atomSyn atomPrint wordShape { demoEnv (List Tk) (List Tk) [] with seed := s' } false .string ts := by
  refine ⟨wordCall "ab" "ac" "ad" "ae", fun s s' hs hs' hne h => ?_⟩
  rcases (wordCall_same_iff (bytesK := wordCode) (by decide) (by decide) hs hs' hne).1 h with h | h
  · exact absurd h (by decide)
  · have := h 2
    revert this
    decide

/-- With literals of different lengths the code is the same in each build. -/
example (s s' : Nat) (hs : s < 2 ^ 64) (hs' : s' < 2 ^ 64) (hss : s ≠ s') :
    procMacro atomSyn atomPrint wordShape { demoEnv (List Tk) (List Tk) [] with seed := s } false .string (wordCall "a" "ab" "abc" "abcd") =
      procMacro atomSyn atomPrint wordShape { demoEnv (List Tk) (List Tk) [] with seed := s' } false .string (wordCall "a" "ab" "abc" "abcd") := by
  refine (wordCall_same_iff (bytesK := wordCode) (by decide) (by decide) hs hs' hss).2 (.inr ?_)
  intro n
  refine Nat.le_trans (Finset.card_le_one.2 ?_) (Nat.le_max_left _ _)
  intro a ha b hb
  simp only [Finset.mem_filter, List.mem_toFinset, List.map_cons, List.map_nil, List.mem_cons, List.not_mem_nil, or_false] at ha hb
  obtain ⟨ha, rfl⟩ := ha
  obtain ⟨hb, h⟩ := hb
  rcases ha with rfl | rfl | rfl | rfl <;> rcases hb with rfl | rfl | rfl | rfl <;> first | rfl | exact absurd h (by decide)

attribute [local instance] w64 in
/-- So is that of `fz_scalar_map!({ 7: a, 3: b, 7: c })`. -/
example (s s' : Nat) :
    procMacro atomSyn atomPrint atomShape { demoEnv (List Tk) (List Tk) [] with seed := s } true .scalar atomCall =
      procMacro atomSyn atomPrint atomShape { demoEnv (List Tk) (List Tk) [] with seed := s' } true .scalar atomCall :=
  c75_macro_same_partial atomCall_written.reads (.inr (fun h => h.1 rfl)) s s'

attribute [local instance] w64 in
/-- A build script that emits a static map of four hashed keys, one of them given twice: two seeds, two programs. -/
example (s s' : Nat) (hs : s < 2 ^ 64) (hs' : s' < 2 ^ 64) (hss : s ≠ s') (vis : Vis) (g : GenTypes) (t : ExprToks Nat Char) :
    ∃ item item',
      staticMap.emitHash ' ' listFind slotSort natEq (fun seed q => (seed + 31 * q) % 2 ^ 64) s
        [⟨1, 1, 'a'⟩, ⟨2, 2, 'b'⟩, ⟨3, 3, 'c'⟩, ⟨4, 4, 'd'⟩, ⟨1, 1, 'e'⟩] = .ok (.ok item) ∧
      staticMap.emitHash ' ' listFind slotSort natEq (fun seed q => (seed + 31 * q) % 2 ^ 64) s'
        [⟨1, 1, 'a'⟩, ⟨2, 2, 'b'⟩, ⟨3, 3, 'c'⟩, ⟨4, 4, 'd'⟩, ⟨1, 1, 'e'⟩] = .ok (.ok item') ∧
      emittedTokens vis g t item ≠ emittedTokens vis g t item' := by
  have em : ∀ n, n < 2 ^ 64 → ∃ item, staticMap.emitHash ' ' listFind slotSort natEq (fun seed q => (seed + 31 * q) % 2 ^ 64) n
      [⟨1, 1, 'a'⟩, ⟨2, 2, 'b'⟩, ⟨3, 3, 'c'⟩, ⟨4, 4, 'd'⟩, ⟨1, 1, 'e'⟩] = .ok (.ok item) := by
    intro n hn
    obtain ⟨item, -, h, -⟩ := c37_emit_hash (t := natTraits) (em := staticMap) (by unfold ValidOptions; decide) (unit := ' ') listFind_ok slotSort_ok
      natEq_lawful natEq_lawful natEq_query (fixedState := fun seed q => (seed + 31 * q) % 2 ^ 64) (seed := n) hn
      (fun a b h => by rw [eq_of_beq h]) (hk := fun q => (n + 31 * q) % 2 ^ 64) (natEq_hash _)
      (entries := [⟨1, 1, 'a'⟩, ⟨2, 2, 'b'⟩, ⟨3, 3, 'c'⟩, ⟨4, 4, 'd'⟩, ⟨1, 1, 'e'⟩])
      (by decide) (by
        intro x hx
        simp only [List.mem_cons, List.not_mem_nil, or_false] at hx
        rcases hx with rfl | rfl | rfl | rfl | rfl <;> rfl) (by simp)
    exact ⟨item, h⟩
  obtain ⟨item, hi⟩ := em s hs
  obtain ⟨item', hi'⟩ := em s' hs'
  refine ⟨item, item', hi, hi', fun h => ?_⟩
  have := (c75_emit_hash_iff listFind_ok natEq_lawful (fun seed a b h => by rw [eq_of_beq h]) hs hs' hss (R := [1, 2, 3, 4])
    ⟨by unfold Distinct; decide, by decide, by decide⟩ hi hi' vis g t).1 h
  revert this
  decide

end Frozen.Props
