import Verif.Lemmas.ExportTable
import Verif.Lemmas.ExportPaths
import Verif.Model.Derive
import Verif.Props.DeriveSpec

/-!
# C77: what generated code refers to exists, is public, and is what it is meant to be
-/

namespace Frozen.Props

open Frozen.Spec Frozen.Model

variable {K V : Type}

/-- **C77** Whatever the features and wherever the code stands, a path has at most one meaning. -/
theorem c77_unambiguous (f : Features) {v p d d' : List String} {ns : Ns} (h : Means (crateLines f) v p ns d) (h' : Means (crateLines f) v p ns d') :
    d = d' := means_unique closed_all functional_all (means_mono (lines_all f) h) (means_mono (lines_all f) h')

/-- The paths that generated code uses, up to the last segment, the last segment, the kind of the item, and the item where it matters. -/
private def expected : List ((List String × String) × Ns × Option (List String)) :=
  generatorPaths.map (fun p => ((p.dropLast, p.getLast?.getD ""), .type, none)) ++
  [((["frozen_collections"], "Scalar"), .type, some ["frozen_collections_core", "traits", "scalar", "Scalar"]),
   ((["frozen_collections", "hashers"], "LengthHasher"), .type, some ["frozen_collections_core", "hashers", "length_hasher", "LengthHasher"]),
   ((["frozen_collections", "hashers"], "LengthHasher"), .value, some ["frozen_collections_core", "hashers", "length_hasher", "LengthHasher"])]

private theorem expected_ok : ∀ e ∈ expected, ∃ d ∈ meansIn (bindTable (crateLines (feats false false))) e.1.1 e.1.2 e.2.1,
    d.getLast? = some e.1.2 ∧ (∀ g ∈ generatorFns, g.1 = e.1.1 ++ [e.1.2] → (d, g.2) ∈ typeFns) ∧ e.2.2.getD d = d := by decide +kernel

private theorem expected_means (f : Features) (v : List String) {q : List String} {s : String} {ns : Ns} {x : Option (List String)}
    (h : ((q, s), ns, x) ∈ expected) :
    ∃ d, MeansOnly (crateLines f) v (q ++ [s]) ns d ∧ (∀ g ∈ generatorFns, g.1 = q ++ [s] → (d, g.2) ∈ typeFns) ∧ x.getD d = d := by
  obtain ⟨d, hd, hn, hg, hx⟩ := expected_ok _ h
  have hm : Means (crateLines f) v (q ++ [s]) ns d := means_mono (lines_none f) (meansIn_sound (bindTable_sound _) hd)
  exact ⟨d, ⟨hm, fun d' h' => c77_unambiguous f h' hm, by simpa using hn⟩, hg, hx⟩

private theorem split_last : ∀ p ∈ generatorPaths, p = p.dropLast ++ [p.getLast?.getD ""] := by decide +kernel

private theorem fns_are_paths : ∀ g ∈ generatorFns, g.1 ∈ generatorPaths := by decide +kernel

private theorem path_means (f : Features) (v : List String) {p : List String} (h : p ∈ generatorPaths) :
    ∃ d, MeansOnly (crateLines f) v p .type d ∧ ∀ g ∈ generatorFns, g.1 = p → (d, g.2) ∈ typeFns := by
  obtain ⟨d, h1, h2, -⟩ := expected_means f v (q := p.dropLast) (s := p.getLast?.getD "") (ns := .type) (x := none)
    (List.mem_append_left _ (List.mem_map.2 ⟨p, h, rfl⟩))
  rw [← split_last p h] at h1 h2
  exact ⟨d, h1, h2⟩

/-- What is allowed. -/
private def Fine (f : Features) (pieces : List (List Tk)) (q : List String) : Prop :=
  q = [] ∨ (∃ piece ∈ pieces, q ∈ pathsIn .fresh [] piece) ∨ ∀ v, Denotes (crateLines f) v q

private theorem fine_allows (f : Features) (pieces : List (List Tk)) : PAllows (Fine f pieces) where
  none := .inl rfl
  path q hq := .inr (.inr fun v => by
    obtain ⟨d, hd, -⟩ := path_means f v hq
    exact .type hd)
  fn g hg := .inr (.inr fun v => by
    obtain ⟨d, hd, hf⟩ := path_means f v (fns_are_paths g hg)
    exact .fn rfl hd (hf g hg rfl))

private theorem fine_mean {f : Features} {pieces : List (List Tk)} {ts : List Tk} (h : POk (Fine f pieces) .fresh [] ts) :
    PathsMean (crateLines f) pieces ts := fun p hp hne => (h p hp).elim (fun e => absurd e hne) id

/-- **C77** Every absolute path in emitted code that the caller did not write means exactly one public item, whatever the features of the crate and wherever
the code stands. -/
theorem c77_emitted (f : Features) (vis : Vis) (g : GenTypes) (t : ExprToks K V) (item : Item (Emitted K V)) :
    PathsMean (crateLines f) (callerPieces vis g t item.ctor.entries) (emittedTokens vis g t item) := by
  have hA := fine_allows f (callerPieces vis g t item.ctor.entries)
  have hw : ∀ ts ∈ callerPieces vis g t item.ctor.entries, POk (Fine f (callerPieces vis g t item.ctor.entries)) .fresh [] ts :=
    fun ts h q hq => .inr (.inl ⟨ts, h, hq⟩)
  have hg : POkTypes (Fine f (callerPieces vis g t item.ctor.entries)) g := by
    refine ⟨hw _ (by simp [callerPieces]), ?_⟩
    unfold GenTypes.value
    cases h : g.valueType with
    | none => exact pok_group hA.none (pok_nil hA.none) (pok_nil hA.none)
    | some ts => exact hw _ (by simp [callerPieces, h])
  have he : ∀ x ∈ item.ctor.entries, POk (Fine f (callerPieces vis g t item.ctor.entries)) .fresh [] (t.key x.1) ∧
      POk (Fine f (callerPieces vis g t item.ctor.entries)) .fresh [] (t.value x.2) := fun x hx =>
    ⟨hw _ (by simp only [callerPieces, List.mem_cons, List.mem_append, List.mem_flatMap]; exact .inr (.inr (.inr ⟨x, hx, by simp⟩))),
      hw _ (by simp only [callerPieces, List.mem_cons, List.mem_append, List.mem_flatMap]; exact .inr (.inr (.inr ⟨x, hx, by simp⟩)))⟩
  exact fine_mean (pok_decl hA (hw _ (by simp [callerPieces])) (pok_sig hA hg item.ctor) (pok_ctor hA hg he))

/-- **C77**, the error that macros report: `::core::compile_error` is the macro of the core library. -/
theorem c77_error (f : Features) {ts : List Tk} {msg : String} (h : ReportsError ts msg) :
    PathsMean (crateLines f) [] ts ∧ ["core", "compile_error"] ∈ pathsIn .fresh [] ts ∧
      ∀ v, MeansOnly (crateLines f) v ["core", "compile_error"] .macro ["core", "compile_error"] := by
  have hm : ∀ v, MeansOnly (crateLines f) v ["core", "compile_error"] .macro ["core", "compile_error"] := fun v => by
    have hb : Means (crateLines f) v ["core", "compile_error"] .macro ["core", "compile_error"] :=
      ⟨["core"], "compile_error", ["core"], [], rfl, .crate _ _,
        .item (List.mem_append_right _ (by simp [otherLines])), List.nil_prefix⟩
    exact ⟨hb, fun d' h' => c77_unambiguous f h' hb, rfl⟩
  have hp : pathsIn .fresh [] ts = [[], [], ["core", "compile_error"], [], [], [], []] := by
    rw [h]
    simp [pathsIn, PathPos.next]
  refine ⟨fun p h1 hne => ?_, by simp [hp], hm⟩
  rw [hp] at h1
  simp only [List.mem_cons, List.not_mem_nil, or_false, hne, false_or] at h1
  rw [h1]
  exact .inr fun v => .macro (hm v)

variable {E T : Type} {S : SynParsers E T} {R : SynPrinters E T} {shape : E → KeySyntax} {env : MacroEnv (List Tk) (List Tk)} {isMap : Bool}
  {kind : MacroKind} {ts out : List Tk}

attribute [local instance] w64 in
/-- **C77**, macros: every absolute path in the expansion of a macro call that is not in a type, expression or visibility of the call means exactly one
public item. -/
theorem c77_macro (f : Features) (h : procMacro S R shape env isMap kind ts = .ok out) :
    (∃ msg, ReportsError out msg ∧ PathsMean (crateLines f) [] out) ∨
    ∃ call item, parse2 S isMap ts = .ok call ∧
      fzMacro { env with unit := [.group .paren []] } isMap call.form kind
        (call.entries.map (fun e => e.toMacro (codeMeaning shape R (needsSuffix kind (call.entries.map (fun e => shape e.key)))))) = .ok (.ok item) ∧
      PathsMean (crateLines f) (callerPieces call.vis (call.genTypes R isMap) codeToks item.ctor.entries) out := by
  unfold procMacro expand at h
  cases hp : parse2 S isMap ts with
  | error msg =>
    rw [hp] at h
    cases h
    exact .inl ⟨msg, rfl, (c77_error f rfl).1⟩
  | ok call =>
    rw [hp] at h
    simp only at h
    generalize hi : fzMacro _ isMap _ kind _ = r at h
    cases r with
    | error e => cases h
    | ok r =>
      cases r with
      | error msg =>
        cases h
        exact .inl ⟨msg, rfl, (c77_error f rfl).1⟩
      | ok item =>
        cases h
        exact .inr ⟨call, item, rfl, hi, c77_emitted f _ _ _ _⟩

/-- **C77**, the trait that `derive(Scalar)` implements: the trait `Scalar` of the core crate. -/
theorem c77_derive [Target] {pars args w ts : List Tk} {name : String} {arms : List (String × Nat)} (h : IndexImpl pars name args w ts arms)
    (f : Features) (v : List String) :
    (∃ pre post, ts = pre ++ rootPath ["frozen_collections", "Scalar"] ++ post) ∧
      MeansOnly (crateLines f) v ["frozen_collections", "Scalar"] .type ["frozen_collections_core", "traits", "scalar", "Scalar"] := by
  refine ⟨?_, ?_⟩
  · obtain ⟨ha⟩ := h
    exact ⟨.punct '#' false :: .group .bracket [.ident "automatically_derived"] :: .ident "impl" :: pars, _, by
      simp only [rootPath, List.flatMap_cons, List.flatMap_nil, List.append_assoc, List.cons_append, List.nil_append]; rfl⟩
  · obtain ⟨d, hd, -, hx⟩ := expected_means f v (q := ["frozen_collections"]) (s := "Scalar") (ns := .type)
      (List.mem_append_right _ (List.mem_cons_self ..))
    rw [Option.getD_some] at hx
    rw [hx]
    exact hd

/-- **C77**, the hasher that is written without arguments: `LengthHasher` is a value as well as a type. -/
theorem c77_unit_hasher (f : Features) (v : List String) (ns : Ns) (h : ns = .type ∨ ns = .value) :
    MeansOnly (crateLines f) v ["frozen_collections", "hashers", "LengthHasher"] ns
      ["frozen_collections_core", "hashers", "length_hasher", "LengthHasher"] := by
  obtain ⟨d, hd, -, hx⟩ := expected_means f v (q := ["frozen_collections", "hashers"]) (s := "LengthHasher") (ns := ns)
    (x := some ["frozen_collections_core", "hashers", "length_hasher", "LengthHasher"])
    (List.mem_append_right _ (by rcases h with rfl | rfl <;> simp))
  rw [Option.getD_some] at hx
  rw [hx]
  exact hd

/-! ## What the facade passes on -/

/-- The module is in neither of the crates. -/
def Outside (v : List String) : Prop := v.head? ≠ some "frozen_collections" ∧ v.head? ≠ some "frozen_collections_core"

private theorem binds_all {f : Features} {m sc d : List String} {ns : Ns} {n : String} (h : Binds (crateLines f) m sc ns n d) :
    (⟨m, sc, ns, n, d⟩ : Binding) ∈ allNames := binds_complete closed_all (binds_mono (lines_all f) h)

private theorem scope_nil {f : Features} {c : String} {m sc d v : List String} {ns : Ns} {n : String} (h : Binds (crateLines f) (c :: m) sc ns n d)
    (hs : sc <+: v) (hv : v.head? ≠ some c) : sc = [] := by
  rcases scopes_all _ (binds_all h) with h | ⟨rest, h, -⟩
  · exact h
  · obtain ⟨w, rfl⟩ := hs
    simp only [List.take_succ_cons, List.take_zero, List.cons_append, List.nil_append] at h
    rw [h] at hv
    exact absurd rfl hv

private theorem core_leads (f : Features) (v : List String) {m : String} (hm : m ∈ passedOn) :
    Leads (crateLines f) v ["frozen_collections_core", m] ["frozen_collections_core", m] :=
  .step (p := ["frozen_collections_core"]) (.crate _ _) (.mod (m := ["frozen_collections_core"]) (lines_none f (passedOn_mem m hm).2.2)) List.nil_prefix

private theorem facade_leads (f : Features) (v : List String) {m : String} (hm : m ∈ passedOn) :
    Leads (crateLines f) v ["frozen_collections", m] ["frozen_collections", m] :=
  .step (p := ["frozen_collections"]) (.crate _ _) (.mod (m := ["frozen_collections"]) (lines_none f (passedOn_mem m hm).1)) List.nil_prefix

private theorem means_split {f : Features} {v p q d : List String} {n : String} {ns : Ns} (h : Means (crateLines f) v (p ++ [n]) ns d)
    (hl : Leads (crateLines f) v p q) : ∃ sc, Binds (crateLines f) q sc ns n d ∧ sc <+: v := by
  obtain ⟨p', n', q', sc, he, h1, h2, h3⟩ := h
  obtain ⟨e1, e2⟩ := List.append_inj' he rfl
  have e2 := List.singleton_inj.1 e2
  subst e1 e2
  have := leads_unique closed_all functional_all (leads_mono (lines_all f) h1) (leads_mono (lines_all f) hl)
  subst this
  exact ⟨sc, h2, h3⟩

/-- **C77**, the facade: the modules `sets`, `maps`, `inline_maps`, `inline_sets`, `hashers` and `hash_tables` of the facade crate have exactly the public
names of the modules of the core crate, with the same meaning. -/
theorem c77_passed_on (f : Features) {v : List String} (hv : Outside v) {m : String}
    (hm : m ∈ ["sets", "maps", "inline_maps", "inline_sets", "hashers", "hash_tables"]) (ns : Ns) (n : String) (d : List String) :
    Means (crateLines f) v ["frozen_collections", m, n] ns d ↔ Means (crateLines f) v ["frozen_collections_core", m, n] ns d := by
  constructor
  · intro h
    obtain ⟨sc, h1, -⟩ := means_split (p := ["frozen_collections", m]) h (facade_leads f v hm)
    have hline : ∀ {sc : List String} {st : Stmt}, (⟨["frozen_collections", m], sc, st⟩ : Line) ∈ crateLines f → st = .glob ["frozen_collections_core", m] :=
      fun h => (Line.mk.inj (passedOn_lines _ (lines_all f h) m hm rfl)).2.2
    generalize hq : ["frozen_collections", m] = q at h1
    cases h1 with
    | item h' => subst hq; cases hline h'
    | mod h' => subst hq; cases hline h'
    | use h' => subst hq; cases hline h'
    | glob h' hl hb hs =>
      subst hq
      cases hline h'
      have := leads_unique closed_all functional_all (leads_mono (lines_all f) hl) (leads_mono (lines_all f) (core_leads f _ hm))
      subst this
      have := scope_nil hb hs (by simp)
      subst this
      exact ⟨["frozen_collections_core", m], n, _, _, rfl, core_leads f v hm, hb, List.nil_prefix⟩
  · intro h
    obtain ⟨sc, h1, h2⟩ := means_split (p := ["frozen_collections_core", m]) h (core_leads f v hm)
    have := scope_nil h1 h2 hv.2
    subst this
    refine ⟨["frozen_collections", m], n, _, _, rfl, facade_leads f v hm,
      .glob (sc := []) (lines_none f (passedOn_mem m hm).2.1) (core_leads f _ hm) h1 List.nil_prefix, ?_⟩
    simp [narrow]

/-- **C77**, what is internal stays internal: outside of the core crate no path leads to the hash table of the collections that are built at run time, nor
to the marker type of keys without a value. -/
theorem c77_internal (f : Features) {v p d : List String} {ns : Ns} (h : Means (crateLines f) v p ns d)
    (hd : d ∈ [["frozen_collections_core", "hash_tables", "hash_table", "HashTable"], ["frozen_collections_core", "emit", "collection_entry", "NonLiteralKey"]]) :
    v.head? = some "frozen_collections_core" := by
  have hpre : ∀ {sc rest : List String}, sc = "frozen_collections_core" :: rest → sc <+: v → v.head? = some "frozen_collections_core" := by
    rintro _ rest rfl ⟨w, rfl⟩
    rfl
  obtain ⟨q, s, m, sc, rfl, h1, h2, h3⟩ := h
  rcases internal_all _ (binds_all h2) hd with h | ⟨hm, -⟩
  · exact hpre h h3
  · cases h1 with
    | crate => cases hm
    | step _ hb hs =>
      simp only at hm
      subst hm
      exact hpre (hash_table_file _ (binds_all hb) rfl) hs

/-- **C77**, features: the macros and the derive macro are there if and only if the feature `macros` is enabled. -/
theorem c77_macros (f : Features) (v : List String) {n : String}
    (hn : n ∈ ["fz_hash_map", "fz_hash_set", "fz_ordered_map", "fz_ordered_set", "fz_scalar_map", "fz_scalar_set", "fz_string_map", "fz_string_set", "Scalar"])
    (d : List String) :
    Means (crateLines f) v ["frozen_collections", n] .macro d ↔ f.macros = true ∧ d = ["frozen_collections_macros", n] := by
  have hx : f.macros = true → Means (crateLines f) v ["frozen_collections", n] .macro ["frozen_collections_macros", n] := by
    intro hf
    refine ⟨["frozen_collections"], n, _, _, rfl, .crate _ _, .use (sc := []) (path := ["frozen_collections_macros"]) (sc' := []) ?_ (.crate _ _)
      (.item (m := ["frozen_collections_macros"]) ?_) List.nil_prefix, ?_⟩
    · refine List.mem_append_left _ (List.mem_append_left _ (List.mem_append_left _ ?_))
      simp only [facadeLines, hf, if_true, List.mem_append]
      iterate 9 refine .inl ?_
      refine (.inr (List.mem_map.2 ⟨n, hn, rfl⟩))
    · refine List.mem_append_right _ (List.mem_append_left _ (List.mem_map.2 ⟨n, ?_, rfl⟩))
      simp only [List.mem_cons, List.not_mem_nil, or_false] at hn ⊢
      rcases hn with h | h | h | h | h | h | h | h | h <;> simp [h]
    · simp [narrow]
  refine ⟨fun h => ?_, fun h => by rw [h.2]; exact hx h.1⟩
  have hf : f.macros = true := by
    by_contra hf
    have hW : crateLines f ⊆ crateLines (feats false true) := by
      rw [crateLines_feats f]
      exact (lines_sublist (fun h => absurd h hf) (by simp)).subset
    obtain ⟨sc, h1, -⟩ := means_split (p := ["frozen_collections"]) h (.crate _ _)
    have := binds_complete closed_no_macros (binds_mono hW h1)
    have := (List.mem_filter.1 this).2
    simp [Binding.needsMacros] at this
  exact ⟨hf, c77_unambiguous f h (hx hf)⟩

/-- **C77**, features: the emitter for build scripts is there if and only if the feature `emit` is enabled. -/
theorem c77_emitter (f : Features) (v : List String) (d : List String) :
    Means (crateLines f) v ["frozen_collections", "emit", "CollectionEmitter"] .type d ↔
      f.emit = true ∧ d = ["frozen_collections_core", "emit", "collection_emitter", "CollectionEmitter"] := by
  have hx : f.emit = true → Means (crateLines f) v ["frozen_collections", "emit", "CollectionEmitter"] .type
      ["frozen_collections_core", "emit", "collection_emitter", "CollectionEmitter"] := by
    intro hf
    have hcore : ∀ {l : Line}, l ∈ coreFeatureLines f → l ∈ crateLines f := fun h => List.mem_append_left _ (List.mem_append_right _ h)
    have hfac : ∀ {l : Line}, l ∈ globMod ["frozen_collections"] "emit" ["frozen_collections_core", "emit"] → l ∈ crateLines f := by
      intro l hl
      refine List.mem_append_left _ (List.mem_append_left _ (List.mem_append_left _ ?_))
      simp only [facadeLines, hf, if_true, List.mem_append]
      iterate 8 refine .inl ?_
      exact .inr hl
    have hl : ∀ v, Leads (crateLines f) v ["frozen_collections_core", "emit"] ["frozen_collections_core", "emit"] := fun v =>
      .step (p := ["frozen_collections_core"]) (.crate _ _) (.mod (m := ["frozen_collections_core"]) (sc := []) (hcore (by simp [coreFeatureLines, hf])))
        List.nil_prefix
    have h1 : Binds (crateLines f) ["frozen_collections_core", "emit"] (narrow [] []) .type "CollectionEmitter"
        ["frozen_collections_core", "emit", "collection_emitter", "CollectionEmitter"] :=
      .glob (path := ["frozen_collections_core", "emit", "collection_emitter"]) (hcore (by simp [coreFeatureLines, hf]))
        (.step (p := ["frozen_collections_core", "emit"]) (hl _) (.mod (m := ["frozen_collections_core", "emit"]) (sc := ["frozen_collections_core", "emit"])
          (hcore (by simp [coreFeatureLines, hf]))) (List.prefix_refl _))
        (.item (m := ["frozen_collections_core", "emit", "collection_emitter"]) (hcore (by simp [coreFeatureLines, hf]))) List.nil_prefix
    have h2 := Binds.glob (m := ["frozen_collections", "emit"]) (sc := []) (hfac (by simp [globMod])) (hl _) h1 (by simp [narrow])
    refine ⟨["frozen_collections", "emit"], _, _, _, rfl, ?_, h2, by simp [narrow]⟩
    exact .step (p := ["frozen_collections"]) (.crate _ _) (.mod (m := ["frozen_collections"]) (sc := []) (hfac (by simp [globMod]))) List.nil_prefix
  refine ⟨fun h => ?_, fun h => by rw [h.2]; exact hx h.1⟩
  have hf : f.emit = true := by
    by_contra hf
    have hW : crateLines f ⊆ crateLines (feats true false) := by
      rw [crateLines_feats f]
      exact (lines_sublist (by simp) (fun h => absurd h hf)).subset
    obtain ⟨q, s, m, sc, he, h1, -⟩ := h
    obtain ⟨e1, e2⟩ := List.append_inj' (s₁ := ["frozen_collections", "emit"]) (t₁ := ["CollectionEmitter"]) he rfl
    subst e1
    generalize hp : ["frozen_collections", "emit"] = p at h1
    cases h1 with
    | crate => cases hp
    | step h0 hb hs =>
      obtain ⟨e1, e2⟩ := List.append_inj' (s₁ := ["frozen_collections"]) (t₁ := ["emit"]) hp rfl
      have e2 := List.singleton_inj.1 e2
      subst e1 e2
      have := leads_unique closed_all functional_all (leads_mono (lines_all f) h0) (.crate _ _)
      subst this
      have := binds_complete closed_no_emit (binds_mono hW hb)
      have := (List.mem_filter.1 this).2
      simp [Binding.needsEmit] at this
  exact ⟨hf, c77_unambiguous f h (hx hf)⟩

/-! ## Examples -/

/-- Code in a user's module without any features. -/
example (v : List String) : ∃ d, MeansOnly (crateLines ⟨false, false, false, false⟩) v ["frozen_collections", "inline_maps", "InlineScanMap"] .type d := by
  obtain ⟨d, h, -⟩ := path_means ⟨false, false, false, false⟩ v (p := ["frozen_collections", "inline_maps", "InlineScanMap"]) (by simp [generatorPaths])
  exact ⟨d, h⟩

/-- The paths of a map with two string keys: those of the type and of the constructor. -/
example : (pathsIn .fresh [] (emittedTokens .pub ⟨[.ident "u8"], some [.punct ':' true, .punct ':' false, .ident "a", .punct ':' true, .punct ':' false, .ident "B"]⟩
      (⟨fun _ => [.lit "1"], fun _ => [.lit "2"]⟩ : ExprToks Nat Nat) (.staticConst "M" none (.scanRaw "1".toList [(1, 2)])))).filter (fun p => !p.isEmpty) =
    [["frozen_collections", "inline_maps", "InlineScanMap"], ["a", "B"], ["frozen_collections", "inline_maps", "InlineScanMap"], ["a", "B"]] := by
  cbv

/-- A map with a hash table. -/
example : (pathsIn .fresh [] (HasherTok.bridge "5".toList).ctorTokens).filter (fun p => !p.isEmpty) =
    [["frozen_collections", "hashers", "BridgeHasher", "new"], ["frozen_collections", "foldhash", "FixedState", "with_seed"]] := by cbv

example : Outside ["my_crate", "table"] := by unfold Outside; decide

attribute [local instance] w64 in
/-- A derived index exists for the names of `c77_derive`. -/
example (f : Features) (v : List String) :
    MeansOnly (crateLines f) v ["frozen_collections", "Scalar"] .type ["frozen_collections_core", "traits", "scalar", "Scalar"] :=
  (c77_derive (pars := []) (name := "Color") (args := []) (w := []) (.mk .nil) f v).2

end Frozen.Props
