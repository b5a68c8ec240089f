import Verif.Lemmas.Built
import Verif.Props.MacroSpec

/-! # Lemmas about the emitter options and the macros -/

namespace Frozen.Model

open Frozen Frozen.Spec Frozen.Props

variable {B Q K V : Type}

/-! ## Emitter options -/

theorem preflight_ok {em : Emitter} (h : ValidOptions em) (n : Nat) : em.preflight n = .ok (Generator.new n) := by
  obtain ⟨h1, h2⟩ := h
  unfold Emitter.preflight
  cases hs : em.isStatic <;> cases hm : em.isMutable <;> cases hy : em.symbolName <;> cases ha : em.aliasName <;>
    simp_all

theorem preflight_error {em : Emitter} (h : ¬ ValidOptions em) (n : Nat) : ∃ msg, em.preflight n = .error msg := by
  unfold Emitter.preflight
  unfold ValidOptions at h
  cases hs : em.isStatic <;> cases hm : em.isMutable <;> cases hy : em.symbolName <;> cases ha : em.aliasName <;>
    simp_all

/-- The item that the options ask for. -/
def itemOf {α : Type} (em : Emitter) (out : α) : Item α :=
  match em.isStatic, em.symbolName with
  | true, some s => if em.constKeys && em.constValues then .staticConst s em.aliasName out else .staticLazy s em.aliasName out
  | _, some s => .letStmt em.isMutable s em.aliasName out
  | _, none => .expr out

theorem postflight_ok {α : Type} {em : Emitter} (h : ValidOptions em) (out : α) :
    em.postflight out = .ok (itemOf em out) := by
  obtain ⟨h1, h2⟩ := h
  unfold Emitter.postflight itemOf
  cases hs : em.isStatic <;> cases hy : em.symbolName <;> cases hk : em.constKeys <;> cases hv : em.constValues <;> simp_all

theorem itemOf_ctor {α : Type} (em : Emitter) (out : α) : (itemOf em out).ctor = out := by
  unfold itemOf
  repeat' split
  all_goals rfl

theorem Emitter.finish_ok {α : Type} {em : Emitter} (h : ValidOptions em) {n : Nat} {gen : Generator → Res α} {out : α}
    (hg : gen (Generator.new n) = .ok out) : em.finish n gen = .ok (.ok (itemOf em out)) := by
  unfold Emitter.finish
  simp only [preflight_ok h, hg, postflight_ok h, bind, Except.bind]

theorem Emitter.finish_error {α : Type} {em : Emitter} (h : ¬ ValidOptions em) (n : Nat) (gen : Generator → Res α) :
    ∃ msg, em.finish n gen = .ok (.error msg) := by
  obtain ⟨msg, hm⟩ := preflight_error h n
  unfold Emitter.finish
  rw [hm]
  exact ⟨msg, rfl⟩

theorem EmitsGood.outcome [Target] {t : QueryTraits Q K} {eqK : K → K → Bool} {mt : Q → K → Bool} {em : Emitter}
    {r : Res (Except String (Item (Emitted K V)))} {L : List (K × V)} (hg : EmitsGood t eqK mt em r L) :
    (¬ ValidOptions em → ∃ msg, r = .ok (.error msg)) ∧
    (ValidOptions em → ∃ out, r = .ok (.ok (itemOf em out)) ∧ out.Good t eqK mt L) := by
  obtain ⟨n, gen, out, h1, h2, h3⟩ := hg
  subst h1
  exact ⟨fun h => Emitter.finish_error h n gen, fun h => ⟨out, Emitter.finish_ok h h2, h3⟩⟩

theorem form_valid (isMap : Bool) (form : MacroForm) (c1 c2 : Bool) :
    ValidOptions { form.emitter isMap with constKeys := c1, constValues := c2 } := by
  cases form <;> simp [ValidOptions, MacroForm.emitter]

theorem itemOf_shape {α : Type} {em : Emitter} (h : ValidOptions em) (out : α) : ItemShape em (itemOf em out) := by
  obtain ⟨h1, h2⟩ := h
  unfold itemOf
  cases hs : em.isStatic <;> cases hm : em.isMutable <;> cases hy : em.symbolName <;> cases ha : em.aliasName <;>
    cases hk : em.constKeys <;> cases hv : em.constValues <;> simp_all [ItemShape]

theorem Facts.behaves {M : Type} {eqK : K → K → Bool} {mt : Q → K → Bool} {es : List (K × V)} {I : MapImpl M Q K V} {m : M}
    {Inv : M → Prop} (F : Facts eqK mt es I m Inv) : Behaves I m eqK mt es :=
  ⟨F.lookups, F.contents, fun _ hR => F.len hR⟩

theorem _root_.Frozen.Props.Built.behaves [Target] {M : Type} {eqK : K → K → Bool} {mt : Q → K → Bool} {es : List (K × V)}
    {I : MapImpl M Q K V} {m : M} (hb : Built eqK mt es I m) : Behaves I m eqK mt es := by
  obtain ⟨_, F⟩ := hb.facts
  exact F.behaves

theorem EmitsGood.behaves [Target] {t : QueryTraits Q K} {eqK : K → K → Bool} {mt : Q → K → Bool} {em : Emitter}
    {r : Res (Except String (Item (Emitted K V)))} {es : List (K × V)} (hg : EmitsGood t eqK mt em r (survivors eqK es))
    (hv : ValidOptions em) (he : LawfulEq' eqK) (hq : LawfulQuery eqK mt) :
    ∃ item m, r = .ok (.ok item) ∧ ItemShape em item ∧
      (∀ (F : Type) eq' cmp' (fz : FzKind → List (K × V) → Option (Res F)),
        item.ctor.compile eq' cmp' fz = some (.ok (.inl m))) ∧ Behaves (InlineMap.impl t) m eqK mt es := by
  obtain ⟨out, h1, m, h2, h3⟩ := hg.outcome.2 hv
  have hc : ∀ (F : Type) eq' cmp' (fz : FzKind → List (K × V) → Option (Res F)),
      (itemOf em out).ctor.compile eq' cmp' fz = some (.ok (.inl m)) := by rw [itemOf_ctor]; exact h2
  exact ⟨itemOf em out, m, h1, itemOf_shape hv out, hc,
    (hg.facts h1 (hc Unit (fun _ _ => true) (fun _ _ => .eq) (fun _ _ => none)) he hq).behaves⟩

theorem Behaves.inl {M F : Type} {eqK : K → K → Bool} {mt : Q → K → Bool} {es : List (K × V)} {I : MapImpl M Q K V}
    {J : MapImpl F Q K V} {m : M} (h : Behaves I m eqK mt es) : Behaves (sumImpl I J) (.inl m) eqK mt es :=
  ⟨⟨h.lookups.get, h.lookups.getKeyValue, h.lookups.containsKey, h.lookups.getMut⟩, ⟨h.contents.mem, h.contents.distinct⟩, h.len⟩

theorem Behaves.inr {M F : Type} {eqK : K → K → Bool} {mt : Q → K → Bool} {es : List (K × V)} {I : MapImpl M Q K V}
    {J : MapImpl F Q K V} {m : F} (h : Behaves J m eqK mt es) : Behaves (sumImpl I J) (.inr m) eqK mt es :=
  ⟨⟨h.lookups.get, h.lookups.getKeyValue, h.lookups.containsKey, h.lookups.getMut⟩, ⟨h.contents.mem, h.contents.distinct⟩, h.len⟩

/-! ## Key classification -/

theorem keyLit_iff {k : KeySyntax} {l : Lit} : keyLit k = some l ↔ KeyIs k l := by
  constructor
  · intro h
    cases k with
    | lit l' => cases h; exact .lit l
    | group i =>
      cases i with
      | lit l' => cases h; exact .group l
      | group _ => cases h
      | other => cases h
    | other => cases h
  · intro h
    cases h <;> rfl

theorem discover_of {k : KeySyntax} {l : Lit} (h : KeyIs k l) : discoverKey k = evalLiteralExpr l := by
  cases h <;> rfl

theorem discover_none {k : KeySyntax} (h : ∀ l, ¬ KeyIs k l) : discoverKey k = .ok .expression := by
  cases k with
  | lit l => exact absurd (.lit l) (h l)
  | group i =>
    cases i with
    | lit l => exact absurd (.group l) (h l)
    | group _ => rfl
    | other => rfl
  | other => rfl

theorem _root_.Frozen.Props.KeyIs.unique {k : KeySyntax} {l l' : Lit} (h : KeyIs k l) (h' : KeyIs k l') : l = l' := by
  rw [← keyLit_iff] at h h'
  rw [h] at h'
  exact Option.some.inj h'

theorem suffixName_inj {a b : ScalarType} (h : suffixName a = suffixName b) : a = b := by
  cases a <;> cases b <;> simp [suffixName] at h ⊢

theorem suffixName_undecided {t : ScalarType} : suffixName t = "" ↔ t = .undecided := by
  cases t <;> simp [suffixName]

theorem evalLit_int {n : Nat} {s : String} {t : ScalarType} :
    evalLiteralExpr (.int n s) = .ok (.literalScalar t) ↔ s = suffixName t := by
  simp only [evalLiteralExpr]
  constructor
  · intro h
    repeat' split at h
    all_goals first | (cases h; simp_all [suffixName]; done) | (cases h)
  · rintro rfl
    cases t <;> simp [suffixName]

theorem evalLit_int_cases (n : Nat) (s : String) :
    (∃ t, s = suffixName t) ∨
    ((∃ e, evalLiteralExpr (.int n s) = .error e) ∧
      s ∉ ["", "i8", "i16", "i32", "i64", "isize", "u8", "u16", "u32", "u64", "usize"]) := by
  by_cases h : s ∈ ["", "i8", "i16", "i32", "i64", "isize", "u8", "u16", "u32", "u64", "usize"]
  · left
    simp only [List.mem_cons, List.not_mem_nil, or_false] at h
    rcases h with rfl | rfl | rfl | rfl | rfl | rfl | rfl | rfl | rfl | rfl | rfl
    exacts [⟨.undecided, rfl⟩, ⟨.i8, rfl⟩, ⟨.i16, rfl⟩, ⟨.i32, rfl⟩, ⟨.i64, rfl⟩, ⟨.isize, rfl⟩, ⟨.u8, rfl⟩, ⟨.u16, rfl⟩,
      ⟨.u32, rfl⟩, ⟨.u64, rfl⟩, ⟨.usize, rfl⟩]
  · right
    refine ⟨?_, h⟩
    simp only [List.mem_cons, List.not_mem_nil, or_false, not_or] at h
    simp only [evalLiteralExpr]
    simp [h]

theorem discover_error_iff {k : KeySyntax} : (∃ e, discoverKey k = .error e) ↔ BadLiteral k := by
  by_cases h : ∃ l, KeyIs k l
  · obtain ⟨l, hl⟩ := h
    rw [discover_of hl]
    unfold BadLiteral
    cases l with
    | str v =>
      simp only [evalLiteralExpr]
      constructor
      · rintro ⟨e, he⟩; cases he
      · rintro (h | ⟨n, s, h, _⟩)
        · cases hl.unique h
        · cases hl.unique h
    | other =>
      exact ⟨fun _ => Or.inl hl, fun _ => ⟨_, rfl⟩⟩
    | int n s =>
      constructor
      · rintro ⟨e, he⟩
        refine Or.inr ⟨n, s, hl, ?_⟩
        rcases evalLit_int_cases n s with ⟨t, ht⟩ | ⟨_, h2⟩
        · rw [evalLit_int.2 ht] at he; cases he
        · exact h2
      · rintro (h | ⟨n', s', h, h2⟩)
        · cases hl.unique h
        · cases hl.unique h
          rcases evalLit_int_cases n s with ⟨t, rfl⟩ | ⟨h3, _⟩
          · exfalso; apply h2; cases t <;> simp [suffixName]
          · exact h3
  · have h' : ∀ l, ¬ KeyIs k l := fun l hl => h ⟨l, hl⟩
    rw [discover_none h']
    constructor
    · rintro ⟨e, he⟩; cases he
    · rintro (hb | ⟨n, s, hb, _⟩)
      · exact absurd hb (h' _)
      · exact absurd hb (h' _)

theorem discover_string_iff {k : KeySyntax} : discoverKey k = .ok .literalString ↔ IsStrLit k := by
  constructor
  · intro h
    by_cases hk : ∃ l, KeyIs k l
    · obtain ⟨l, hl⟩ := hk
      rw [discover_of hl] at h
      cases l with
      | str v => exact ⟨v, hl⟩
      | other => cases h
      | int n s =>
        rcases evalLit_int_cases n s with ⟨t, ht⟩ | ⟨⟨e, he⟩, _⟩
        · rw [evalLit_int.2 ht] at h; cases h
        · rw [he] at h; cases h
    · rw [discover_none (fun l hl => hk ⟨l, hl⟩)] at h; cases h
  · rintro ⟨v, hv⟩
    rw [discover_of hv]; rfl

theorem discover_scalar_iff {k : KeySyntax} {t : ScalarType} :
    discoverKey k = .ok (.literalScalar t) ↔ ∃ n, KeyIs k (.int n (suffixName t)) := by
  constructor
  · intro h
    by_cases hk : ∃ l, KeyIs k l
    · obtain ⟨l, hl⟩ := hk
      rw [discover_of hl] at h
      cases l with
      | str v => cases h
      | other => cases h
      | int n s => rw [evalLit_int] at h; subst h; exact ⟨n, hl⟩
    · rw [discover_none (fun l hl => hk ⟨l, hl⟩)] at h; cases h
  · rintro ⟨n, hn⟩
    rw [discover_of hn]; exact evalLit_int.2 rfl

theorem discover_expr_iff {k : KeySyntax} : discoverKey k = .ok .expression ↔ ∀ l, ¬ KeyIs k l := by
  constructor
  · intro h l hl
    rw [discover_of hl] at h
    cases l with
    | str v => cases h
    | other => cases h
    | int n s =>
      rcases evalLit_int_cases n s with ⟨t, ht⟩ | ⟨⟨e, he⟩, _⟩
      · rw [evalLit_int.2 ht] at h; cases h
      · rw [he] at h; cases h
  · exact discover_none

/-- Does the key count as a string? -/
def isStrB (k : KeySyntax) : Bool := match discoverKey k with | .ok .literalString => true | _ => false
/-- Does the key count as a scalar? -/
def isIntB (k : KeySyntax) : Bool := match discoverKey k with | .ok (.literalScalar _) => true | _ => false

theorem isStrB_iff {k : KeySyntax} : isStrB k = true ↔ IsStrLit k := by
  rw [← discover_string_iff]
  unfold isStrB
  constructor
  · intro h; split at h
    · assumption
    · cases h
  · intro h; rw [h]

theorem isIntB_iff {k : KeySyntax} : isIntB k = true ↔ ∃ t n, KeyIs k (.int n (suffixName t)) := by
  unfold isIntB
  constructor
  · intro h; split at h
    · rename_i t ht; exact ⟨t, discover_scalar_iff.1 ht⟩
    · cases h
  · rintro ⟨t, h⟩; rw [discover_scalar_iff.2 h]

/-- Contribution of a key to the number of scalars. -/
def intCount : DiscoveredKeyKind → Nat | .literalScalar _ => 1 | _ => 0

theorem count_ok {s s' : AssessState} {d : DiscoveredKeyKind} (h : s.count d = .ok s') :
    s'.numStrings = s.numStrings + (if d = .literalString then 1 else 0) ∧
    s'.numScalars = s.numScalars + intCount d ∧
    (s.scalarType ≠ .undecided → s'.scalarType = s.scalarType) ∧
    (∀ t, t ≠ .undecided → d = .literalScalar t → s'.scalarType = t) ∧
    (s'.scalarType = s.scalarType ∨ d = .literalScalar s'.scalarType) := by
  cases d with
  | literalString => cases h; simp [intCount]
  | expression => cases h; simp [intCount]
  | literalScalar t =>
    by_cases hu : t = .undecided
    · subst hu
      cases h
      simp only [intCount, reduceCtorEq, if_false, Nat.add_zero, true_and, ne_eq, implies_true, DiscoveredKeyKind.literalScalar.injEq]
      exact ⟨fun t h1 h2 => absurd h2.symm h1, Or.inl trivial⟩
    · have hc : s.count (.literalScalar t) = if s.scalarType = .undecided then .ok { s with numScalars := s.numScalars + 1, scalarType := t }
          else if t ≠ s.scalarType then .error "incompatible scalar literal type"
          else .ok { s with numScalars := s.numScalars + 1 } := by
        cases t <;> first | rfl | exact absurd rfl hu
      rw [hc] at h
      split at h
      · rename_i h0
        cases h
        simp [intCount, h0]
      · rename_i h0
        split at h
        · cases h
        · rename_i h1
          cases h
          simp only [ne_eq, not_not] at h1
          simp [intCount, h1]

theorem count_error {s : AssessState} {d : DiscoveredKeyKind} {e : String} (h : s.count d = .error e) :
    ∃ t, d = .literalScalar t ∧ t ≠ .undecided ∧ s.scalarType ≠ .undecided ∧ t ≠ s.scalarType := by
  cases d with
  | literalString => cases h
  | expression => cases h
  | literalScalar t =>
    by_cases hu : t = .undecided
    · subst hu; cases h
    · have hc : s.count (.literalScalar t) = if s.scalarType = .undecided then .ok { s with numScalars := s.numScalars + 1, scalarType := t }
          else if t ≠ s.scalarType then .error "incompatible scalar literal type"
          else .ok { s with numScalars := s.numScalars + 1 } := by
        cases t <;> first | rfl | exact absurd rfl hu
      rw [hc] at h
      split at h
      · cases h
      · rename_i h0
        split at h
        · rename_i h1; exact ⟨t, rfl, hu, h0, h1⟩
        · cases h

theorem assessLoop_ok (kind : MacroKind) : ∀ (ks : List KeySyntax) (s s' : AssessState),
    assessLoop kind ks s = .ok s' →
    (∀ k ∈ ks, ∃ d, discoverKey k = .ok d ∧ kindMismatch kind d = none ∧
      ∀ t, t ≠ .undecided → d = .literalScalar t → t = s'.scalarType) ∧
    (s.scalarType ≠ .undecided → s'.scalarType = s.scalarType) ∧
    (s'.scalarType = s.scalarType ∨ ∃ k ∈ ks, discoverKey k = .ok (.literalScalar s'.scalarType)) ∧
    s'.numStrings = s.numStrings + ks.countP isStrB ∧ s'.numScalars = s.numScalars + ks.countP isIntB
  | [], s, s', h => by
    cases h
    simp
  | k :: ks, s, s', h => by
    simp only [assessLoop, bind, Except.bind] at h
    cases hd : discoverKey k with
    | error e => rw [hd] at h; cases h
    | ok d =>
      rw [hd] at h
      simp only at h
      cases hm : kindMismatch kind d with
      | some msg => rw [hm] at h; cases h
      | none =>
        rw [hm] at h
        simp only at h
        cases hc : s.count d with
        | error e => rw [hc] at h; cases h
        | ok s1 =>
          rw [hc] at h
          simp only at h
          obtain ⟨c1, c2, c3, c4, c5⟩ := count_ok hc
          obtain ⟨i1, i2, i3, i4, i5⟩ := assessLoop_ok kind ks s1 s' h
          refine ⟨?_, ?_, ?_, ?_, ?_⟩
          · intro x hx
            rcases List.mem_cons.1 hx with rfl | hx
            · refine ⟨d, hd, hm, fun t ht hdt => ?_⟩
              have := c4 t ht hdt
              rw [← this]
              exact (i2 (by rw [this]; exact ht)).symm
            · exact i1 x hx
          · intro hs
            have := c3 hs
            rw [i2 (by rw [this]; exact hs), this]
          · rcases i3 with i3 | ⟨x, hx, hxd⟩
            · rcases c5 with c5 | c5
              · left; rw [i3, c5]
              · right; exact ⟨k, List.mem_cons_self, by rw [hd, c5, i3]⟩
            · right; exact ⟨x, List.mem_cons_of_mem _ hx, hxd⟩
          · rw [i4, c1, List.countP_cons]
            have : isStrB k = decide (d = .literalString) := by
              unfold isStrB; rw [hd]; cases d <;> simp
            rw [this]
            by_cases hl : d = .literalString <;> simp [hl] <;> omega
          · rw [i5, c2, List.countP_cons]
            have : isIntB k = decide (intCount d = 1) := by
              unfold isIntB; rw [hd]; cases d <;> simp [intCount]
            rw [this]
            cases d <;> simp [intCount] <;> omega

theorem assessLoop_error (kind : MacroKind) : ∀ (ks : List KeySyntax) (s : AssessState) (e : String),
    assessLoop kind ks s = .error e →
    (∃ k ∈ ks, ∃ e, discoverKey k = .error e) ∨
    (∃ k ∈ ks, ∃ d, discoverKey k = .ok d ∧ kindMismatch kind d ≠ none) ∨
    (∃ k ∈ ks, ∃ t t', discoverKey k = .ok (.literalScalar t) ∧ t ≠ .undecided ∧ t' ≠ .undecided ∧ t ≠ t' ∧
      (s.scalarType = t' ∨ ∃ k' ∈ ks, discoverKey k' = .ok (.literalScalar t')))
  | [], s, e, h => by cases h
  | k :: ks, s, e, h => by
    simp only [assessLoop, bind, Except.bind] at h
    cases hd : discoverKey k with
    | error e => exact Or.inl ⟨k, List.mem_cons_self, e, hd⟩
    | ok d =>
      rw [hd] at h
      simp only at h
      cases hm : kindMismatch kind d with
      | some msg => exact Or.inr (Or.inl ⟨k, List.mem_cons_self, d, hd, by rw [hm]; simp⟩)
      | none =>
        rw [hm] at h
        simp only at h
        cases hc : s.count d with
        | error e =>
          obtain ⟨t, rfl, h1, h2, h3⟩ := count_error hc
          exact Or.inr (Or.inr ⟨k, List.mem_cons_self, t, s.scalarType, hd, h1, h2, h3, Or.inl rfl⟩)
        | ok s1 =>
          rw [hc] at h
          simp only at h
          obtain ⟨c1, c2, c3, c4, c5⟩ := count_ok hc
          rcases assessLoop_error kind ks s1 e h with ⟨x, hx, h1⟩ | ⟨x, hx, h1⟩ | ⟨x, hx, t, t', h1, h2, h3, h4, h5⟩
          · exact Or.inl ⟨x, List.mem_cons_of_mem _ hx, h1⟩
          · exact Or.inr (Or.inl ⟨x, List.mem_cons_of_mem _ hx, h1⟩)
          · refine Or.inr (Or.inr ⟨x, List.mem_cons_of_mem _ hx, t, t', h1, h2, h3, h4, ?_⟩)
            rcases h5 with h5 | ⟨y, hy, h5⟩
            · rcases c5 with c5 | c5
              · left; rw [← c5, h5]
              · right; exact ⟨k, List.mem_cons_self, by rw [hd, c5, h5]⟩
            · right; exact ⟨y, List.mem_cons_of_mem _ hy, h5⟩

theorem kindMismatch_ne_none {kind : MacroKind} {d : DiscoveredKeyKind} :
    kindMismatch kind d ≠ none ↔ (kind = .scalar ∧ d = .literalString) ∨ (kind = .string ∧ ∃ t, d = .literalScalar t) := by
  cases kind <;> cases d <;> simp [kindMismatch]

theorem incompatible_iff {kind : MacroKind} {keys : List KeySyntax} :
    (∃ e, assessLoop kind keys { numStrings := 0, numScalars := 0, scalarType := .undecided } = .error e) ↔
      Incompatible kind keys := by
  constructor
  · rintro ⟨e, he⟩
    rcases assessLoop_error kind keys _ e he with ⟨k, hk, h⟩ | ⟨k, hk, d, hd, h⟩ | ⟨k, hk, t, t', h1, h2, h3, h4, h5⟩
    · exact Or.inl ⟨k, hk, discover_error_iff.1 h⟩
    · rcases kindMismatch_ne_none.1 h with ⟨h1, rfl⟩ | ⟨h1, t, rfl⟩
      · exact Or.inr (Or.inl ⟨h1, k, hk, discover_string_iff.1 hd⟩)
      · obtain ⟨n, hn⟩ := discover_scalar_iff.1 hd
        exact Or.inr (Or.inr (Or.inl ⟨h1, k, hk, n, _, hn⟩))
    · rcases h5 with h5 | ⟨k', hk', h5⟩
      · exact absurd h5.symm h3
      · obtain ⟨n, hn⟩ := discover_scalar_iff.1 h1
        obtain ⟨n', hn'⟩ := discover_scalar_iff.1 h5
        exact Or.inr (Or.inr (Or.inr ⟨k, hk, k', hk', n, _, n', _, hn, hn', fun h => h2 (suffixName_undecided.1 h),
          fun h => h3 (suffixName_undecided.1 h), fun h => h4 (suffixName_inj h)⟩))
  · intro hI
    cases hr : assessLoop kind keys { numStrings := 0, numScalars := 0, scalarType := .undecided } with
    | error e => exact ⟨e, rfl⟩
    | ok s' =>
      exfalso
      obtain ⟨h1, -⟩ := assessLoop_ok kind keys _ s' hr
      rcases hI with ⟨k, hk, hb⟩ | ⟨hkind, k, hk, hs⟩ | ⟨hkind, k, hk, n, s, hs⟩ |
        ⟨k, hk, k', hk', n, s, n', s', h2, h3, h4, h5, h6⟩
      · obtain ⟨d, hd, -⟩ := h1 k hk
        obtain ⟨e, he⟩ := discover_error_iff.2 hb
        rw [hd] at he; cases he
      · obtain ⟨d, hd, hm, -⟩ := h1 k hk
        rw [discover_string_iff.2 hs] at hd
        cases hd
        exact absurd hm (kindMismatch_ne_none.2 (Or.inl ⟨hkind, rfl⟩))
      · obtain ⟨d, hd, hm, -⟩ := h1 k hk
        rw [discover_of hs] at hd
        rcases evalLit_int_cases n s with ⟨t, ht⟩ | ⟨⟨e, he⟩, _⟩
        · rw [evalLit_int.2 ht] at hd
          cases hd
          exact absurd hm (kindMismatch_ne_none.2 (Or.inr ⟨hkind, t, rfl⟩))
        · rw [he] at hd; cases hd
      · obtain ⟨d, hd, -, hu⟩ := h1 k hk
        obtain ⟨d', hd', -, hu'⟩ := h1 k' hk'
        rw [discover_of h2] at hd
        rw [discover_of h3] at hd'
        rcases evalLit_int_cases n s with ⟨t, rfl⟩ | ⟨⟨e, he⟩, _⟩
        · rcases evalLit_int_cases n' s' with ⟨t', rfl⟩ | ⟨⟨e, he⟩, _⟩
          · rw [evalLit_int.2 rfl] at hd hd'
            cases hd; cases hd'
            have e1 := hu t (fun h => h4 (suffixName_undecided.2 h)) rfl
            have e2 := hu' t' (fun h => h5 (suffixName_undecided.2 h)) rfl
            exact h6 (by rw [e1, ← e2])
          · rw [he] at hd'; cases hd'
        · rw [he] at hd; cases hd

/-- What the successful classification knows about the keys. -/
theorem assess_facts {kind : MacroKind} {keys : List KeySyntax} (h : ¬ Incompatible kind keys) :
    ∃ s, assessKeys kind keys = .ok (assessDecide kind keys.length s) ∧
      s.numStrings = keys.countP isStrB ∧ s.numScalars = keys.countP isIntB ∧
      (∀ k ∈ keys, ∀ n t, KeyIs k (.int n (suffixName t)) → t ≠ .undecided → t = s.scalarType) ∧
      (s.scalarType = .undecided ∨ ∃ k ∈ keys, ∃ n, KeyIs k (.int n (suffixName s.scalarType))) := by
  cases hr : assessLoop kind keys { numStrings := 0, numScalars := 0, scalarType := .undecided } with
  | error e => exact absurd (incompatible_iff.1 ⟨e, hr⟩) h
  | ok s =>
    obtain ⟨h1, h2, h3, h4, h5⟩ := assessLoop_ok kind keys _ s hr
    refine ⟨s, by simp only [assessKeys, hr, bind, Except.bind], by simpa using h4, by simpa using h5, ?_, ?_⟩
    · intro k hk n t hkt ht
      obtain ⟨d, hd, -, hu⟩ := h1 k hk
      refine hu t ht ?_
      rw [discover_scalar_iff.2 ⟨n, hkt⟩] at hd
      exact (Except.ok.inj hd).symm
    · rcases h3 with h3 | ⟨k, hk, h3⟩
      · exact Or.inl h3
      · exact Or.inr ⟨k, hk, discover_scalar_iff.1 h3⟩

theorem assess_error {kind : MacroKind} {keys : List KeySyntax} (h : Incompatible kind keys) :
    ∃ e, assessKeys kind keys = .error e := by
  obtain ⟨e, he⟩ := incompatible_iff.2 h
  exact ⟨e, by simp only [assessKeys, he, bind, Except.bind]⟩

theorem countP_eq_length_iff {p : KeySyntax → Bool} {keys : List KeySyntax} :
    keys.countP p = keys.length ↔ ∀ k ∈ keys, p k = true := by
  rw [List.countP_eq_length]

theorem countP_pos_iff' {p : KeySyntax → Bool} {keys : List KeySyntax} :
    0 < keys.countP p ↔ ∃ k ∈ keys, p k = true := List.countP_pos_iff

/-- An accepted integer literal has one of the known suffixes. -/
theorem intLit_known {kind : MacroKind} {keys : List KeySyntax} (h : ¬ Incompatible kind keys) {k : KeySyntax} (hk : k ∈ keys)
    {n : Nat} {s : String} (hi : KeyIs k (.int n s)) : ∃ t, s = suffixName t := by
  rcases evalLit_int_cases n s with ht | ⟨_, h2⟩
  · exact ht
  · exact absurd (Or.inl ⟨k, hk, Or.inr ⟨n, s, hi, h2⟩⟩) h

theorem isIntB_iff' {kind : MacroKind} {keys : List KeySyntax} (h : ¬ Incompatible kind keys) {k : KeySyntax} (hk : k ∈ keys) :
    isIntB k = true ↔ IsIntLit k := by
  rw [isIntB_iff]
  constructor
  · rintro ⟨t, n, hn⟩; exact ⟨n, _, hn⟩
  · rintro ⟨n, s, hs⟩
    obtain ⟨t, rfl⟩ := intLit_known h hk hs
    exact ⟨t, n, hs⟩

theorem IsStrLit.not_int {k : KeySyntax} (h : IsStrLit k) : ¬ IsIntLit k := by
  rintro ⟨n, s, h2⟩
  obtain ⟨v, h1⟩ := h
  cases h1.unique h2

theorem AllInts.compatible {kind : MacroKind} {keys : List KeySyntax} {t : ScalarType} (h : AllInts kind keys t) :
    ¬ Incompatible kind keys := by
  obtain ⟨h1, h2, -⟩ := h
  rintro (⟨k, hk, hb | ⟨n', s', hb, hn⟩⟩ | ⟨_, k, hk, hs⟩ | ⟨hs, _⟩ | ⟨k, hk, k', hk', n', s', n'', s'', g1, g2, g3, g4, g5⟩)
  · obtain ⟨n, s, h3, -⟩ := h2 k hk
    cases h3.unique hb
  · obtain ⟨n, s, h3, h4⟩ := h2 k hk
    cases h3.unique hb
    rcases h4 with rfl | rfl
    · simp at hn
    · apply hn; cases t <;> simp [suffixName]
  · obtain ⟨n, s, h3, -⟩ := h2 k hk
    exact IsStrLit.not_int hs ⟨n, s, h3⟩
  · exact h1 hs
  · obtain ⟨n, s, h3, h4⟩ := h2 k hk
    cases h3.unique g1
    obtain ⟨n, s, h5, h6⟩ := h2 k' hk'
    cases h5.unique g2
    rcases h4 with h4 | h4
    · exact g3 h4
    · rcases h6 with h6 | h6
      · exact g4 h6
      · exact g5 (by rw [h4, h6])

theorem AllStrs.compatible {kind : MacroKind} {keys : List KeySyntax} (h : AllStrs kind keys) :
    ¬ Incompatible kind keys := by
  obtain ⟨h1, h2⟩ := h
  rintro (⟨k, hk, hb | ⟨n', s', hb, hn⟩⟩ | ⟨hs, _⟩ | ⟨_, k, hk, hs⟩ | ⟨k, hk, k', hk', n', s', n'', s'', g1, g2, g3, g4, g5⟩)
  · obtain ⟨v, hv⟩ := h2 k hk
    cases hv.unique hb
  · exact IsStrLit.not_int (h2 k hk) ⟨_, _, hb⟩
  · exact h1 hs
  · exact IsStrLit.not_int (h2 k hk) hs
  · exact IsStrLit.not_int (h2 k hk) ⟨_, _, g1⟩

theorem NoLits.compatible {kind : MacroKind} {keys : List KeySyntax} (h : NoLits keys) : ¬ Incompatible kind keys := by
  rintro (⟨k, hk, hb | ⟨n', s', hb, hn⟩⟩ | ⟨_, k, hk, v, hs⟩ | ⟨_, k, hk, n, s, hs⟩ |
    ⟨k, hk, k', hk', n', s', n'', s'', g1, g2, g3, g4, g5⟩)
  · exact h k hk _ hb
  · exact h k hk _ hb
  · exact h k hk _ hs
  · exact h k hk _ hs
  · exact h k hk _ g1

/-- The whole decision, in terms of what the keys are. -/
theorem assess_cases {kind : MacroKind} {keys : List KeySyntax} (hne : keys ≠ []) (hc : ¬ Incompatible kind keys) :
    (∃ t, assessKeys kind keys = .ok (.allLiteralScalars t) ∧ AllInts kind keys t) ∨
    (assessKeys kind keys = .ok .allLiteralStrings ∧ AllStrs kind keys) ∨
    (assessKeys kind keys = .ok .literalAndExpressionScalars ∧ MixedInts kind keys) ∨
    (assessKeys kind keys = .ok .literalAndExpressionStrings ∧ MixedStrs kind keys) ∨
    (assessKeys kind keys = .ok .hashed ∧ kind = .hashed ∧ NoLits keys) ∨
    (assessKeys kind keys = .ok .ordered ∧ kind = .ordered ∧ NoLits keys) := by
  obtain ⟨s, hs, n1, n2, hty, hty'⟩ := assess_facts hc
  have hI : ∀ k ∈ keys, (isIntB k = true ↔ IsIntLit k) := fun k hk => isIntB_iff' hc hk
  have aI : s.numScalars = keys.length ↔ ∀ k ∈ keys, IsIntLit k := by
    rw [n2, countP_eq_length_iff]
    exact forall₂_congr hI
  have aS : s.numStrings = keys.length ↔ ∀ k ∈ keys, IsStrLit k := by
    rw [n1, countP_eq_length_iff]
    exact forall₂_congr fun k _ => isStrB_iff
  have pI : 0 < s.numScalars ↔ ∃ k ∈ keys, IsIntLit k := by
    rw [n2, countP_pos_iff']
    exact exists_congr fun k => and_congr_right (hI k)
  have pS : 0 < s.numStrings ↔ ∃ k ∈ keys, IsStrLit k := by
    rw [n1, countP_pos_iff']
    exact exists_congr fun k => and_congr_right fun _ => isStrB_iff
  have hL : ∀ (h1 : ¬ 0 < s.numScalars) (h2 : ¬ 0 < s.numStrings), NoLits keys := by
    intro h1 h2 k hk l hl
    rw [pI] at h1
    rw [pS] at h2
    cases l with
    | str v => exact h2 ⟨k, hk, v, hl⟩
    | int n s => exact h1 ⟨k, hk, n, s, hl⟩
    | other => exact hc (Or.inl ⟨k, hk, Or.inl hl⟩)
  have ne1 : ¬ s.numStrings = keys.length → ∃ k ∈ keys, ¬ IsStrLit k := by
    intro h
    by_contra hcon
    exact h (aS.2 fun k hk => by by_contra hk'; exact hcon ⟨k, hk, hk'⟩)
  have ne2 : ¬ s.numScalars = keys.length → ∃ k ∈ keys, ¬ IsIntLit k := by
    intro h
    by_contra hcon
    exact h (aI.2 fun k hk => by by_contra hk'; exact hcon ⟨k, hk, hk'⟩)
  rw [hs]
  unfold assessDecide
  by_cases c1 : s.numScalars = keys.length
  · left
    rw [if_pos c1]
    refine ⟨_, rfl, ?_, ?_, hty'⟩
    · rintro rfl
      obtain ⟨k, hk⟩ := List.exists_mem_of_ne_nil keys hne
      exact hc (Or.inr (Or.inr (Or.inl ⟨rfl, k, hk, aI.1 c1 k hk⟩)))
    · intro k hk
      obtain ⟨n, suf, hn⟩ := aI.1 c1 k hk
      obtain ⟨t, rfl⟩ := intLit_known hc hk hn
      refine ⟨n, _, hn, ?_⟩
      by_cases ht : t = .undecided
      · left; rw [ht]; rfl
      · right; rw [hty k hk n t hn ht]
  · rw [if_neg c1]
    right
    by_cases c2 : s.numScalars > 0 ∧ s.numStrings = 0
    · rw [if_pos c2]
      right; left
      refine ⟨rfl, hc, ?_, ne2 c1, Or.inr (pI.1 c2.1)⟩
      intro k hk hk'
      have := pS.2 ⟨k, hk, hk'⟩
      omega
    · rw [if_neg c2]
      by_cases c3 : s.numStrings = keys.length
      · rw [if_pos c3]
        left
        refine ⟨rfl, ?_, aS.1 c3⟩
        rintro rfl
        obtain ⟨k, hk⟩ := List.exists_mem_of_ne_nil keys hne
        exact hc (Or.inr (Or.inl ⟨rfl, k, hk, aS.1 c3 k hk⟩))
      · rw [if_neg c3]
        right
        by_cases c4 : s.numStrings > 0
        · rw [if_pos c4]
          right; left
          exact ⟨rfl, hc, ne1 c3, Or.inr (pS.1 c4)⟩
        · rw [if_neg c4]
          have hno := hL (fun h => c2 ⟨h, by omega⟩) c4
          cases kind with
          | scalar =>
            left
            exact ⟨rfl, hc, fun k hk hk' => by obtain ⟨v, hv⟩ := hk'; exact hno k hk _ hv, ne2 c1, Or.inl rfl⟩
          | string =>
            right; left
            exact ⟨rfl, hc, ne1 c3, Or.inl rfl⟩
          | hashed => right; right; left; exact ⟨rfl, rfl, hno⟩
          | ordered => right; right; right; exact ⟨rfl, rfl, hno⟩

/-! ## Literal keys -/

theorem literalEntries_ok {unit : V} {parse : KeySyntax → Except String B} {f : MacroEntry K V → B} :
    ∀ {entries : List (MacroEntry K V)}, (∀ e ∈ entries, parse e.key = .ok (f e)) →
      literalEntries unit parse entries = .ok (entries.map (fun e => e.toCollection unit (f e)))
  | [], _ => rfl
  | e :: es, h => by
    simp only [literalEntries, h e (by simp), literalEntries_ok (entries := es) (fun x hx => h x (by simp [hx])), bind, Except.bind,
      List.map_cons]

theorem literalEntries_error {unit : V} {parse : KeySyntax → Except String B} {e : MacroEntry K V} {msg : String}
    (hp : parse e.key = .error msg) :
    ∀ {entries : List (MacroEntry K V)}, e ∈ entries → ∃ msg, literalEntries unit parse entries = .error msg
  | x :: es, h => by
    simp only [literalEntries, bind, Except.bind]
    cases hx : parse x.key with
    | error m => exact ⟨m, rfl⟩
    | ok b =>
      rcases List.mem_cons.1 h with rfl | h
      · rw [hp] at hx; cases hx
      · obtain ⟨m, hm⟩ := literalEntries_error (unit := unit) hp h
        exact ⟨m, by simp only [hm]⟩

/-- The value of an integer literal key. -/
def intOf (k : KeySyntax) : Nat := match keyLit k with | some (.int n _) => n | _ => 0

theorem intOf_eq {k : KeySyntax} {n : Nat} {s : String} (h : KeyIs k (.int n s)) : intOf k = n := by
  unfold intOf; rw [keyLit_iff.2 h]

theorem parseInt_ok {t : ScalarTy} {k : KeySyntax} {n : Nat} {s : String} (h : KeyIs k (.int n s)) (hn : n ≤ t.maxValue) :
    parseInt t k = .ok (BitVec.ofNat t.width (intOf k)) := by
  unfold parseInt
  rw [keyLit_iff.2 h, intOf_eq h]
  simp only [if_pos hn]

theorem parseInt_error {t : ScalarTy} {k : KeySyntax} {n : Nat} {s : String} (h : KeyIs k (.int n s)) (hn : t.maxValue < n) :
    ∃ msg, parseInt t k = .error msg := by
  unfold parseInt
  rw [keyLit_iff.2 h]
  exact ⟨_, if_neg (by omega)⟩

/-- The bytes of a string literal key. -/
def strOf (k : KeySyntax) : Str := match keyLit k with | some (.str v) => v | _ => []

theorem strOf_eq {k : KeySyntax} {v : Str} (h : KeyIs k (.str v)) : strOf k = v := by
  unfold strOf; rw [keyLit_iff.2 h]

theorem parseStr_ok {k : KeySyntax} {v : Str} (h : KeyIs k (.str v)) : parseStr k = .ok (strOf k) := by
  unfold parseStr
  rw [keyLit_iff.2 h, strOf_eq h]

theorem written_macro {f : MacroEntry K V → B} {em : Emitter} {isMap : Bool} (h : em.hasValueType = isMap) (unit : V)
    (entries : List (MacroEntry K V)) :
    (entries.map (fun e => e.toCollection unit (f e))).map
      (fun e => (e.keyExpr, if em.hasValueType then e.valueExpr else unit)) = macroWritten isMap unit entries := by
  unfold macroWritten
  rw [List.map_map, h]
  rfl

theorem form_hasValueType (isMap : Bool) (form : MacroForm) : (form.emitter isMap).hasValueType = isMap := by
  cases form <;> rfl

attribute [local instance] w64 in
theorem process_of_assess {env : MacroEnv K V} {em : Emitter} {inferred : Bool} {kind : MacroKind}
    {entries : List (MacroEntry K V)} (hne : entries ≠ []) {k : EffectiveKeyKind}
    (h : assessKeys kind (entries.map (fun e => e.key)) = .ok k) :
    process env em inferred kind entries = handleKeys env em entries k := by
  unfold process
  rw [if_neg (by simpa using hne)]
  simp only [h]

/-! ## Non-literal keys -/

theorem keepLast_length_iff {α : Type} {eq : α → α → Bool} {l : List α} :
    (keepLast eq l).length = l.length ↔ Distinct eq l := by
  constructor
  · intro h
    have := (keepLast_sublist eq l).eq_of_length h
    rw [← this]
    exact keepLast_distinct l
  · intro h
    rw [keepLast_of_distinct h]

theorem scanNew_outcome {eqK : K → K → Bool} {es : List (K × V)} :
    (Distinct eqK (es.map (fun e => e.1)) → ∃ m, InlineMap.scanNew es.length eqK es = .ok m) ∧
    (¬ Distinct eqK (es.map (fun e => e.1)) → ∃ msg, InlineMap.scanNew es.length eqK es = .error (.panic msg)) := by
  have hi : (keepLast (fun x y : K × V => eqK x.1 y.1) es).length = es.length ↔ Distinct eqK (es.map (fun e => e.1)) := by
    rw [keepLast_length_iff]; exact distinct_iff_keys es
  unfold InlineMap.scanNew
  rw [usingEq_eq_keepLast]
  unfold intoArray
  constructor
  · intro h
    rw [if_pos (hi.2 h)]
    exact ⟨_, rfl⟩
  · intro h
    rw [if_neg (fun h' => h (hi.1 h'))]
    exact ⟨_, rfl⟩

theorem eytzingerNew_outcome [Target] {cmp : K → K → Ordering} (hc : LawfulCmp cmp) {es : List (K × V)} :
    (Distinct (fun a b => cmp a b == .eq) (es.map (fun e => e.1)) → ∃ m, InlineMap.eytzingerNew es.length cmp es = .ok m) ∧
    (¬ Distinct (fun a b => cmp a b == .eq) (es.map (fun e => e.1)) →
      ∃ msg, InlineMap.eytzingerNew es.length cmp es = .error (.panic msg)) := by
  have hp := (sortedAndDedupped_survivors hc es).length_eq
  have hi : (survivors (fun a b => cmp a b == .eq) es).length = es.length ↔
      Distinct (fun a b => cmp a b == .eq) (es.map (fun e => e.1)) := by
    unfold survivors
    rw [keepLast_length_iff]; exact distinct_iff_keys (eqK := fun a b => cmp a b == .eq) es
  obtain ⟨A, hA, hl, -⟩ := eytzingerLayout_spec (sortedAndDedupped es (fun x y => cmp x.1 y.1))
  unfold InlineMap.eytzingerNew
  simp only [hA, bind, Except.bind]
  unfold intoArray
  constructor
  · intro h
    rw [if_pos (by rw [hl, hp]; exact hi.2 h)]
    exact ⟨_, rfl⟩
  · intro h
    rw [if_neg (fun h' => h (hi.1 (by rw [← hp, ← hl]; exact h')))]
    exact ⟨_, rfl⟩

theorem exprEntries_tokens {isMap : Bool} {unit : V} {entries : List (MacroEntry K V)}
    (hset : isMap = false → ∀ e ∈ entries, e.value = none) :
    (exprEntries unit entries).map (fun e => e.toTokens) = macroWritten isMap unit entries := by
  unfold exprEntries macroWritten
  rw [List.map_map]
  apply List.map_congr_left
  intro e he
  simp only [Function.comp, CollectionEntry.toTokens, MacroEntry.toCollection]
  cases isMap with
  | true => rfl
  | false => rw [hset rfl e he]; rfl

end Frozen.Model
