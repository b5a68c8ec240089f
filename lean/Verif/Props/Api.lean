import Verif.Lemmas.Api
import Verif.Lemmas.ConstEval
import Verif.Props.ApiSpec
import Verif.Props.Emit
import Verif.Props.Scalar

/-! # C61: emitted maps have the same functions whatever their representation -/

namespace Frozen.Props

attribute [local instance] w64

open Frozen.Spec Frozen.Model

variable {B Q K V : Type}

/-! ## Lemmas tied to the macro specification -/

theorem scalar_inv {env : MacroEnv K V} {isMap : Bool} {form : MacroForm} {kind : MacroKind} {entries : List (MacroEntry K V)}
    (hne : entries ≠ []) {t : ScalarType} (hk : AllInts kind (entries.map (fun e => e.key)) t) {item : Item (Emitted K V)}
    (hi : fzMacro env isMap form kind entries = .ok (.ok item)) :
    (∀ e ∈ entries, ∃ n s, KeyIs e.key (.int n s) ∧ n ≤ litMax t) ∧
    { form.emitter isMap with constKeys := true, constValues := true }.emitScalar env.unit env.build (env.sortScalar t.ty) t.ty.cmp
      (t.ty.index 64) (List.map (fun e : MacroEntry K V => e.toCollection env.unit (BitVec.ofNat t.ty.width (intOf e.key))) entries) = .ok (.ok item) := by
  have ha := (c42_classes (by simpa using hne)).1 t |>.2 hk
  have hfit : ∀ e ∈ entries, ∃ n s, KeyIs e.key (.int n s) ∧ n ≤ litMax t := by
    intro e he
    obtain ⟨n, s, h, -⟩ := hk.2.1 e.key (List.mem_map_of_mem he)
    refine ⟨n, s, h, ?_⟩
    by_contra hlt
    obtain ⟨msg, hm⟩ := (c42_macro_error_iff env isMap form kind entries).2 (.inr (.inr ⟨t, hk, e, he, n, s, h, by omega⟩))
    rw [hm] at hi; cases hi
  refine ⟨hfit, ?_⟩
  unfold fzMacro at hi
  rw [process_of_assess hne ha] at hi
  change handleLiteralScalarKeys env (form.emitter isMap) t.ty entries = _ at hi
  unfold handleLiteralScalarKeys at hi
  rw [literalEntries_ok (f := fun e => BitVec.ofNat t.ty.width (intOf e.key)) (fun e he => by
    obtain ⟨n, s, h, hle⟩ := hfit e he
    exact parseInt_ok h (by rw [← litMax_eq]; exact hle))] at hi
  exact hi

theorem index_shift (t : ScalarType) : ∃ off, ∀ n, n ≤ litMax t → t.ty.index 64 (BitVec.ofNat t.ty.width n) = n + off := by
  obtain ⟨hm, hw⟩ := c15_masks.1 t.ty t.ty_mem
  have h0 := c15_index_is_position hm hw (BitVec.ofNat t.ty.width 0)
  rw [scalarVal_ofNat (Nat.zero_le _)] at h0
  refine ⟨t.ty.index 64 (BitVec.ofNat t.ty.width 0), fun n hn => ?_⟩
  have h1 := c15_index_is_position hm hw (BitVec.ofNat t.ty.width n)
  rw [scalarVal_ofNat hn] at h1
  omega

/-- The type of map emitted for integer literals. -/
theorem scalar_literals {env : MacroEnv K V} {isMap : Bool} {form : MacroForm} {kind : MacroKind} {entries : List (MacroEntry K V)}
    (hn : entries.length < 2 ^ 56) {t : ScalarType} (hk : AllInts kind (entries.map (fun e => e.key)) t)
    {item : Item (Emitted K V)} (hi : fzMacro env isMap form kind entries = .ok (.ok item)) {R : List Nat} {mn mx : Nat}
    (hR : IntKeys (entries.map (fun e => e.key)) R mn mx) :
    (item.ctor.mapType = .inlineSparse ↔ ¬ NoGap R mn mx ∧ ¬ Scattered R mn mx) ∧
    (¬ Scattered R mn mx → ∀ q, item.ctor.accepts q = (q.sized && q.comparable && q.scalar)) ∧
    (Scattered R mn mx → ∀ q, item.ctor.accepts q = (q.equivalent && (decide (R.length < 8) || q.sized && q.scalar))) := by
  have hne : entries ≠ [] := by
    obtain ⟨k, hk, -⟩ := (hR.mem mn).1 hR.min
    rintro rfl
    simp at hk
  obtain ⟨hfit, hs⟩ := scalar_inv hne hk hi
  obtain ⟨off, hoff⟩ := index_shift t
  have hl := c15_lawful t.ty_mem
  rw [← ScalarTy.cmp_eq_scalarCmp] at hl
  have hkey : ∀ e ∈ entries, t.ty.index 64 (BitVec.ofNat t.ty.width (intOf e.key)) = intOf e.key + off := by
    intro e he
    obtain ⟨n, s, h, hle⟩ := hfit e he
    rw [intOf_eq h, hoff n hle]
  have hmemR : ∀ c, c ∈ R.map (· + off) ↔ ∃ e ∈ entries.map (fun e : MacroEntry K V => e.toCollection env.unit
      (BitVec.ofNat t.ty.width (intOf e.key))), t.ty.index 64 e.key = c := by
    intro c
    constructor
    · intro h
      obtain ⟨n, hnR, rfl⟩ := List.mem_map.1 h
      obtain ⟨k, hk', s, hks⟩ := (hR.mem n).1 hnR
      obtain ⟨e, he, rfl⟩ := List.mem_map.1 hk'
      refine ⟨_, List.mem_map.2 ⟨e, he, rfl⟩, ?_⟩
      show t.ty.index 64 (BitVec.ofNat t.ty.width (intOf e.key)) = _
      rw [hkey e he, intOf_eq hks]
    · rintro ⟨x, hx, rfl⟩
      obtain ⟨e, he, rfl⟩ := List.mem_map.1 hx
      obtain ⟨n, s, h, hle⟩ := hfit e he
      refine List.mem_map.2 ⟨n, (hR.mem n).2 ⟨e.key, List.mem_map_of_mem he, s, h⟩, ?_⟩
      show _ = t.ty.index 64 (BitVec.ofNat t.ty.width (intOf e.key))
      rw [hkey e he, intOf_eq h]
  have hnd : (R.map (· + off)).Nodup := (List.nodup_map_iff (fun a b h => by simpa using h)).2 hR.nodup
  have hperm := scalar_indices (em := { form.emitter isMap with constKeys := true, constValues := true }) (unit := env.unit) hl
    (entries.map (fun e : MacroEntry K V => e.toCollection env.unit (BitVec.ofNat t.ty.width (intOf e.key)))) hnd hmemR
  obtain ⟨r, hr, h1, h2, h3⟩ := emitScalar_type hs
  have hover := fun x y hx hy hsp => Emitter.emitScalar_over (em := { form.emitter isMap with constKeys := true, constValues := true })
    (unit := env.unit) (sort := env.sortScalar t.ty) env.build hl
    (entries := entries.map (fun e : MacroEntry K V => e.toCollection env.unit (BitVec.ofNat t.ty.width (intOf e.key)))) (x := x) (y := y) hx hy hsp item hs
  have hlen' := sortedAndDedupped_length_le (hl.lawfulCmp.comap (fun x : CollectionEntry (BitVec t.ty.width) K V => x.key))
    ({ form.emitter isMap with constKeys := true, constValues := true }.cleanValues env.unit
      (entries.map (fun e : MacroEntry K V => e.toCollection env.unit (BitVec.ofNat t.ty.width (intOf e.key)))))
  rw [Emitter.cleanValues_length, List.length_map] at hlen'
  generalize sortedAndDedupped _ _ = S at *
  have hu := limits_w64
  have hlen : S.length = R.length := by simpa using hperm.length_eq
  have hall := hR.range
  have hmnl : mn + off ∈ S.map (fun x => t.ty.index 64 x.key) := hperm.mem_iff.2 (List.mem_map_of_mem hR.min)
  have hmxl : mx + off ∈ S.map (fun x => t.ty.index 64 x.key) := hperm.mem_iff.2 (List.mem_map_of_mem hR.max)
  have hspan : mx + off - (mn + off) < usizeMax := by
    by_contra hge
    obtain ⟨x, hx, hxi⟩ := (hmemR (mx + off)).1 (List.mem_map_of_mem hR.max)
    obtain ⟨y, hy, hyi⟩ := (hmemR (mn + off)).1 (List.mem_map_of_mem hR.min)
    have := hl.bound x.key
    exact hover x y hx hy (by omega)
  obtain ⟨r', hr', ha, hb, hc⟩ := c17_scalar_analysis env.build (l := S.map (fun x => t.ty.index 64 x.key))
    (hperm.nodup_iff.2 hnd) (by
      intro x hx
      obtain ⟨e, _, rfl⟩ := List.mem_map.1 hx
      exact hl.bound _) (by rw [List.length_map]; omega) hmnl hmxl (by
      intro x hx
      obtain ⟨n, hn', rfl⟩ := List.mem_map.1 (hperm.mem_iff.1 hx)
      have := hall n hn'
      omega) hspan
  rw [hr] at hr'
  cases hr'
  have hfill : (∀ c, mn + off ≤ c → c ≤ mx + off → c ∈ S.map (fun x => t.ty.index 64 x.key)) ↔ NoGap R mn mx := by
    constructor
    · intro h c h1 h2
      obtain ⟨n, hn', he⟩ := List.mem_map.1 (hperm.mem_iff.1 (h (c + off) (by omega) (by omega)))
      have : n = c := by omega
      exact this ▸ hn'
    · intro h c h1 h2
      refine hperm.mem_iff.2 (List.mem_map.2 ⟨c - off, h (c - off) (by omega) (by omega), ?_⟩)
      omega
  rw [hfill] at ha hc
  rw [show mx + off - (mn + off) + 1 = mx - mn + 1 from by omega, List.length_map, hlen] at hc
  have hc' : r = .general ↔ Scattered R mn mx := hc
  refine ⟨h1.trans ?_, fun h => h2 (fun h' => h (hc'.1 h')), fun h => ?_⟩
  · rw [← ha, ← hc']
    cases r <;> simp
  · rw [← hlen]; exact h3 (hc'.2 h)

theorem non_scalar_class {kind : MacroKind} {keys : List KeySyntax} (hne : keys ≠ []) {k : EffectiveKeyKind}
    (ha : assessKeys kind keys = .ok k) (h : ¬ ∃ t, AllInts kind keys t) : ∀ t, k ≠ .allLiteralScalars t := by
  rintro t rfl
  exact h ⟨t, (c42_classes hne).1 t |>.1 ha⟩

theorem exists_strKeys (keys : List KeySyntax) : ∃ R, StrKeys keys R := by
  refine ⟨((keys.filter (fun k => match keyLit k with | some (.str _) => true | _ => false)).map strOf).dedup, List.nodup_dedup _, ?_⟩
  intro v
  rw [List.mem_dedup]
  constructor
  · intro h
    obtain ⟨k, hk, rfl⟩ := List.mem_map.1 h
    obtain ⟨hk, hf⟩ := List.mem_filter.1 hk
    cases hl : keyLit k with
    | none => simp [hl] at hf
    | some l =>
      cases l with
      | str s =>
        have := keyLit_iff.1 hl
        exact ⟨k, hk, by rwa [strOf_eq this]⟩
      | int n s => simp [hl] at hf
      | other => simp [hl] at hf
  · rintro ⟨k, hk, hkv⟩
    exact List.mem_map.2 ⟨k, List.mem_filter.2 ⟨hk, by simp [keyLit_iff.2 hkv]⟩, strOf_eq hkv⟩

theorem exists_intKeys {kind : MacroKind} {keys : List KeySyntax} (hne : keys ≠ []) {t : ScalarType} (hk : AllInts kind keys t) :
    ∃ R mn mx, IntKeys keys R mn mx := by
  have hR : (keys.map intOf).dedup ≠ [] := by
    obtain ⟨k, hk'⟩ := List.exists_mem_of_ne_nil keys hne
    exact List.ne_nil_of_mem (List.mem_dedup.2 (List.mem_map_of_mem hk'))
  have hb : ∀ l : List Nat, l ≠ [] → ∃ mn ∈ l, ∃ mx ∈ l, ∀ n ∈ l, mn ≤ n ∧ n ≤ mx := by
    intro l
    induction l with
    | nil => intro h; exact absurd rfl h
    | cons a l ih =>
      intro _
      by_cases hl : l = []
      · subst hl; exact ⟨a, by simp, a, by simp, by simp⟩
      · obtain ⟨mn, h1, mx, h2, h3⟩ := ih hl
        refine ⟨if a ≤ mn then a else mn, by split <;> simp [h1], if mx ≤ a then a else mx, by split <;> simp [h2], ?_⟩
        intro n hn
        have := h3 mn h1
        rcases List.mem_cons.1 hn with rfl | hn
        · split <;> split <;> omega
        · have := h3 n hn
          split <;> split <;> omega
  obtain ⟨mn, h1, mx, h2, h3⟩ := hb _ hR
  refine ⟨_, mn, mx, List.nodup_dedup _, ?_, h1, h2, h3⟩
  intro n
  rw [List.mem_dedup]
  constructor
  · intro h
    obtain ⟨k, hk', rfl⟩ := List.mem_map.1 h
    obtain ⟨n, s, h, -⟩ := hk.2.1 k hk'
    exact ⟨k, hk', s, by rwa [intOf_eq h]⟩
  · rintro ⟨k, hk', s, h⟩
    exact List.mem_map.2 ⟨k, hk', intOf_eq h⟩

/-! ## Functions -/

/-- **C61** (functions)  Whatever macro call the map was declared with, all functions but `get_mut` can be called with method
syntax without importing anything, and all of them once `MapQuery` (or `Map`, of which `MapQuery` is part) has been imported. -/
theorem c61_methods {env : MacroEnv K V} {isMap : Bool} {form : MacroForm} {kind : MacroKind} {entries : List (MacroEntry K V)}
    {item : Item (Emitted K V)} (_hi : fzMacro env isMap form kind entries = .ok (.ok item)) (scope : List ApiTrait) (m : Method) :
    (m ≠ .getMut → item.ctor.mapType.resolves scope m = true) ∧
    (.mapQuery ∈ scope → item.ctor.mapType.resolves scope m = true) := by
  constructor
  · intro hm
    generalize item.ctor.mapType = t
    cases t <;> cases m <;> first | exact absurd rfl hm | rfl
  · intro hs
    generalize item.ctor.mapType = t
    have hp : (prelude ++ scope).contains ApiTrait.mapQuery = true := by simp [hs]
    cases t <;> cases m <;> first | rfl | (unfold MapType.resolves; simpa [MapType.inherentPub, Method.trait] using hp)

/-- **C61** (violated, exactly)  Without imports `m.get_mut(&k)` compiles unless the keys are integer literals that leave gaps
and are not scattered. -/
theorem c61_get_mut_iff {env : MacroEnv K V} {isMap : Bool} {form : MacroForm} {kind : MacroKind} {entries : List (MacroEntry K V)}
    (hn : entries.length < 2 ^ 56) {item : Item (Emitted K V)} (hi : fzMacro env isMap form kind entries = .ok (.ok item)) :
    ((¬ ∃ t, AllInts kind (entries.map (fun e => e.key)) t) ∨ entries = [] → item.ctor.mapType.resolves [] .getMut = true) ∧
    ∀ t, AllInts kind (entries.map (fun e => e.key)) t → ∀ R mn mx, IntKeys (entries.map (fun e => e.key)) R mn mx →
      (item.ctor.mapType.resolves [] .getMut = true ↔ NoGap R mn mx ∨ Scattered R mn mx) := by
  have hres : ∀ ty : MapType, ty.resolves [] .getMut = true ↔ ty ≠ .inlineSparse := by
    intro ty; cases ty <;> decide
  constructor
  · intro h
    rw [hres]
    by_cases hne : entries = []
    · subst hne
      unfold fzMacro process processEmpty at hi
      simp only [List.isEmpty_nil, if_true] at hi
      split at hi
      · cases hi
      · unfold Emitter.emitHash at hi
        simp only [bind, Except.bind] at hi
        split at hi
        · cases hi
        · have h' := Emitter.finish_inv hi
          split at h'
          · rw [← Except.ok.inj h']; simp [Generator.genScan, Emitted.mapType]
          · exact (genHash_accepts h' ⟨true, true, true, true, true, true, true, true⟩).2
    · have h := h.resolve_right hne
      unfold fzMacro process at hi
      rw [if_neg (by simpa using hne)] at hi
      split at hi
      · cases hi
      · rename_i k hk
        have hns := non_scalar_class (by simpa using hne) hk h
        cases k with
        | allLiteralScalars t => exact absurd rfl (hns t)
        | allLiteralStrings =>
          simp only [handleKeys, handleLiteralStringKeys] at hi
          split at hi
          · cases hi
          · exact (emitString_type hi).1
        | literalAndExpressionScalars =>
          have h' := Emitter.finish_inv hi
          rw [← Except.ok.inj h']
          split <;> simp [Generator.genScanVec, Generator.genFz, Emitted.mapType]
        | literalAndExpressionStrings =>
          have h' := Emitter.finish_inv hi
          rw [← Except.ok.inj h']
          split <;> simp [Generator.genScanVec, Generator.genFz, Emitted.mapType]
        | hashed =>
          have h' := Emitter.finish_inv hi
          rw [← Except.ok.inj h']
          split <;> simp [Generator.genScanVec, Generator.genFz, Emitted.mapType]
        | ordered =>
          have h' := Emitter.finish_inv hi
          rw [← Except.ok.inj h']
          split <;> simp [Generator.genScanVec, Generator.genEytzingerVec, Emitted.mapType]
  · intro t hk R mn mx hR
    rw [hres, Ne, (scalar_literals hn hk hi hR).1]
    tauto

/-! ## Query types -/

/-- **C61** (query types, integer literals)  Which query types a map with integer literals as keys takes: types that are sized,
`Scalar` and `Comparable` with the key type, unless the keys are scattered; then `Equivalent` is enough for fewer than eight keys,
and for more it takes `Equivalent`, `Scalar` types that are sized. -/
theorem c61_query_ints {env : MacroEnv K V} {isMap : Bool} {form : MacroForm} {kind : MacroKind} {entries : List (MacroEntry K V)}
    (hn : entries.length < 2 ^ 56) {t : ScalarType} (hk : AllInts kind (entries.map (fun e => e.key)) t)
    {item : Item (Emitted K V)} (hi : fzMacro env isMap form kind entries = .ok (.ok item)) {R : List Nat} {mn mx : Nat}
    (hR : IntKeys (entries.map (fun e => e.key)) R mn mx) (q : QueryCaps) :
    (¬ Scattered R mn mx → (item.ctor.accepts q = true ↔ q.sized = true ∧ q.comparable = true ∧ q.scalar = true)) ∧
    (Scattered R mn mx → R.length < 8 → (item.ctor.accepts q = true ↔ q.equivalent = true)) ∧
    (Scattered R mn mx → 8 ≤ R.length →
      (item.ctor.accepts q = true ↔ q.equivalent = true ∧ q.sized = true ∧ q.scalar = true)) := by
  obtain ⟨-, h1, h2⟩ := scalar_literals hn hk hi hR
  refine ⟨fun h => ?_, fun h h8 => ?_, fun h h8 => ?_⟩
  · rw [h1 h]; simp [and_assoc]
  · rw [h2 h]; simp [h8]
  · rw [h2 h]; simp [Nat.not_lt.2 h8]

/-- **C61** (query types, string literals)  Fewer than four keys: whatever is `Equivalent` to the key type; otherwise, it takes types that
are hashed like strings, whichever part of the strings is being hashed. -/
theorem c61_query_strs {env : MacroEnv K V} {isMap : Bool} {form : MacroForm} {kind : MacroKind} {entries : List (MacroEntry K V)}
    (hne : entries ≠ []) (hk : AllStrs kind (entries.map (fun e => e.key)))
    {item : Item (Emitted K V)} (hi : fzMacro env isMap form kind entries = .ok (.ok item)) {R : List Str}
    (hR : StrKeys (entries.map (fun e => e.key)) R) (q : QueryCaps) :
    (R.length < 4 → (item.ctor.accepts q = true ↔ q.equivalent = true)) ∧
    (4 ≤ R.length → item.ctor.accepts q = true → q.equivalent = true ∧ (q.hash = true ∨ q.len = true ∨ q.asRefStr = true ∨ q.isStr = true)) ∧
    (StrLike q → item.ctor.accepts q = true) := by
  have ha := (c42_classes (by simpa using hne)).2.1.2 hk
  unfold fzMacro at hi
  rw [process_of_assess hne ha] at hi
  change handleLiteralStringKeys env (form.emitter isMap) entries = _ at hi
  unfold handleLiteralStringKeys at hi
  have hstr : ∀ e ∈ entries, ∃ v, KeyIs e.key (.str v) := fun e he => hk.2 e.key (List.mem_map_of_mem he)
  rw [literalEntries_ok (f := fun e => strOf e.key) (fun e he => by
    obtain ⟨v, h⟩ := hstr e he
    exact parseStr_ok h)] at hi
  obtain ⟨-, h1, h2⟩ := emitString_type hi
  have hperm := string_keys (em := { form.emitter isMap with constKeys := true, constValues := true }) (unit := env.unit)
    (entries.map (fun e : MacroEntry K V => e.toCollection env.unit (strOf e.key))) hR.nodup (by
      intro v
      rw [hR.mem]
      constructor
      · rintro ⟨k, hk', hkv⟩
        obtain ⟨e, he, rfl⟩ := List.mem_map.1 hk'
        exact ⟨_, List.mem_map.2 ⟨e, he, rfl⟩, strOf_eq hkv⟩
      · rintro ⟨x, hx, rfl⟩
        obtain ⟨e, he, rfl⟩ := List.mem_map.1 hx
        obtain ⟨v, h⟩ := hstr e he
        refine ⟨e.key, List.mem_map_of_mem he, ?_⟩
        show KeyIs e.key (.str (strOf e.key))
        rwa [strOf_eq h])
  have hlen := hperm.length_eq
  rw [List.length_map] at hlen
  rw [hlen] at h1 h2
  refine ⟨fun h => by rw [h1 h], fun h hq => ?_, fun h => ?_⟩
  · rcases h2 (by omega) with h2 | h2 | h2 <;> rw [h2] at hq <;> simp at hq <;> tauto
  · obtain ⟨e1, -, e3, e4, e5, e6⟩ := h
    by_cases h4 : R.length < 4
    · rw [h1 h4]; exact e1
    · rcases h2 h4 with h2 | h2 | h2 <;> rw [h2] <;> simp [e1, e3, e4, e5]
      tauto

/-- **C61** (query types, other keys)  Keys that are not all literals: with few entries whatever is `Equivalent` to the key type; with
more, the bounds are those of the kind of map. -/
theorem c61_query_exprs {env : MacroEnv K V} {isMap : Bool} {form : MacroForm} {kind : MacroKind} {entries : List (MacroEntry K V)}
    (hne : entries ≠ []) {item : Item (Emitted K V)} (hi : fzMacro env isMap form kind entries = .ok (.ok item)) (q : QueryCaps) :
    (MixedInts kind (entries.map (fun e => e.key)) → (item.ctor.accepts q = true ↔
      if entries.length < 8 then q.equivalent = true else q.sized = true ∧ q.scalar = true ∧ q.comparable = true)) ∧
    (MixedStrs kind (entries.map (fun e => e.key)) → (item.ctor.accepts q = true ↔
      if entries.length < 4 then q.equivalent = true else q.asRefStr = true)) ∧
    (NoLits (entries.map (fun e => e.key)) → kind = .hashed → (item.ctor.accepts q = true ↔
      if entries.length < 4 then q.equivalent = true else q.equivalent = true ∧ q.hash = true)) ∧
    (NoLits (entries.map (fun e => e.key)) → kind = .ordered → (item.ctor.accepts q = true ↔
      if entries.length < 4 then q.equivalent = true else q.comparable = true)) := by
  have hlen : (exprEntries env.unit entries).length = entries.length := by simp [exprEntries]
  have hc := c42_classes (kind := kind) (keys := entries.map (fun e => e.key)) (by simpa using hne)
  have hinv : ∀ {k}, assessKeys kind (entries.map (fun e => e.key)) = .ok k →
      handleKeys env (form.emitter isMap) entries k = .ok (.ok item) := by
    intro k hk
    unfold fzMacro at hi
    rwa [process_of_assess hne hk] at hi
  refine ⟨fun h => ?_, fun h => ?_, fun h hkd => ?_, fun h hkd => ?_⟩
  · have h' := Emitter.finish_inv (hinv (hc.2.2.1.2 h))
    rw [hlen] at h'
    rw [← Except.ok.inj h']
    split <;> simp [Generator.genScanVec, Generator.genFz, Emitted.accepts, and_assoc]
  · have h' := Emitter.finish_inv (hinv (hc.2.2.2.1.2 h))
    rw [hlen] at h'
    rw [← Except.ok.inj h']
    split <;> simp [Generator.genScanVec, Generator.genFz, Emitted.accepts]
  · have h' := Emitter.finish_inv (hinv (hc.2.2.2.2.1.2 ⟨hkd, h⟩))
    rw [hlen] at h'
    rw [← Except.ok.inj h']
    split <;> simp [Generator.genScanVec, Generator.genFz, Emitted.accepts, and_comm]
  · have h' := Emitter.finish_inv (hinv (hc.2.2.2.2.2.2 ⟨hkd, h⟩))
    rw [hlen] at h'
    rw [← Except.ok.inj h']
    split <;> simp [Generator.genScanVec, Generator.genEytzingerVec, Emitted.accepts]

/-- **C61** (query types, what is common)  Query types that implement as much as the key type does are taken whatever the
number and the values of the keys.  Missing: query types that implement less; which ones are taken depends on number and
values, see the three theorems above and `c61_query_violated`. -/
theorem c61_query_common_partial {env : MacroEnv K V} {isMap : Bool} {form : MacroForm} {kind : MacroKind}
    {entries : List (MacroEntry K V)} (hne : entries ≠ []) (hn : entries.length < 2 ^ 56) {item : Item (Emitted K V)}
    (hi : fzMacro env isMap form kind entries = .ok (.ok item)) (q : QueryCaps) :
    (∀ t, AllInts kind (entries.map (fun e => e.key)) t → IntLike q → item.ctor.accepts q = true) ∧
    (MixedInts kind (entries.map (fun e => e.key)) → IntLike q → item.ctor.accepts q = true) ∧
    (AllStrs kind (entries.map (fun e => e.key)) → StrLike q → item.ctor.accepts q = true) ∧
    (MixedStrs kind (entries.map (fun e => e.key)) → StrLike q → item.ctor.accepts q = true) ∧
    (NoLits (entries.map (fun e => e.key)) → kind = .hashed → q.equivalent = true → q.hash = true → item.ctor.accepts q = true) ∧
    (NoLits (entries.map (fun e => e.key)) → kind = .ordered → q.equivalent = true → q.comparable = true →
      item.ctor.accepts q = true) := by
  obtain ⟨x1, x2, x3, x4⟩ := c61_query_exprs hne hi q
  refine ⟨fun t hk hq => ?_, fun h hq => ?_, fun h hq => ?_, fun h hq => ?_, fun h hk h1 h2 => ?_, fun h hk h1 h2 => ?_⟩
  · obtain ⟨R, mn, mx, hR⟩ := exists_intKeys (by simpa using hne) hk
    obtain ⟨h1, h2, h3⟩ := c61_query_ints hn hk hi hR q
    obtain ⟨e1, e2, e3, e4, -⟩ := hq
    by_cases hs : Scattered R mn mx
    · by_cases h8 : R.length < 8
      · exact (h2 hs h8).2 e2
      · exact (h3 hs (by omega)).2 ⟨e2, e1, e4⟩
    · exact (h1 hs).2 ⟨e1, e3, e4⟩
  · rw [x1 h]
    obtain ⟨e1, e2, e3, e4, -⟩ := hq
    split
    · exact e2
    · exact ⟨e1, e4, e3⟩
  · obtain ⟨R, hR⟩ := exists_strKeys (entries.map (fun e => e.key))
    exact (c61_query_strs hne h hi hR q).2.2 hq
  · rw [x2 h]
    obtain ⟨e1, e2, e3, e4, e5, -⟩ := hq
    split
    · exact e1
    · exact e5
  · rw [x3 h hk]
    split
    · exact h1
    · exact ⟨h1, h2⟩
  · rw [x4 h hk]
    split
    · exact h1
    · exact h2

/-- A query type of the user: hashed like the keys and equivalent to them. -/
def userQuery : QueryCaps := ⟨true, true, false, false, true, false, false, false⟩

/-- `String` as query type for keys of type `&str`: it is not `Equivalent<&str>`. -/
def stringQuery : QueryCaps := ⟨true, false, false, false, true, true, true, false⟩

/-- An entry whose key is a literal. -/
def intEntry (n : Nat) : MacroEntry (BitVec 32) String := ⟨.lit (.int n ""), BitVec.ofNat 32 n, some "v"⟩

/-- An entry whose key is not a literal. -/
def exprEntry (n : Nat) : MacroEntry Nat String := ⟨.other, n, some "v"⟩

/-- **C61** (violated)  `m.get_mut(&k)` compiles for `fz_hash_map!({ 1: .., 2: .. })` and not for `fz_hash_map!({ 1: .., 3: .. })`. -/
theorem c61_get_mut_violated : ∃ item item',
    fzMacro (demoEnv (BitVec 32) String "") true .short .hashed [intEntry 1, intEntry 2] = .ok (.ok item) ∧
    fzMacro (demoEnv (BitVec 32) String "") true .short .hashed [intEntry 1, intEntry 3] = .ok (.ok item') ∧
    item.ctor.mapType.resolves [] .getMut = true ∧ item'.ctor.mapType.resolves [] .getMut = false := by
  refine ⟨_, _, by cbv, by cbv, by cbv, by cbv⟩

/-- **C61** (violated)  (a) A type that is `Hash` and `Equivalent` to the keys can be used for queries of `fz_hash_map!` if a key is not
a literal, and cannot if all are; (b) a type that is `Equivalent` can be used for `fz_scalar_map!` with seven entries but not with
eight; (c) `&String` can be used for `fz_string_map!` with four entries but not with three. -/
theorem c61_query_violated :
    (∃ item item', fzMacro (demoEnv Nat String "") true .short .hashed [exprEntry 1, exprEntry 2] = .ok (.ok item) ∧
      fzMacro (demoEnv (BitVec 32) String "") true .short .hashed [intEntry 1, intEntry 2] = .ok (.ok item') ∧
      item.ctor.accepts userQuery = true ∧ item'.ctor.accepts userQuery = false) ∧
    (∃ item item', fzMacro (demoEnv Nat String "") true .short .scalar ((List.range 7).map exprEntry) = .ok (.ok item) ∧
      fzMacro (demoEnv Nat String "") true .short .scalar ((List.range 8).map exprEntry) = .ok (.ok item') ∧
      item.ctor.accepts userQuery = true ∧ item'.ctor.accepts userQuery = false) ∧
    (∃ item item', fzMacro (demoEnv Nat String "") true .short .string ((List.range 4).map exprEntry) = .ok (.ok item) ∧
      fzMacro (demoEnv Nat String "") true .short .string ((List.range 3).map exprEntry) = .ok (.ok item') ∧
      item.ctor.accepts stringQuery = true ∧ item'.ctor.accepts stringQuery = false) :=
  ⟨⟨_, _, by cbv, by cbv, by cbv, by cbv⟩, ⟨_, _, by cbv, by cbv, by cbv, by cbv⟩, ⟨_, _, by cbv, by cbv, by cbv, by cbv⟩⟩

/-- The hypotheses of `c61_get_mut_iff` and `c61_query_ints` at the keys `5`, `1000`, `5`, which are scattered. -/
example : ∃ item, fzMacro (demoEnv (BitVec 32) String "") true .short .hashed [intEntry 5, intEntry 1000, intEntry 5] = .ok (.ok item) ∧
    item.ctor.mapType.resolves [] .getMut = true ∧ item.ctor.accepts userQuery = true := by
  have hk : AllInts .hashed ([intEntry 5, intEntry 1000, intEntry 5].map (fun e => e.key)) .undecided := by
    exact ((c42_classes (by simp)).1 .undecided).1 rfl
  have hR : IntKeys ([intEntry 5, intEntry 1000, intEntry 5].map (fun e => e.key)) [5, 1000] 5 1000 :=
    ⟨by decide, by
      intro n
      constructor
      · intro h
        simp only [List.mem_cons, List.not_mem_nil, or_false] at h
        rcases h with rfl | rfl
        · exact ⟨_, by simp [intEntry], "", .lit _⟩
        · exact ⟨.lit (.int 1000 ""), by simp [intEntry], "", .lit _⟩
      · rintro ⟨k, hk, s, h⟩
        simp only [intEntry, List.map_cons, List.map_nil, List.mem_cons, List.not_mem_nil, or_false] at hk
        rcases hk with rfl | rfl | rfl <;> cases h <;> simp, by decide, by decide, by decide⟩
  have hs : Scattered [5, 1000] 5 1000 := ⟨fun h => absurd (h 6 (by omega) (by omega)) (by decide), by decide, by decide⟩
  have hi : ∃ item, fzMacro (demoEnv (BitVec 32) String "") true .short .hashed [intEntry 5, intEntry 1000, intEntry 5] = .ok (.ok item) :=
    ⟨_, by cbv⟩
  obtain ⟨item, hi⟩ := hi
  exact ⟨item, hi, ((c61_get_mut_iff (by decide) hi).2 _ hk _ _ _ hR).2 (.inr hs),
    ((c61_query_ints (by decide) hk hi hR userQuery).2.1 hs (by decide)).2 rfl⟩

/-- The keys of a string map, of which one is written twice. -/
example : StrKeys [.lit (.str [65]), .group (.lit (.str [66])), .lit (.str [65])] [[65], [66]] :=
  ⟨by decide, by
    intro v
    constructor
    · intro h
      simp only [List.mem_cons, List.not_mem_nil, or_false] at h
      rcases h with rfl | rfl
      · exact ⟨_, by simp, .lit _⟩
      · exact ⟨.group (.lit (.str [66])), by simp, .group _⟩
    · rintro ⟨k, hk, h⟩
      simp only [List.mem_cons, List.not_mem_nil, or_false] at hk
      rcases hk with rfl | rfl | rfl <;> cases h <;> simp⟩

/-- `str` and `String` are like strings, `u8` is like integers. -/
example : StrLike ⟨false, true, true, false, true, true, true, true⟩ ∧ StrLike ⟨true, true, true, false, true, true, true, false⟩ ∧
    IntLike ⟨true, true, true, true, true, false, false, false⟩ := by
  unfold StrLike IntLike; decide

end Frozen.Props
