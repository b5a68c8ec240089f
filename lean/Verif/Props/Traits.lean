import Verif.Lemmas.Traits
import Verif.Props.Api
import Verif.Props.Equality
import Verif.Props.Sets
import Verif.Props.TraitSpec

/-! # C65, C66: the traits of emitted maps and sets -/

namespace Frozen.Props

open Frozen.Spec Frozen.Model

variable {B Q K V M : Type}

/-! ## Lemmas -/

attribute [local instance] w64 in
/-- The types that a macro call can yield. -/
theorem macro_type {env : MacroEnv K V} {isMap : Bool} {form : MacroForm} {kind : MacroKind} {entries : List (MacroEntry K V)}
    {item : Item (Emitted K V)} (hi : fzMacro env isMap form kind entries = .ok (.ok item)) :
    (item.ctor.mapType = .fzScalar ↔ MixedInts kind (entries.map (fun e => e.key)) ∧ 8 ≤ entries.length) ∧
    (item.ctor.mapType = .fzString ↔ MixedStrs kind (entries.map (fun e => e.key)) ∧ 4 ≤ entries.length) ∧
    (item.ctor.mapType = .fzHash ↔ kind = .hashed ∧ NoLits (entries.map (fun e => e.key)) ∧ 4 ≤ entries.length) ∧
    (item.ctor.mapType = .inlineEytzinger ↔ kind = .ordered ∧ NoLits (entries.map (fun e => e.key)) ∧ 4 ≤ entries.length) ∧
    (entries = [] → item.ctor.mapType = .inlineScan) := by
  by_cases hne : entries = []
  · subst hne
    have hs : item.ctor.mapType = .inlineScan := by
      unfold fzMacro process processEmpty at hi
      simp only [List.isEmpty_nil, if_true] at hi
      split at hi
      · cases hi
      · unfold Emitter.emitHash at hi
        simp only [bind, Except.bind] at hi
        split at hi
        · cases hi
        · rename_i es hes
          have h' := Emitter.finish_inv hi
          have h0 : es.length < 4 := by
            have hu : usingHash env.find ({ form.emitter isMap with constKeys := true, constValues := true }.cleanValues env.unit
                ([] : List (CollectionEntry (BitVec ScalarType.i32.ty.width) K V)))
                (fun x => env.fsScalar ScalarType.i32.ty env.seed x.key) (fun x y => x.key == y.key) = .ok [] := by
              unfold Emitter.cleanValues
              split <;> rfl
            rw [hu] at hes
            rw [← Except.ok.inj hes]
            exact Nat.zero_lt_succ _
          rw [if_pos h0] at h'
          rw [← Except.ok.inj h']
          rfl
    simp [hs]
  have hlen : (exprEntries env.unit entries).length = entries.length := by simp [exprEntries]
  have hc := c42_classes (kind := kind) (keys := entries.map (fun e => e.key)) (by simpa using hne)
  unfold fzMacro process at hi
  rw [if_neg (by simpa using hne)] at hi
  split at hi
  · cases hi
  · rename_i k hk
    have e1 : ∀ n, (kind = .hashed ∧ NoLits (entries.map (fun e => e.key)) ∧ 4 ≤ n) ↔ (k = .hashed ∧ 4 ≤ n) := fun n => by
      rw [← and_assoc, ← hc.2.2.2.2.1, hk]; simp
    have e2 : ∀ n, (kind = .ordered ∧ NoLits (entries.map (fun e => e.key)) ∧ 4 ≤ n) ↔ (k = .ordered ∧ 4 ≤ n) := fun n => by
      rw [← and_assoc, ← hc.2.2.2.2.2, hk]; simp
    rw [← hc.2.2.1, ← hc.2.2.2.1, e1, e2, hk]
    clear e1 e2
    cases k with
    | allLiteralScalars t =>
      simp only [handleKeys, handleLiteralScalarKeys] at hi
      split at hi
      · cases hi
      · have := emitScalar_forLiterals hi
        generalize item.ctor.mapType = ty at *
        cases ty <;> simp_all [MapType.forLiterals]
    | allLiteralStrings =>
      simp only [handleKeys, handleLiteralStringKeys] at hi
      split at hi
      · cases hi
      · have := emitString_forLiterals hi
        generalize item.ctor.mapType = ty at *
        cases ty <;> simp_all [MapType.forLiterals]
    | literalAndExpressionScalars =>
      have h' := Emitter.finish_inv hi
      rw [hlen] at h'
      rw [← Except.ok.inj h']
      split <;> simp [Generator.genScanVec, Generator.genFz, Emitted.mapType, hne] <;> omega
    | literalAndExpressionStrings =>
      have h' := Emitter.finish_inv hi
      rw [hlen] at h'
      rw [← Except.ok.inj h']
      split <;> simp [Generator.genScanVec, Generator.genFz, Emitted.mapType, hne] <;> omega
    | hashed =>
      have h' := Emitter.finish_inv hi
      rw [hlen] at h'
      rw [← Except.ok.inj h']
      split <;> simp [Generator.genScanVec, Generator.genFz, Emitted.mapType, hne] <;> omega
    | ordered =>
      have h' := Emitter.finish_inv hi
      rw [hlen] at h'
      rw [← Except.ok.inj h']
      split <;> simp [Generator.genScanVec, Generator.genEytzingerVec, Emitted.mapType, hne] <;> omega

attribute [local instance] w64 in
/-- A key type that fits can be used to query the map. -/
theorem accepts_self {env : MacroEnv K V} {isMap : Bool} {form : MacroForm} {kind : MacroKind} {entries : List (MacroEntry K V)}
    (hn : entries.length < 2 ^ 56) {item : Item (Emitted K V)} (hi : fzMacro env isMap form kind entries = .ok (.ok item))
    {k : KeyCaps} (hk : KeyFits kind (entries.map (fun e => e.key)) k) :
    item.ctor.accepts (item.ctor.keyCaps k).asQuery = true := by
  by_cases hfz : item.ctor.mapType = .fzString
  · generalize item.ctor = c at *
    rcases c with _ | _ | _ | _ | _ | _ | _ | _ | ⟨kd, es⟩ <;> first | (cases hfz; done) | skip
    cases kd <;> first | (cases hfz; done) | rfl
  have hkc : item.ctor.keyCaps k = k := by
    generalize item.ctor = c at *
    rcases c with _ | _ | _ | _ | _ | _ | _ | _ | ⟨kd, es⟩ <;> first | rfl | skip
    cases kd <;> first | rfl | exact absurd rfl hfz
  rw [hkc]
  have hco := hk.coherent
  by_cases hne : entries = []
  · have hs := (macro_type hi).2.2.2.2 hne
    have heq : k.eq = true := by
      cases kind with
      | hashed => exact (hk.hashed rfl).1
      | ordered => exact hco.ord (hk.ordered rfl)
      | scalar => exact hco.ord (hco.scalar (hk.ints (.inl rfl))).1
      | string => exact (hk.strs (.inl rfl)).eq
    generalize item.ctor = c at *
    rcases c with _ | _ | _ | _ | _ | _ | _ | _ | ⟨kd, es⟩ <;> first | (cases hs; done) | exact heq | skip
    cases kd <;> cases hs
  have hsc : k.scalar = true → k.asQuery.sized = true ∧ k.asQuery.equivalent = true ∧ k.asQuery.comparable = true ∧ k.asQuery.scalar = true :=
    fun h => ⟨rfl, hco.ord (hco.scalar h).1, (hco.scalar h).1, h⟩
  obtain ⟨x1, x2, x3, x4⟩ := c61_query_exprs hne hi k.asQuery
  have hc := c42_classes (kind := kind) (keys := entries.map (fun e => e.key)) (by simpa using hne)
  obtain ⟨e0, he0⟩ := List.exists_mem_of_ne_nil entries hne
  have hm0 : e0.key ∈ entries.map (fun e => e.key) := List.mem_map_of_mem he0
  have hstr : StringType k → StrLike k.asQuery := fun h => ⟨h.eq, h.ord, h.hash, h.len, h.asRefStr, .inr rfl⟩
  have hi' := hi
  unfold fzMacro process at hi'
  rw [if_neg (by simpa using hne)] at hi'
  split at hi'
  · cases hi'
  · rename_i kd hkd
    cases kd with
    | allLiteralScalars t =>
      have ht := (hc.1 t).1 hkd
      obtain ⟨n, sfx, hkey, -⟩ := ht.2.1 _ hm0
      obtain ⟨q1, q2, q3, q4⟩ := hsc (hk.ints (.inr ⟨_, hm0, n, sfx, hkey⟩))
      obtain ⟨R, mn, mx, hR⟩ := exists_intKeys (by simpa using hne) ht
      obtain ⟨h1, h2, h3⟩ := c61_query_ints hn ht hi hR k.asQuery
      by_cases hs : Scattered R mn mx
      · by_cases h8 : R.length < 8
        · exact (h2 hs h8).2 q2
        · exact (h3 hs (by omega)).2 ⟨q2, q1, q4⟩
      · exact (h1 hs).2 ⟨q1, q3, q4⟩
    | allLiteralStrings =>
      have ht := hc.2.1.1 hkd
      obtain ⟨R, hR⟩ := exists_strKeys (entries.map (fun e => e.key))
      exact (c61_query_strs hne ht hi hR _).2.2 (hstr (hk.strs (.inr ⟨_, hm0, ht.2 _ hm0⟩)))
    | literalAndExpressionScalars =>
      have ht := hc.2.2.1.1 hkd
      obtain ⟨q1, q2, q3, q4⟩ := hsc (hk.ints ht.2.2.2)
      rw [x1 ht]
      split
      · exact q2
      · exact ⟨q1, q4, q3⟩
    | literalAndExpressionStrings =>
      have ht := hc.2.2.2.1.1 hkd
      have hs := hk.strs ht.2.2
      rw [x2 ht]
      split
      · exact hs.eq
      · exact hs.asRefStr
    | hashed =>
      have ht := hc.2.2.2.2.1.1 hkd
      obtain ⟨q1, q2⟩ := hk.hashed ht.1
      rw [x3 ht.2 ht.1]
      split
      · exact q1
      · exact ⟨q1, q2⟩
    | ordered =>
      have ht := hc.2.2.2.2.2.1 hkd
      have q := hk.ordered ht.1
      rw [x4 ht.2 ht.1]
      split
      · exact hco.ord q
      · exact q

/-- What the emitted type is known to do with its own keys. -/
theorem accepts_caps {k : KeyCaps} {e : Emitted K V} (h : e.accepts (e.keyCaps k).asQuery = true) :
    match e.mapType with
    | .inlineScan | .inlineHash | .inlineHashNoCollisions => k.eq = true ∧ e.debugHasher k = true
    | .inlineEytzinger => k.ord = true
    | .inlineDense | .inlineSparse | .fzScalar => k.scalar = true
    | .fzHash => k.eq = true ∧ k.hash = true
    | .fzString => True := by
  rcases e with _ | _ | _ | _ | _ | _ | _ | _ | ⟨kd, es⟩
  case fz => cases kd <;> simp_all [Emitted.accepts, Emitted.keyCaps, KeyCaps.asQuery, Emitted.mapType]
  all_goals
    simp [Emitted.accepts, Emitted.keyCaps, KeyCaps.asQuery] at h
    simp [Emitted.mapType, Emitted.debugHasher, KeyCaps.asQuery]
    try exact h
  · exact h.2
  · exact h.2

attribute [local instance] w64 in
/-- The emitted type is `FzStringMap` only if the keys are strings. -/
theorem keyCaps_eq {env : MacroEnv K V} {isMap : Bool} {form : MacroForm} {kind : MacroKind} {entries : List (MacroEntry K V)}
    {item : Item (Emitted K V)} (hi : fzMacro env isMap form kind entries = .ok (.ok item))
    {k : KeyCaps} (hk : KeyFits kind (entries.map (fun e => e.key)) k) :
    (item.ctor.mapType = .fzString ∧ item.ctor.keyCaps k = boxStr ∧ StringType k) ∨
    (item.ctor.mapType ≠ .fzString ∧ item.ctor.keyCaps k = k) := by
  have ht := (macro_type hi).2.1
  by_cases hfz : item.ctor.mapType = .fzString
  · refine .inl ⟨hfz, ?_, hk.strs (ht.1 hfz).1.2.2⟩
    generalize item.ctor = c at *
    rcases c with _ | _ | _ | _ | _ | _ | _ | _ | ⟨kd, es⟩ <;> first | (cases hfz; done) | skip
    cases kd <;> first | (cases hfz; done) | rfl
  · refine .inr ⟨hfz, ?_⟩
    generalize item.ctor = c at *
    rcases c with _ | _ | _ | _ | _ | _ | _ | _ | ⟨kd, es⟩ <;> first | rfl | skip
    cases kd <;> first | rfl | exact absurd rfl hfz

/-! ## C66: maps -/

attribute [local instance] w64 in
/-- **C66** (maps)  Whatever the number and the values of the keys, the emitted map implements `Clone`, `Debug`, `Serialize`, `Index`, `Map` and
`PartialEq` if the key and value types implement what these need; which does not depend on the representation.  Missing: `Eq`, see
`c66_map_eq_iff`, and the traits that only the types with a run-time constructor have, see `c66_building_iff`. -/
theorem c66_map_traits_partial {env : MacroEnv K V} {form : MacroForm} {kind : MacroKind} {entries : List (MacroEntry K V)}
    (hn : entries.length < 2 ^ 56) {item : Item (Emitted K V)} (hi : fzMacro env true form kind entries = .ok (.ok item))
    {k : KeyCaps} (hk : KeyFits kind (entries.map (fun e => e.key)) k) (v : ValCaps) {t : MapTrait} (ht : ¬ OnlyBuilding t) (he : t ≠ .eq) :
    item.ctor.implMap k v t = true ↔ MapNeeds k v t := by
  have ha := accepts_self hn hi hk
  have hc := accepts_caps ha
  have hco := hk.coherent
  have hkc := keyCaps_eq hi hk
  generalize item.ctor = c at *
  clear hi
  rcases hkc with ⟨hty, hkc, hs⟩ | ⟨hty, hkc⟩
  · have hp := hs.1
    cases t <;> simp_all [Emitted.implMap, MapNeeds, OnlyBuilding, boxStr, MapType.partialEqKey, hs.clone, hs.debug, hs.serialize]
  · cases t <;> simp_all [Emitted.implMap, MapNeeds, OnlyBuilding]
    intro hv
    have h1 := hco.eq
    have h2 := hco.ord
    have h3 := hco.scalar
    generalize c.mapType = ty at *
    cases ty <;> simp_all [MapType.partialEqKey]

attribute [local instance] w64 in
/-- **C66** (`Eq` of maps)  The emitted map implements `Eq` if the value type does, except that from the fourth entry on ordered maps
with computed keys implement it for values that are `PartialEq` only. -/
theorem c66_map_eq_iff {env : MacroEnv K V} {form : MacroForm} {kind : MacroKind} {entries : List (MacroEntry K V)}
    (hn : entries.length < 2 ^ 56) {item : Item (Emitted K V)} (hi : fzMacro env true form kind entries = .ok (.ok item))
    {k : KeyCaps} (hk : KeyFits kind (entries.map (fun e => e.key)) k) (v : ValCaps) :
    (kind = .ordered ∧ NoLits (entries.map (fun e => e.key)) ∧ 4 ≤ entries.length →
      (item.ctor.implMap k v .eq = true ↔ v.partialEq = true)) ∧
    (¬ (kind = .ordered ∧ NoLits (entries.map (fun e => e.key)) ∧ 4 ≤ entries.length) →
      (item.ctor.implMap k v .eq = true ↔ MapNeeds k v .eq)) := by
  have ha := accepts_self hn hi hk
  have hc := accepts_caps ha
  have h1 := hk.coherent.eq
  have h2 := hk.coherent.ord
  have h3 := hk.coherent.scalar
  rw [← (macro_type hi).2.2.2.1]
  simp only [Emitted.implMap, ha, MapNeeds, Bool.and_true]
  generalize item.ctor.mapType = ty at *
  cases ty <;> simp_all [MapType.eqBounds]

attribute [local instance] w64 in
/-- **C66** (violated, exactly)  The emitted map or set implements `Default` and `FromIterator` exactly if some key is not a literal
and there are many, and `Deserialize` if moreover keys and values do. -/
theorem c66_building_iff {env : MacroEnv K V} {isMap : Bool} {form : MacroForm} {kind : MacroKind} {entries : List (MacroEntry K V)}
    (hn : entries.length < 2 ^ 56) {item : Item (Emitted K V)} (hi : fzMacro env isMap form kind entries = .ok (.ok item))
    {k : KeyCaps} (hk : KeyFits kind (entries.map (fun e => e.key)) k) (v : ValCaps) :
    (item.ctor.implMap k v .default = true ↔ ManyComputed kind (entries.map (fun e => e.key))) ∧
    (item.ctor.implMap k v .fromIter = true ↔ ManyComputed kind (entries.map (fun e => e.key))) ∧
    (item.ctor.implMap k v .deserialize = true ↔ ManyComputed kind (entries.map (fun e => e.key)) ∧ v.deserialize = true ∧
      (k.deserialize = true ∨ MixedStrs kind (entries.map (fun e => e.key)))) ∧
    (item.ctor.implSet k .default = true ↔ ManyComputed kind (entries.map (fun e => e.key))) ∧
    (item.ctor.implSet k .fromIter = true ↔ ManyComputed kind (entries.map (fun e => e.key))) ∧
    (item.ctor.implSet k .deserialize = true ↔ ManyComputed kind (entries.map (fun e => e.key)) ∧
      (k.deserialize = true ∨ MixedStrs kind (entries.map (fun e => e.key)))) := by
  have hc := accepts_caps (accepts_self hn hi hk)
  have hkc := keyCaps_eq hi hk
  obtain ⟨t1, t2, t3, -⟩ := macro_type hi
  have hM : ManyComputed kind (entries.map (fun e => e.key)) ↔ item.ctor.mapType.isFz = true := by
    unfold ManyComputed
    rw [List.length_map, ← t1, ← t2, ← t3]
    generalize item.ctor.mapType = ty
    cases ty <;> simp [MapType.isFz]
  have hS : item.ctor.mapType.isFz = true → (item.ctor.mapType = .fzString ↔ MixedStrs kind (entries.map (fun e => e.key))) := by
    intro h
    refine ⟨fun h => (t2.1 h).1, fun hm => ?_⟩
    by_contra hne
    obtain ⟨-, -, -, x4, x5⟩ := classes_exclusive (kind := kind) (keys := entries.map (fun e => e.key)) (by
      intro h0
      obtain ⟨-, ⟨x, hx, -⟩, -⟩ := hm
      rw [h0] at hx; cases hx)
    generalize item.ctor.mapType = ty at *
    cases ty <;> simp [MapType.isFz] at h hne
    · exact x5 hm ⟨(t3.1 rfl).2.1, by rw [(t3.1 rfl).1]; simp⟩
    · exact (x4 (t1.1 rfl).1).1 hm
  rw [hM]
  have hf : item.ctor.mapType.isFz = true → item.ctor.mapType.fromIterKey k = true ∧
      item.ctor.mapType.fromIterKey (item.ctor.keyCaps k) = true := by
    intro h
    rcases hkc with ⟨hty, hkc, hs⟩ | ⟨hty, hkc⟩
    · rw [hkc, hty]; exact ⟨hs.asRefStr, rfl⟩
    · rw [hkc]
      generalize item.ctor.mapType = ty at *
      cases ty <;> simp_all [MapType.isFz, MapType.fromIterKey]
  have hf' : item.ctor.mapType.fromIterKey k = true → item.ctor.mapType.isFz = true := by
    generalize item.ctor.mapType = ty at *
    cases ty <;> simp_all [MapType.isFz, MapType.fromIterKey]
  have hd : item.ctor.mapType.isFz = true → ((item.ctor.keyCaps k).deserialize = true ↔
      k.deserialize = true ∨ MixedStrs kind (entries.map (fun e => e.key))) := by
    intro h
    rw [← hS h]
    rcases hkc with ⟨hty, hkc, hs⟩ | ⟨hty, hkc⟩
    · simp [hty, hkc, boxStr]
    · simp [hty, hkc]
  simp only [Emitted.implMap, Emitted.implSet]
  by_cases h : item.ctor.mapType.isFz = true
  · simp [h, hf h, hd h, and_comm]
  · have h' : item.ctor.mapType.fromIterKey k = false := Bool.eq_false_iff.2 (fun h' => h (hf' h'))
    simp [h, h']

/-! ## C66: sets -/

attribute [local instance] w64 in
/-- **C66** (sets)  Whatever the number and the values of the elements, the emitted set implements `Clone`, `Debug`, `Serialize`, `Set`,
`PartialEq`, `Eq` and the four operators if the element type implements what these need; which does not depend on the representation.
Missing: the traits that only the types with a run-time constructor have, see `c66_building_iff`. -/
theorem c66_set_traits_partial {env : MacroEnv K V} {form : MacroForm} {kind : MacroKind} {entries : List (MacroEntry K V)}
    (hn : entries.length < 2 ^ 56) {item : Item (Emitted K V)} (hi : fzMacro env false form kind entries = .ok (.ok item))
    {k : KeyCaps} (hk : KeyFits kind (entries.map (fun e => e.key)) k) {t : SetTrait} (ht : ¬ OnlySetBuilding t) :
    item.ctor.implSet k t = true ↔ SetNeeds k t := by
  have ha := accepts_self hn hi hk
  have hc := accepts_caps ha
  have hkc := keyCaps_eq hi hk
  have h1 := hk.coherent.eq
  have h2 := hk.coherent.ord
  have h3 := hk.coherent.scalar
  have hdh : item.ctor.mapType ≠ .inlineHash → item.ctor.mapType ≠ .inlineHashNoCollisions → item.ctor.debugHasher k = true := by
    generalize item.ctor = c
    rcases c with _ | _ | _ | _ | _ | _ | _ | _ | ⟨kd, es⟩ <;> simp [Emitted.mapType, Emitted.debugHasher]
  generalize item.ctor = c at *
  clear hi
  rcases hkc with ⟨hty, hkc, hs⟩ | ⟨hty, hkc⟩
  · cases t <;> simp_all [Emitted.implSet, SetNeeds, OnlySetBuilding, boxStr, MapType.setPartialEq, MapType.setEq, MapType.setOps,
      hs.clone, hs.debug, hs.serialize, hs.hash]
  · simp only [Emitted.implSet, ha, hkc, Bool.and_true]
    generalize c.mapType = ty at *
    generalize c.debugHasher k = dh at *
    cases t <;> cases ty <;> simp_all [SetNeeds, OnlySetBuilding, MapType.setPartialEq, MapType.setEq, MapType.setOps]

attribute [local instance] w64 in
/-- **C66** (functions of sets)  All functions but `get` can be called with method syntax without importing anything; `get` exactly unless
the set is hashed and has four or more elements none of which is a literal; and all of them once `SetExtras` (or `Set`) is imported. -/
theorem c66_set_methods {env : MacroEnv K V} {isMap : Bool} {form : MacroForm} {kind : MacroKind} {entries : List (MacroEntry K V)}
    {item : Item (Emitted K V)} (hi : fzMacro env isMap form kind entries = .ok (.ok item)) (scope : List SetApiTrait) (m : SetMethod) :
    (m ≠ .get → item.ctor.mapType.setResolves scope m = true) ∧
    (.setExtras ∈ scope → item.ctor.mapType.setResolves scope m = true) ∧
    (item.ctor.mapType.setResolves [] .get = true ↔ ¬ (kind = .hashed ∧ NoLits (entries.map (fun e => e.key)) ∧ 4 ≤ entries.length)) := by
  rw [← (macro_type hi).2.2.1]
  generalize item.ctor.mapType = t
  refine ⟨fun hm => ?_, fun hs => ?_, ?_⟩
  · cases t <;> cases m <;> first | exact absurd rfl hm | rfl
  · have hp : (SetApiTrait.intoIterator :: scope).contains SetApiTrait.setExtras = true := by simp [hs]
    cases t <;> cases m <;> first | rfl | (unfold MapType.setResolves; simpa [MapType.setInherentPub, SetMethod.trait] using hp)
  · cases t <;> simp [MapType.setResolves, MapType.setInherentPub, SetMethod.trait]

/-! ## C65: `Eq` means that everything equals itself -/

/-- **C65** (when a map equals itself)  Exactly when each of its values does. -/
theorem c65_self_equal_iff [Target] {eqK : K → K → Bool} {es : List (K × V)} {I : MapImpl M K K V} {m : M} (hb : Built eqK eqK es I m)
    (eqV : V → V → Bool) :
    ∃ b, I.eq I eqV m m = .ok b ∧ (b = true ↔ ∀ q e, lastMatch eqK es q = some e → eqV e.2 e.2 = true) := by
  obtain ⟨b, h1, h2⟩ := c25_map_eq_is_extensional hb hb eqV
  refine ⟨b, h1, h2.trans (forall_congr' fun q => ?_)⟩
  cases lastMatch eqK es q <;> simp [OptAgree]

/-- **C65** (all map types)  The values of a map type that implements `Eq` equal themselves, and `==` between them is symmetric and
transitive.  Missing: `InlineEytzingerSearchMap`, for which it is false, see `c65_violated`. -/
theorem c65_eq_is_equivalence_partial [Target] {k : KeyCaps} {v : ValCaps} {t : AnyMapType} (ht : t ≠ .emitted .inlineEytzinger)
    (h : t.eqBounds k v = true) {eqK : K → K → Bool} {eqV : V → V → Bool} (hv : ValueEq v eqV) {es₁ es₂ es₃ : List (K × V)}
    {I : MapImpl M K K V} {m₁ m₂ m₃ : M} (h₁ : Built eqK eqK es₁ I m₁) (h₂ : Built eqK eqK es₂ I m₂) (h₃ : Built eqK eqK es₃ I m₃) :
    I.eq I eqV m₁ m₁ = .ok true ∧ I.eq I eqV m₁ m₂ = I.eq I eqV m₂ m₁ ∧
    (I.eq I eqV m₁ m₂ = .ok true → I.eq I eqV m₂ m₃ = .ok true → I.eq I eqV m₁ m₃ = .ok true) := by
  have hve : v.eq = true := by
    cases t with
    | emitted t => cases t <;> simp_all [AnyMapType.eqBounds, MapType.eqBounds]
    | _ => simp_all [AnyMapType.eqBounds]
  exact ⟨c25_refl h₁ (hv.refl hve), c25_symm h₁ h₂ hv.symm, c25_trans h₁ h₂ h₃ hv.trans⟩

/-- **C65** (sets)  Sets always equal themselves, and `==` is symmetric and transitive. -/
theorem c65_sets [Target] {eqT : K → K → Bool} {xs₁ xs₂ xs₃ : List K} {I : SetImpl M K K} {m₁ m₂ m₃ : M}
    (h₁ : BuiltSet eqT eqT xs₁ I m₁) (h₂ : BuiltSet eqT eqT xs₂ I m₂) (h₃ : BuiltSet eqT eqT xs₃ I m₃) :
    setEq (I.view m₁) (I.view m₁) = .ok true ∧ setEq (I.view m₁) (I.view m₂) = setEq (I.view m₂) (I.view m₁) ∧
    (setEq (I.view m₁) (I.view m₂) = .ok true → setEq (I.view m₂) (I.view m₃) = .ok true →
      setEq (I.view m₁) (I.view m₃) = .ok true) := by
  have he : LawfulEq' eqT := h₁.spec.1
  obtain ⟨a, a1, a2⟩ := c30_built_set_eq h₁ h₁ (fun _ _ => rfl) (fun _ _ => rfl)
  obtain ⟨b, b1, b2⟩ := c30_built_set_eq h₁ h₂ (fun _ _ => rfl) (fun _ _ => rfl)
  obtain ⟨b', b1', b2'⟩ := c30_built_set_eq h₂ h₁ (fun _ _ => rfl) (fun _ _ => rfl)
  obtain ⟨c, c1, c2⟩ := c30_built_set_eq h₂ h₃ (fun _ _ => rfl) (fun _ _ => rfl)
  obtain ⟨d, d1, d2⟩ := c30_built_set_eq h₁ h₃ (fun _ _ => rfl) (fun _ _ => rfl)
  rw [a1, b1, b1', c1, d1]
  refine ⟨?_, ?_, ?_⟩
  · rw [a2.2 ⟨fun x hx => ⟨x, hx, he.refl x⟩, fun x hx => ⟨x, hx, he.refl x⟩⟩]
  · congr 1
    rw [Bool.eq_iff_iff, b2, b2']
    exact and_comm
  · intro hb hc
    cases hb; cases hc
    obtain ⟨p1, p2⟩ := b2.1 rfl
    obtain ⟨q1, q2⟩ := c2.1 rfl
    congr 1
    refine d2.2 ⟨fun x hx => ?_, fun z hz => ?_⟩
    · obtain ⟨y, hy, hxy⟩ := p1 x hx
      obtain ⟨z, hz, hyz⟩ := q1 y hy
      exact ⟨z, hz, he.trans _ _ _ hxy hyz⟩
    · obtain ⟨y, hy, hzy⟩ := q2 z hz
      obtain ⟨x, hx, hyx⟩ := p2 y hy
      exact ⟨x, hx, he.trans _ _ _ hzy hyx⟩

attribute [local instance] w64 in
/-- **C65** (emitted maps, exactly)  For a value type with a value that does not equal itself: the emitted map implements `Eq` exactly if the
map is ordered and has four or more entries, no key being a literal; and if it does, then it does not equal itself as soon as the
value occurs. -/
theorem c65_emitted_iff {env : MacroEnv K V} {form : MacroForm} {kind : MacroKind} {entries : List (MacroEntry K V)}
    (hn : entries.length < 2 ^ 56) {item : Item (Emitted K V)} (hi : fzMacro env true form kind entries = .ok (.ok item))
    {k : KeyCaps} (hk : KeyFits kind (entries.map (fun e => e.key)) k) {v : ValCaps} (hp : v.partialEq = true)
    {eqV : V → V → Bool} (hv : ValueEq v eqV) {nan : V} (hnan : eqV nan nan = false) :
    (item.ctor.implMap k v .eq = true ↔ kind = .ordered ∧ NoLits (entries.map (fun e => e.key)) ∧ 4 ≤ entries.length) ∧
    (∀ {eqK : K → K → Bool} {es : List (K × V)} {I : MapImpl M K K V} {m : M}, Built eqK eqK es I m →
      (∃ q e, lastMatch eqK es q = some e ∧ e.2 = nan) → I.eq I eqV m m = .ok false) := by
  have hne : ¬ v.eq = true := fun h => by rw [hv.refl h nan] at hnan; cases hnan
  obtain ⟨h1, h2⟩ := c66_map_eq_iff hn hi hk v
  refine ⟨⟨fun h => ?_, fun h => (h1 h).2 hp⟩, ?_⟩
  · by_contra hc
    exact hne ((h2 hc).1 h)
  · intro eqK es I m hb ⟨q, e, hq, he⟩
    obtain ⟨b, e1, e2⟩ := c65_self_equal_iff hb eqV
    rw [e1]
    cases b
    · rfl
    · have := e2.1 rfl q e hq
      rw [he, hnan] at this
      cases this

/-! ## Witnesses -/

/-- The traits of `u32`, of a user type that is only `Hash + Eq`, of one that is only `Ord`, and of `&str`. -/
def u32Caps : KeyCaps := ⟨true, true, true, true, true, true, true, true, true, false, false⟩
def hashCaps : KeyCaps := ⟨true, true, false, true, false, false, false, false, false, false, false⟩
def ordCaps : KeyCaps := ⟨true, true, true, false, false, false, false, false, false, false, false⟩
def strCaps : KeyCaps := ⟨true, true, true, true, true, false, true, true, true, true, true⟩

/-- The traits of `f64`: not `Eq`. -/
def floatCaps : ValCaps := ⟨true, false, true, true, true, true⟩

/-- `==` of floating-point numbers, as far as needed: `none` is NaN. -/
def nanEq : Option Nat → Option Nat → Bool
  | some a, some b => a == b
  | _, _ => false

theorem nanEq_ok : ValueEq floatCaps nanEq :=
  ⟨fun a b => by cases a <;> cases b <;> simp [nanEq, Bool.beq_comm], fun a b c => by cases a <;> cases b <;> cases c <;> simp_all [nanEq],
    fun h => by cases h⟩

/-- `n: v` where the key is an expression. -/
def nanEntry (n : Nat) (v : Option Nat) : MacroEntry Nat (Option Nat) := ⟨.other, n, some v⟩

theorem u32Caps_fits {kind : MacroKind} (h : kind ≠ .string) {keys : List KeySyntax} (hs : ∀ x ∈ keys, ¬ IsStrLit x) :
    KeyFits kind keys u32Caps :=
  ⟨⟨fun _ => rfl, fun _ => rfl, fun _ => ⟨rfl, rfl⟩⟩, fun _ => rfl,
    fun h' => h'.elim (fun h' => absurd h' h) (fun ⟨x, hx, h'⟩ => absurd h' (hs x hx)), fun _ => ⟨rfl, rfl⟩, fun _ => rfl⟩

theorem other_not_str {x : KeySyntax} (h : x = .other) : ¬ IsStrLit x := by
  subst h; rintro ⟨s, h⟩; cases h

attribute [local instance] w64 in
/-- **C65** (violated)  `fz_ordered_map!({ k0: 0.0, k1: NAN, k2: 2.0, k3: 3.0 })` implements `Eq`, and `m == m` is false. -/
theorem c65_violated : ∃ item m,
    fzMacro (demoEnv Nat (Option Nat) none) true .short .ordered
      [nanEntry 0 (some 0), nanEntry 1 none, nanEntry 2 (some 2), nanEntry 3 (some 3)] = .ok (.ok item) ∧
    item.ctor.compile (F := Unit) natEq natCmp (fun _ _ => none) = some (.ok (.inl m)) ∧
    item.ctor.implMap u32Caps floatCaps .eq = true ∧
    (InlineMap.impl natTraits).eq (InlineMap.impl natTraits) nanEq m m = .ok false := by
  refine ⟨_, _, by cbv, by cbv, by cbv, by cbv⟩

attribute [local instance] w64 in
/-- **C66** (violated)  (a) The map of `fz_hash_map!` with four computed keys implements `Default` and `FromIterator`, that with three does
not; (b) the map of `fz_ordered_map!` with four computed keys and floating-point values implements `Eq`, that with three does not; (c)
`s.get(&x)` compiles for the set of `fz_hash_set!` with three computed elements, and not with four. -/
theorem c66_violated :
    (∃ item item', fzMacro (demoEnv Nat String "") true .short .hashed ((List.range 4).map exprEntry) = .ok (.ok item) ∧
      fzMacro (demoEnv Nat String "") true .short .hashed ((List.range 3).map exprEntry) = .ok (.ok item') ∧
      ∀ v, item.ctor.implMap u32Caps v .default = true ∧ item'.ctor.implMap u32Caps v .default = false ∧
        item.ctor.implMap u32Caps v .fromIter = true ∧ item'.ctor.implMap u32Caps v .fromIter = false) ∧
    (∃ item item', fzMacro (demoEnv Nat String "") true .short .ordered ((List.range 4).map exprEntry) = .ok (.ok item) ∧
      fzMacro (demoEnv Nat String "") true .short .ordered ((List.range 3).map exprEntry) = .ok (.ok item') ∧
      item.ctor.implMap u32Caps floatCaps .eq = true ∧ item'.ctor.implMap u32Caps floatCaps .eq = false) ∧
    (∃ item item', fzMacro (demoEnv Nat String "") false .short .hashed ((List.range 3).map exprEntry) = .ok (.ok item) ∧
      fzMacro (demoEnv Nat String "") false .short .hashed ((List.range 4).map exprEntry) = .ok (.ok item') ∧
      item.ctor.mapType.setResolves [] .get = true ∧ item'.ctor.mapType.setResolves [] .get = false) :=
  ⟨⟨_, _, by cbv, by cbv, fun v => ⟨by cbv, by cbv, by cbv, by cbv⟩⟩, ⟨_, _, by cbv, by cbv, by cbv, by cbv⟩,
    ⟨_, _, by cbv, by cbv, by cbv, by cbv⟩⟩

/-! ## Examples -/

/-- The hypotheses of the theorems about emitted collections at five computed ordered keys. -/
example : ∃ item, fzMacro (demoEnv Nat String "") true .short .ordered ((List.range 5).map exprEntry) = .ok (.ok item) ∧
    (∀ v : ValCaps, item.ctor.implMap u32Caps v .partialEq = true ↔ v.partialEq = true) ∧
    (∀ v : ValCaps, item.ctor.implMap u32Caps v .eq = true ↔ v.partialEq = true) ∧
    ¬ item.ctor.implMap u32Caps floatCaps .default = true := by
  have hi : ∃ item, fzMacro (demoEnv Nat String "") true .short .ordered ((List.range 5).map exprEntry) = .ok (.ok item) := ⟨_, by cbv⟩
  obtain ⟨item, hi⟩ := hi
  have hk : KeyFits .ordered (((List.range 5).map exprEntry).map (fun e => e.key)) u32Caps :=
    u32Caps_fits (by decide) (fun x hx => other_not_str (by simp [exprEntry] at hx; exact hx.2.symm))
  have hl : NoLits (((List.range 5).map exprEntry).map (fun e => e.key)) := by intro x hx l h; simp [exprEntry] at hx; obtain ⟨-, rfl⟩ := hx; cases h
  refine ⟨item, hi, fun v => c66_map_traits_partial (t := .partialEq) (by decide) hi hk v (by simp [OnlyBuilding]) (by simp),
    fun v => (c66_map_eq_iff (by decide) hi hk v).1 ⟨rfl, hl, by decide⟩, ?_⟩
  rw [(c66_building_iff (by decide) hi hk floatCaps).1]
  rintro (⟨h, -⟩ | ⟨h, -⟩ | ⟨h, -, -⟩)
  · rcases h.2.2.2 with h | ⟨x, hx, n, s, h⟩
    · cases h
    · exact hl x hx _ h
  · rcases h.2.2 with h | ⟨x, hx, s, h⟩
    · cases h
    · exact hl x hx _ h
  · cases h

/-- Key types that fit: one that is only `Hash + Eq` for hashed macros without literals, one that is only `Ord` for ordered ones, `&str` for
strings. -/
example : KeyFits .hashed [.other, .other] hashCaps ∧ KeyFits .ordered [.other] ordCaps ∧ KeyFits .string [.lit (.str []), .other] strCaps ∧
    ¬ KeyFits .hashed [.other] ordCaps ∧ ¬ KeyFits .string [.other] u32Caps := by
  have no1 : ∀ {n : Nat}, ¬ ∃ x ∈ List.replicate n KeySyntax.other, IsIntLit x := by
    rintro n ⟨x, hx, m, s, h⟩; rw [(List.mem_replicate.1 hx).2] at h; cases h
  have no2 : ∀ {n : Nat}, ¬ ∃ x ∈ List.replicate n KeySyntax.other, IsStrLit x := by
    rintro n ⟨x, hx, h⟩; exact other_not_str (List.mem_replicate.1 hx).2 h
  refine ⟨⟨⟨fun _ => rfl, fun h => by (cases h), fun h => by (cases h)⟩, ?_, ?_, fun _ => ⟨rfl, rfl⟩, fun h => by (cases h)⟩,
    ⟨⟨fun _ => rfl, fun _ => rfl, fun h => by cases h⟩, ?_, ?_, fun h => by (cases h), fun _ => rfl⟩,
    ⟨⟨fun _ => rfl, fun _ => rfl, fun h => by cases h⟩, ?_, fun _ => ⟨rfl, rfl, rfl, rfl, rfl, rfl, rfl, rfl⟩, fun h => by (cases h),
      fun h => by cases h⟩, fun h => ?_, fun h => ?_⟩
  · rintro (h | h)
    · cases h
    · exact absurd h (no1 (n := 2))
  · rintro (h | h)
    · cases h
    · exact absurd h (no2 (n := 2))
  · rintro (h | h)
    · cases h
    · exact absurd h (no1 (n := 1))
  · rintro (h | h)
    · cases h
    · exact absurd h (no2 (n := 1))
  · rintro (h | ⟨x, hx, m, s, h⟩)
    · cases h
    · simp at hx
      rcases hx with rfl | rfl <;> cases h
  · have := (h.hashed rfl).2; cases this
  · have := (h.strs (Or.inl rfl)).asRefStr; cases this

/-- Sets of integer literals: all of the traits, none of those for building. -/
example : ∃ item, fzMacro (demoEnv (BitVec 32) String "") false .short .hashed [intEntry 1, intEntry 2, intEntry 700] = .ok (.ok item) ∧
    (∀ t, ¬ OnlySetBuilding t → item.ctor.implSet u32Caps t = true) ∧ item.ctor.mapType.setResolves [] .get = true := by
  have hi : ∃ item, fzMacro (demoEnv (BitVec 32) String "") false .short .hashed [intEntry 1, intEntry 2, intEntry 700] = .ok (.ok item) :=
    ⟨_, by cbv⟩
  obtain ⟨item, hi⟩ := hi
  have hk : KeyFits .hashed ([intEntry 1, intEntry 2, intEntry 700].map (fun e => e.key)) u32Caps :=
    u32Caps_fits (by decide) (by
      rintro x hx ⟨v, h⟩
      simp [intEntry] at hx
      rcases hx with rfl | rfl | rfl <;> cases h)
  refine ⟨item, hi, fun t ht => (c66_set_traits_partial (by decide) hi hk ht).2 (by cases t <;> simp [SetNeeds, u32Caps]),
    ((c66_set_methods hi [] .get).2.2).2 ?_⟩
  rintro ⟨-, -, h⟩
  exact absurd h (by decide)

attribute [local instance] w64 in
/-- `ScanMap` with values that are `Eq`. -/
example : (ScanMap.impl natEq).eq (ScanMap.impl natEq) natEq (ScanMap.new natEq [(1, 2), (5, 3), (1, 4)])
    (ScanMap.new natEq [(1, 2), (5, 3), (1, 4)]) = .ok true :=
  have hb := Built.scan (es := [(1, 2), (5, 3), (1, 4)]) natEq_lawful natEq_query
  (c65_eq_is_equivalence_partial (k := u32Caps) (v := ⟨true, true, true, true, true, true⟩) (t := .scan) (by decide) rfl
    ⟨fun a b => Bool.beq_comm, fun a b c h h' => by rw [eq_of_beq h'] at *; exact h, fun _ a => beq_self_eq_true a⟩ hb hb hb).1

attribute [local instance] w64 in
/-- A set of three. -/
example : setEq ((inlineSetImpl (ScanMap.impl natEq)).view (ScanMap.new natEq (unitEntries [3, 1, 2])))
    ((inlineSetImpl (ScanMap.impl natEq)).view (ScanMap.new natEq (unitEntries [3, 1, 2]))) = .ok true :=
  have hb := BuiltSet.ofMap (Built.scan (es := unitEntries [3, 1, 2]) natEq_lawful natEq_query)
  (c65_sets hb hb hb).1

attribute [local instance] w64 in
/-- The hypotheses of `c65_emitted_iff` at the call of `c65_violated`. -/
example : ∃ item, fzMacro (demoEnv Nat (Option Nat) none) true .short .ordered
      [nanEntry 0 (some 0), nanEntry 1 none, nanEntry 2 (some 2), nanEntry 3 (some 3)] = .ok (.ok item) ∧
    item.ctor.implMap u32Caps floatCaps .eq = true ∧
    (ScanMap.impl natEq).eq (ScanMap.impl natEq) nanEq (ScanMap.new natEq [(0, some 0), (1, none)])
      (ScanMap.new natEq [(0, some 0), (1, none)]) = .ok false := by
  have hi : ∃ item, fzMacro (demoEnv Nat (Option Nat) none) true .short .ordered
      [nanEntry 0 (some 0), nanEntry 1 none, nanEntry 2 (some 2), nanEntry 3 (some 3)] = .ok (.ok item) := ⟨_, by cbv⟩
  obtain ⟨item, hi⟩ := hi
  have ho : ∀ x ∈ [nanEntry 0 (some 0), nanEntry 1 none, nanEntry 2 (some 2), nanEntry 3 (some 3)].map (fun e => e.key), x = .other := by
    intro x hx; simpa [nanEntry] using hx
  obtain ⟨h1, h2⟩ := c65_emitted_iff (M := ScanMap Nat (Option Nat)) (by decide) hi (u32Caps_fits (by decide) (fun x hx => other_not_str (ho x hx)))
    (v := floatCaps) rfl nanEq_ok (nan := none) rfl
  refine ⟨item, hi, h1.2 ⟨rfl, ?_, by decide⟩, ?_⟩
  · intro x hx l h; rw [ho x hx] at h; cases h
  · exact h2 (Built.scan (es := [(0, some 0), (1, none)]) natEq_lawful natEq_query) ⟨1, (1, none), by decide, rfl⟩

end Frozen.Props
