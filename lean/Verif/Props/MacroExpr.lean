import Verif.Props.Emit

/-! # C39, C48, C49: macros with non-literal keys, declared key types -/

namespace Frozen.Props

open Frozen.Spec Frozen.Model

variable {Q K V F : Type}

/-- The macro call expands to an item that compiles and evaluates to a map behaving like the entries `es`. -/
def MacroYields [Target] (r : MacroResult K V) (eqK : K → K → Bool) (cmp : K → K → Ordering) (fz : FzKind → List (K × V) → Option (Res F))
    (I : MapImpl (InlineMap K V ⊕ F) Q K V) (mt : Q → K → Bool) (es : List (K × V)) : Prop :=
  ∃ item m, r = .ok (.ok item) ∧ item.ctor.compile eqK cmp fz = some (.ok m) ∧ Behaves I m eqK mt es

/-- The macro call expands to an item that compiles and panics when evaluated. -/
def MacroPanics [Target] (r : MacroResult K V) (eqK : K → K → Bool) (cmp : K → K → Ordering) (fz : FzKind → List (K × V) → Option (Res F)) : Prop :=
  ∃ item msg, r = .ok (.ok item) ∧ item.ctor.compile eqK cmp fz = some (.error (.panic msg))

/-- The keys that the macro call evaluates are pairwise different. -/
def DistinctKeys (eqK : K → K → Bool) (entries : List (MacroEntry K V)) : Prop := Distinct eqK (entries.map (fun e => e.keyValue))

/-- Only maps have values. -/
def SetValues (isMap : Bool) (entries : List (MacroEntry K V)) : Prop := isMap = false → ∀ e ∈ entries, e.value = none

theorem macroWritten_keys (isMap : Bool) (unit : V) (entries : List (MacroEntry K V)) :
    (macroWritten isMap unit entries).map (fun e => e.1) = entries.map (fun e => e.keyValue) := by
  unfold macroWritten
  rw [List.map_map]
  rfl

theorem exprEntries_length (unit : V) (entries : List (MacroEntry K V)) : (exprEntries unit entries).length = entries.length := by
  unfold exprEntries
  rw [List.length_map]

theorem macroWritten_length (isMap : Bool) (unit : V) (entries : List (MacroEntry K V)) :
    (macroWritten isMap unit entries).length = entries.length := by
  unfold macroWritten
  rw [List.length_map]

/-- What a constructor with an inline scan map does. -/
theorem scanVec_yields [Target] {em : Emitter} {isMap : Bool} {unit : V} {entries : List (MacroEntry K V)} (hset : SetValues isMap entries)
    (hn : entries.length < sizeLimit) {eqK : K → K → Bool} (cmp : K → K → Ordering) (fz : FzKind → List (K × V) → Option (Res F))
    {r : MacroResult K V} (hr : r = .ok (.ok (itemOf em ((Generator.new (exprEntries unit entries).length).genScanVec (exprEntries unit entries))))) :
    (¬ DistinctKeys eqK entries → MacroPanics r eqK cmp fz) ∧
    (DistinctKeys eqK entries → ∀ {q : QueryTraits Q K} {J : MapImpl F Q K V}, LawfulEq' eqK → LawfulQuery eqK q.equivalent →
      MacroYields r eqK cmp fz (sumImpl (InlineMap.impl q) J) q.equivalent (macroWritten isMap unit entries)) := by
  have hc := scanVec_compile (S := exprEntries unit entries) (by rw [exprEntries_length]; exact hn) eqK cmp fz (exprEntries_tokens hset)
  obtain ⟨h1, h2⟩ := scanNew_outcome (eqK := eqK) (es := macroWritten isMap unit entries)
  rw [macroWritten_keys] at h1 h2
  constructor
  · intro hd
    obtain ⟨msg, hm⟩ := h2 hd
    refine ⟨_, msg, hr, ?_⟩
    rw [itemOf_ctor, hc, hm]
    rfl
  · intro hd q J he hq
    obtain ⟨m, hm⟩ := h1 hd
    refine ⟨_, .inl m, hr, ?_, Behaves.inl (Built.inlineScan he hq hm).behaves⟩
    rw [itemOf_ctor, hc, hm]
    rfl

/-- What a constructor with an inline Eytzinger map does. -/
theorem eytzingerVec_yields [Target] {em : Emitter} {isMap : Bool} {unit : V} {entries : List (MacroEntry K V)} (hset : SetValues isMap entries)
    (hn : entries.length < sizeLimit) {cmp : K → K → Ordering} (hcm : LawfulCmp cmp) (fz : FzKind → List (K × V) → Option (Res F))
    {r : MacroResult K V}
    (hr : r = .ok (.ok (itemOf em ((Generator.new (exprEntries unit entries).length).genEytzingerVec (exprEntries unit entries))))) :
    (¬ DistinctKeys (fun a b => cmp a b == .eq) entries → MacroPanics r (fun a b => cmp a b == .eq) cmp fz) ∧
    (DistinctKeys (fun a b => cmp a b == .eq) entries → ∀ {q : QueryTraits Q K} {J : MapImpl F Q K V}, LawfulQueryCmp cmp q.compare →
      MacroYields r (fun a b => cmp a b == .eq) cmp fz (sumImpl (InlineMap.impl q) J) (fun x k => q.compare x k == .eq)
        (macroWritten isMap unit entries)) := by
  have hc := eytzingerVec_compile (S := exprEntries unit entries) (by rw [exprEntries_length]; exact hn) (fun a b => cmp a b == .eq) cmp fz
    (exprEntries_tokens hset)
  obtain ⟨h1, h2⟩ := eytzingerNew_outcome hcm (es := macroWritten isMap unit entries)
  rw [macroWritten_keys] at h1 h2
  constructor
  · intro hd
    obtain ⟨msg, hm⟩ := h2 hd
    refine ⟨_, msg, hr, ?_⟩
    rw [itemOf_ctor, hc, hm]
    rfl
  · intro hd q J hq
    obtain ⟨m, hm⟩ := h1 hd
    refine ⟨_, .inl m, hr, ?_, Behaves.inl (Built.inlineEytzinger hcm hq hm).behaves⟩
    rw [itemOf_ctor, hc, hm]
    rfl

theorem compile_fz [Target] (kind : FzKind) (es : List (K × V)) (eqK : K → K → Bool) (cmp : K → K → Ordering)
    (fz : FzKind → List (K × V) → Option (Res F)) : (Emitted.fz kind es).compile eqK cmp fz = (fz kind es).map inrRes := rfl

/-- What a constructor with an `Fz` map does. -/
theorem fz_yields [Target] {em : Emitter} {isMap : Bool} {unit : V} {entries : List (MacroEntry K V)} (hset : SetValues isMap entries)
    {kind : FzKind} {eqK : K → K → Bool} {cmp : K → K → Ordering} {fz : FzKind → List (K × V) → Option (Res F)} {g : Generator}
    {r : MacroResult K V} (hr : r = .ok (.ok (itemOf em (g.genFz kind (exprEntries unit entries))))) {m : F}
    (hfz : fz kind (macroWritten isMap unit entries) = some (.ok m)) {I : MapImpl (InlineMap K V) Q K V} {J : MapImpl F Q K V}
    {mt : Q → K → Bool} (hb : Behaves J m eqK mt (macroWritten isMap unit entries)) :
    MacroYields r eqK cmp fz (sumImpl I J) mt (macroWritten isMap unit entries) := by
  refine ⟨_, .inr m, hr, ?_, Behaves.inr hb⟩
  rw [itemOf_ctor]
  unfold Generator.genFz
  rw [exprEntries_tokens hset, compile_fz, hfz]
  rfl

/-! ## C39 -/

attribute [local instance] w64 in
/-- **C39** (hashed keys), for pairwise different keys or at least four entries. -/
theorem c39_hash_partial {env : MacroEnv K V} {isMap : Bool} {form : MacroForm} {entries : List (MacroEntry K V)}
    (hk : NoLits (entries.map (fun e => e.key))) (hne : entries ≠ []) (hset : SetValues isMap entries) (hn : entries.length < sizeLimit)
    {find : HbFind} (hfind : HbFindOk find) {sort : Sorter (K × V)} (hsort : SorterOk sort) {eqK : K → K → Bool} (he : LawfulEq' eqK)
    {q : QueryTraits Q K} (hq : LawfulQuery eqK q.equivalent) {hK : K → Nat} {hQ : Q → Nat} (hh : LawfulHash eqK q.equivalent hK hQ)
    {cmp : K → K → Ordering} {fz : FzKind → List (K × V) → Option (Res (HashMap K V))}
    (hfz : ∀ es, fz .hash es = some (FzHashMap.withHasher find sort eqK hK es))
    (hd : DistinctKeys eqK entries ∨ 4 ≤ entries.length) :
    MacroYields (fzMacro env isMap form .hashed entries) eqK cmp fz (sumImpl (InlineMap.impl q) (FzHashMap.impl hQ q.equivalent))
      q.equivalent (macroWritten isMap env.unit entries) := by
  have ha := (c42_classes (by simpa using hne)).2.2.2.2.1.2 ⟨rfl, hk⟩
  have hr : fzMacro env isMap form .hashed entries = _ :=
    (process_of_assess hne ha).trans (Emitter.finish_ok (form_valid isMap form false false) rfl)
  by_cases hlt : entries.length < 4
  · rw [exprEntries_length, if_pos hlt, ← exprEntries_length env.unit] at hr
    exact (scanVec_yields hset hn cmp fz hr).2 (hd.resolve_right (by omega)) he hq
  · rw [exprEntries_length, if_neg hlt] at hr
    obtain ⟨m, h1, -, -⟩ := FzHashMap.withHasher_spec hfind hsort he hh.key (macroWritten isMap env.unit entries)
      (by rw [macroWritten_length]; exact hn)
    exact fz_yields hset hr (by rw [hfz, h1])
      (Built.fzHash hfind hsort he hq hh (by rw [macroWritten_length]; exact hn) h1).behaves

attribute [local instance] w64 in
/-- **C39** is false for fewer than four hashed keys of which two are equal: the program panics. -/
theorem c39_hash_panics {env : MacroEnv K V} {isMap : Bool} {form : MacroForm} {entries : List (MacroEntry K V)}
    (hk : NoLits (entries.map (fun e => e.key))) (hne : entries ≠ []) (hset : SetValues isMap entries) (hn : entries.length < 4)
    {eqK : K → K → Bool} (hd : ¬ DistinctKeys eqK entries) (cmp : K → K → Ordering) (fz : FzKind → List (K × V) → Option (Res F)) :
    MacroPanics (fzMacro env isMap form .hashed entries) eqK cmp fz := by
  have ha := (c42_classes (by simpa using hne)).2.2.2.2.1.2 ⟨rfl, hk⟩
  have hr : fzMacro env isMap form .hashed entries = _ :=
    (process_of_assess hne ha).trans (Emitter.finish_ok (form_valid isMap form false false) rfl)
  rw [exprEntries_length, if_pos hn, ← exprEntries_length env.unit] at hr
  exact (scanVec_yields (Q := K) hset (by have := limits_w64; omega) cmp fz hr).1 hd

attribute [local instance] w64 in
/-- **C39** (ordered keys), for pairwise different keys. -/
theorem c39_ordered_partial {env : MacroEnv K V} {isMap : Bool} {form : MacroForm} {entries : List (MacroEntry K V)}
    (hk : NoLits (entries.map (fun e => e.key))) (hne : entries ≠ []) (hset : SetValues isMap entries) (hn : entries.length < sizeLimit)
    {cmp : K → K → Ordering} (hc : LawfulCmp cmp) {q : QueryTraits Q K} (hq : LawfulQueryCmp cmp q.compare)
    (heqv : q.equivalent = fun x k => q.compare x k == .eq) {fz : FzKind → List (K × V) → Option (Res F)} {J : MapImpl F Q K V}
    (hd : DistinctKeys (fun a b => cmp a b == .eq) entries) :
    MacroYields (fzMacro env isMap form .ordered entries) (fun a b => cmp a b == .eq) cmp fz (sumImpl (InlineMap.impl q) J)
      q.equivalent (macroWritten isMap env.unit entries) := by
  have ha := (c42_classes (by simpa using hne)).2.2.2.2.2.2 ⟨rfl, hk⟩
  have hr : fzMacro env isMap form .ordered entries = _ :=
    (process_of_assess hne ha).trans (Emitter.finish_ok (form_valid isMap form false false) rfl)
  by_cases hlt : entries.length < 4
  · rw [exprEntries_length, if_pos hlt, ← exprEntries_length env.unit] at hr
    exact (scanVec_yields hset hn cmp fz hr).2 hd (LawfulCmp'.eqLawful hc) (by rw [heqv]; exact hq.query)
  · rw [exprEntries_length, if_neg hlt, ← exprEntries_length env.unit] at hr
    rw [heqv]
    exact (eytzingerVec_yields hset hn hc fz hr).2 hd hq

attribute [local instance] w64 in
/-- **C39** is false for ordered keys of which two are equal, whatever their number. -/
theorem c39_ordered_panics {env : MacroEnv K V} {isMap : Bool} {form : MacroForm} {entries : List (MacroEntry K V)}
    (hk : NoLits (entries.map (fun e => e.key))) (hne : entries ≠ []) (hset : SetValues isMap entries) (hn : entries.length < sizeLimit)
    {cmp : K → K → Ordering} (hc : LawfulCmp cmp) (hd : ¬ DistinctKeys (fun a b => cmp a b == .eq) entries)
    (fz : FzKind → List (K × V) → Option (Res F)) :
    MacroPanics (fzMacro env isMap form .ordered entries) (fun a b => cmp a b == .eq) cmp fz := by
  have ha := (c42_classes (by simpa using hne)).2.2.2.2.2.2 ⟨rfl, hk⟩
  have hr : fzMacro env isMap form .ordered entries = _ :=
    (process_of_assess hne ha).trans (Emitter.finish_ok (form_valid isMap form false false) rfl)
  by_cases hlt : entries.length < 4
  · rw [exprEntries_length, if_pos hlt, ← exprEntries_length env.unit] at hr
    exact (scanVec_yields (Q := K) hset hn cmp fz hr).1 hd
  · rw [exprEntries_length, if_neg hlt, ← exprEntries_length env.unit] at hr
    exact (eytzingerVec_yields (Q := K) hset hn hc fz hr).1 hd

attribute [local instance] w64 in
/-- **C39** (scalar keys of which some are no literals), for pairwise different keys or at least eight entries; keys that span the whole
range are excluded in the latter case (see C18). -/
theorem c39_scalar_partial {env : MacroEnv K V} {isMap : Bool} {form : MacroForm} {kind : MacroKind} {entries : List (MacroEntry K V)}
    (hk : MixedInts kind (entries.map (fun e => e.key))) (hne : entries ≠ []) (hset : SetValues isMap entries)
    (hn : entries.length < tableLimit) {b : Build} {sort : Sorter (K × V)} (hsort : SorterOk sort) {cmp : K → K → Ordering} {index : K → Nat}
    (hs : LawfulScalar cmp index) {q : QueryTraits Q K} (heqv : q.equivalent = scalarMatch index q.index)
    {fz : FzKind → List (K × V) → Option (Res (FzScalarMap K V))}
    (hfz : ∀ es, fz .scalar es = some (FzScalarMap.new b sort cmp index es))
    (hd : DistinctKeys (fun a b => cmp a b == .eq) entries ∨ 8 ≤ entries.length)
    (hspan : 8 ≤ entries.length → ∀ x ∈ entries, ∀ y ∈ entries, index x.keyValue - index y.keyValue < usizeMax) :
    MacroYields (fzMacro env isMap form kind entries) (fun a b => cmp a b == .eq) cmp fz
      (sumImpl (InlineMap.impl q) (FzScalarMap.impl q.index (scalarMatch index q.index))) q.equivalent
      (macroWritten isMap env.unit entries) := by
  have ha := (c42_classes (by simpa using hne)).2.2.1.2 hk
  have hr : fzMacro env isMap form kind entries = _ :=
    (process_of_assess hne ha).trans (Emitter.finish_ok (form_valid isMap form false false) rfl)
  have hq : LawfulQuery (fun a b => cmp a b == .eq) q.equivalent := by rw [heqv]; exact hs.query q.index
  by_cases hlt : entries.length < 8
  · rw [exprEntries_length, if_pos hlt, ← exprEntries_length env.unit] at hr
    exact (scanVec_yields hset (by have := limits_w64; omega) cmp fz hr).2 (hd.resolve_right (by omega)) (LawfulCmp'.eqLawful hs.lawfulCmp) hq
  · rw [exprEntries_length, if_neg hlt] at hr
    have hl : (macroWritten isMap env.unit entries).length < 2 ^ 56 := by rw [macroWritten_length]; exact hn
    have hsp : ∀ x ∈ macroWritten isMap env.unit entries, ∀ y ∈ macroWritten isMap env.unit entries,
        index x.1 - index y.1 < usizeMax := by
      intro x hx y hy
      unfold macroWritten at hx hy
      obtain ⟨e, he, rfl⟩ := List.mem_map.1 hx
      obtain ⟨e', he', rfl⟩ := List.mem_map.1 hy
      exact hspan (by omega) e he e' he'
    obtain ⟨m, h1, -, -⟩ := FzScalarMap.new_spec b hsort hs (macroWritten isMap env.unit entries) hl hsp
    refine fz_yields hset hr (by rw [hfz, h1]) ?_
    rw [heqv]
    exact (Built.fzScalar hsort hs hl h1).behaves

attribute [local instance] w64 in
/-- **C39** is false for fewer than eight scalar keys of which two are equal. -/
theorem c39_scalar_panics {env : MacroEnv K V} {isMap : Bool} {form : MacroForm} {kind : MacroKind} {entries : List (MacroEntry K V)}
    (hk : MixedInts kind (entries.map (fun e => e.key))) (hne : entries ≠ []) (hset : SetValues isMap entries) (hn : entries.length < 8)
    {eqK : K → K → Bool} (hd : ¬ DistinctKeys eqK entries) (cmp : K → K → Ordering) (fz : FzKind → List (K × V) → Option (Res F)) :
    MacroPanics (fzMacro env isMap form kind entries) eqK cmp fz := by
  have ha := (c42_classes (by simpa using hne)).2.2.1.2 hk
  have hr : fzMacro env isMap form kind entries = _ :=
    (process_of_assess hne ha).trans (Emitter.finish_ok (form_valid isMap form false false) rfl)
  rw [exprEntries_length, if_pos hn, ← exprEntries_length env.unit] at hr
  exact (scanVec_yields (Q := K) hset (by have := limits_w64; omega) cmp fz hr).1 hd

attribute [local instance] w64 in
/-- **C39** (string keys of which some are no literals): fewer than four pairwise different keys. -/
theorem c39_string_small_partial {env : MacroEnv K V} {isMap : Bool} {form : MacroForm} {kind : MacroKind} {entries : List (MacroEntry K V)}
    (hk : MixedStrs kind (entries.map (fun e => e.key))) (hne : entries ≠ []) (hset : SetValues isMap entries) (hn : entries.length < 4)
    {bytesK : K → Str} {q : QueryTraits Q K} (heqv : q.equivalent = fun x k => q.bytes x == bytesK k) {cmp : K → K → Ordering}
    {fz : FzKind → List (K × V) → Option (Res F)} {J : MapImpl F Q K V} (hd : DistinctKeys (fun a b => bytesK a == bytesK b) entries) :
    MacroYields (fzMacro env isMap form kind entries) (fun a b => bytesK a == bytesK b) cmp fz (sumImpl (InlineMap.impl q) J) q.equivalent
      (macroWritten isMap env.unit entries) := by
  have ha := (c42_classes (by simpa using hne)).2.2.2.1.2 hk
  have hr : fzMacro env isMap form kind entries = _ :=
    (process_of_assess hne ha).trans (Emitter.finish_ok (form_valid isMap form false false) rfl)
  rw [exprEntries_length, if_pos hn, ← exprEntries_length env.unit] at hr
  exact (scanVec_yields hset (by have := limits_w64; omega) cmp fz hr).2 hd (strEq_lawful.comap bytesK)
    (by rw [heqv]; exact ⟨fun q a b h => by rw [eq_of_beq h]⟩)

attribute [local instance] w64 in
/-- **C39** (string keys): four keys or more, equal or not.  The map owns copies of the keys. -/
theorem c39_string_large {env : MacroEnv K V} {isMap : Bool} {form : MacroForm} {kind : MacroKind} {entries : List (MacroEntry K V)}
    (hk : MixedStrs kind (entries.map (fun e => e.key))) (hne : entries ≠ []) (hset : SetValues isMap entries) (h4 : 4 ≤ entries.length)
    (hn : entries.length < sizeLimit) {kt : StrKeyType} (hkt : kt ≠ .other) {sort : Sorter (Str × V)} (hsort : SorterOk sort)
    (bhStr bhSlice : Str → Nat) (bytesK : K → Str) (eqK : K → K → Bool) (cmp : K → K → Ordering) :
    ∃ item m, fzMacro env isMap form kind entries = .ok (.ok item) ∧
      item.ctor.compile eqK cmp (fzStringCtor kt sort bhStr bhSlice bytesK) = some (.ok (.inr m)) ∧
      Behaves (FzStringMap.impl bhStr bhSlice) m (fun a b => a == b) (fun a b => a == b)
        ((macroWritten isMap env.unit entries).map (fun e => (bytesK e.1, e.2))) := by
  have ha := (c42_classes (by simpa using hne)).2.2.2.1.2 hk
  have hr : fzMacro env isMap form kind entries = _ :=
    (process_of_assess hne ha).trans (Emitter.finish_ok (form_valid isMap form false false) rfl)
  rw [exprEntries_length, if_neg (by omega)] at hr
  have hl : ((macroWritten isMap env.unit entries).map (fun e => (bytesK e.1, e.2))).length < 2 ^ 60 := by
    rw [List.length_map, macroWritten_length]; exact hn
  obtain ⟨m, h1, -, -⟩ := FzStringMap.withHasher_spec hsort bhStr bhSlice _ hl
  refine ⟨_, m, hr, ?_, (Built.fzString hsort hl h1).behaves⟩
  rw [itemOf_ctor]
  unfold Generator.genFz
  have hx : FzStringMap.newExists kt = true := by cases kt <;> first | rfl | exact absurd rfl hkt
  rw [exprEntries_tokens hset, compile_fz]
  dsimp only [fzStringCtor]
  rw [if_pos hx, h1]
  rfl

attribute [local instance] w64 in
/-- **C39** is false for fewer than four string keys of which two are equal. -/
theorem c39_string_panics {env : MacroEnv K V} {isMap : Bool} {form : MacroForm} {kind : MacroKind} {entries : List (MacroEntry K V)}
    (hk : MixedStrs kind (entries.map (fun e => e.key))) (hne : entries ≠ []) (hset : SetValues isMap entries) (hn : entries.length < 4)
    {eqK : K → K → Bool} (hd : ¬ DistinctKeys eqK entries) (cmp : K → K → Ordering) (fz : FzKind → List (K × V) → Option (Res F)) :
    MacroPanics (fzMacro env isMap form kind entries) eqK cmp fz := by
  have ha := (c42_classes (by simpa using hne)).2.2.2.1.2 hk
  have hr : fzMacro env isMap form kind entries = _ :=
    (process_of_assess hne ha).trans (Emitter.finish_ok (form_valid isMap form false false) rfl)
  rw [exprEntries_length, if_pos hn, ← exprEntries_length env.unit] at hr
  exact (scanVec_yields (Q := K) hset (by have := limits_w64; omega) cmp fz hr).1 hd

/-- A macro call cannot both yield a collection and panic. -/
theorem macroYields_not_panics [Target] {r : MacroResult K V} {eqK : K → K → Bool} {cmp : K → K → Ordering}
    {fz : FzKind → List (K × V) → Option (Res F)} {I : MapImpl (InlineMap K V ⊕ F) Q K V} {mt : Q → K → Bool} {es : List (K × V)}
    (h : MacroYields r eqK cmp fz I mt es) : ¬ MacroPanics r eqK cmp fz := by
  obtain ⟨item, m, h1, h2, _⟩ := h
  rintro ⟨item', msg, h3, h4⟩
  rw [h1] at h3
  cases h3
  rw [h2] at h4
  cases h4

attribute [local instance] w64 in
/-- **C39**, hashed keys, exactly: `fz_hash_map!` with computed keys yields the collection if and only if the keys are different or
there are at least four of them; otherwise it panics. -/
theorem c39_hash_iff {env : MacroEnv K V} {isMap : Bool} {form : MacroForm} {entries : List (MacroEntry K V)}
    (hk : NoLits (entries.map (fun e => e.key))) (hne : entries ≠ []) (hset : SetValues isMap entries) (hn : entries.length < sizeLimit)
    {find : HbFind} (hfind : HbFindOk find) {sort : Sorter (K × V)} (hsort : SorterOk sort) {eqK : K → K → Bool} (he : LawfulEq' eqK)
    {q : QueryTraits Q K} (hq : LawfulQuery eqK q.equivalent) {hK : K → Nat} {hQ : Q → Nat} (hh : LawfulHash eqK q.equivalent hK hQ)
    {cmp : K → K → Ordering} {fz : FzKind → List (K × V) → Option (Res (HashMap K V))}
    (hfz : ∀ es, fz .hash es = some (FzHashMap.withHasher find sort eqK hK es)) :
    (MacroYields (fzMacro env isMap form .hashed entries) eqK cmp fz (sumImpl (InlineMap.impl q) (FzHashMap.impl hQ q.equivalent))
      q.equivalent (macroWritten isMap env.unit entries) ↔ DistinctKeys eqK entries ∨ 4 ≤ entries.length) ∧
    (MacroPanics (fzMacro env isMap form .hashed entries) eqK cmp fz ↔ ¬ DistinctKeys eqK entries ∧ entries.length < 4) := by
  have hy := fun hd => c39_hash_partial (env := env) (isMap := isMap) (form := form) (cmp := cmp) hk hne hset hn hfind hsort he hq hh hfz hd
  have hp := fun h1 h2 => c39_hash_panics (env := env) (isMap := isMap) (form := form) hk hne hset h1 (eqK := eqK) h2 cmp fz
  refine ⟨⟨fun h => ?_, hy⟩, fun h => ?_, fun h => hp h.2 h.1⟩
  · by_cases h4 : entries.length < 4
    · by_cases hd : DistinctKeys eqK entries
      · exact .inl hd
      · exact absurd (hp h4 hd) (macroYields_not_panics h)
    · exact .inr (by omega)
  · refine ⟨fun hd => macroYields_not_panics (hy (.inl hd)) h, ?_⟩
    by_cases h4 : entries.length < 4
    · exact h4
    · exact absurd h (macroYields_not_panics (hy (.inr (by omega))))

attribute [local instance] w64 in
/-- **C39**, ordered keys, exactly: `fz_ordered_map!` with computed keys yields the collection if and only if the keys are different,
whatever their number; otherwise it panics. -/
theorem c39_ordered_iff {env : MacroEnv K V} {isMap : Bool} {form : MacroForm} {entries : List (MacroEntry K V)}
    (hk : NoLits (entries.map (fun e => e.key))) (hne : entries ≠ []) (hset : SetValues isMap entries) (hn : entries.length < sizeLimit)
    {cmp : K → K → Ordering} (hc : LawfulCmp cmp) {q : QueryTraits Q K} (hq : LawfulQueryCmp cmp q.compare)
    (heqv : q.equivalent = fun x k => q.compare x k == .eq) {fz : FzKind → List (K × V) → Option (Res F)} {J : MapImpl F Q K V} :
    (MacroYields (fzMacro env isMap form .ordered entries) (fun a b => cmp a b == .eq) cmp fz (sumImpl (InlineMap.impl q) J)
      q.equivalent (macroWritten isMap env.unit entries) ↔ DistinctKeys (fun a b => cmp a b == .eq) entries) ∧
    (MacroPanics (fzMacro env isMap form .ordered entries) (fun a b => cmp a b == .eq) cmp fz ↔
      ¬ DistinctKeys (fun a b => cmp a b == .eq) entries) := by
  have hy := fun hd => c39_ordered_partial (env := env) (isMap := isMap) (form := form) (fz := fz) (J := J) hk hne hset hn hc hq heqv hd
  have hp := fun h2 => c39_ordered_panics (env := env) (isMap := isMap) (form := form) hk hne hset hn hc h2 fz
  refine ⟨⟨fun h => ?_, hy⟩, fun h hd => macroYields_not_panics (hy hd) h, hp⟩
  by_contra hd
  exact macroYields_not_panics h (hp hd)

attribute [local instance] w64 in
/-- **C39**, scalar keys, exactly (keys whose indices do not span all of `usize`, see C18): the collection is yielded if and only if the
keys are different or there are at least eight of them; otherwise it panics. -/
theorem c39_scalar_iff {env : MacroEnv K V} {isMap : Bool} {form : MacroForm} {kind : MacroKind} {entries : List (MacroEntry K V)}
    (hk : MixedInts kind (entries.map (fun e => e.key))) (hne : entries ≠ []) (hset : SetValues isMap entries)
    (hn : entries.length < tableLimit) {b : Build} {sort : Sorter (K × V)} (hsort : SorterOk sort) {cmp : K → K → Ordering} {index : K → Nat}
    (hs : LawfulScalar cmp index) {q : QueryTraits Q K} (heqv : q.equivalent = scalarMatch index q.index)
    {fz : FzKind → List (K × V) → Option (Res (FzScalarMap K V))}
    (hfz : ∀ es, fz .scalar es = some (FzScalarMap.new b sort cmp index es))
    (hspan : 8 ≤ entries.length → ∀ x ∈ entries, ∀ y ∈ entries, index x.keyValue - index y.keyValue < usizeMax) :
    (MacroYields (fzMacro env isMap form kind entries) (fun a b => cmp a b == .eq) cmp fz
      (sumImpl (InlineMap.impl q) (FzScalarMap.impl q.index (scalarMatch index q.index))) q.equivalent
      (macroWritten isMap env.unit entries) ↔ DistinctKeys (fun a b => cmp a b == .eq) entries ∨ 8 ≤ entries.length) ∧
    (MacroPanics (fzMacro env isMap form kind entries) (fun a b => cmp a b == .eq) cmp fz ↔
      ¬ DistinctKeys (fun a b => cmp a b == .eq) entries ∧ entries.length < 8) := by
  have hy := fun hd => c39_scalar_partial (env := env) (isMap := isMap) (form := form) hk hne hset hn hsort hs heqv hfz hd hspan
  have hp := fun h1 h2 => c39_scalar_panics (env := env) (isMap := isMap) (form := form) hk hne hset h1
    (eqK := fun a b => cmp a b == .eq) h2 cmp fz
  refine ⟨⟨fun h => ?_, hy⟩, fun h => ?_, fun h => hp h.2 h.1⟩
  · by_cases h4 : entries.length < 8
    · by_cases hd : DistinctKeys (fun a b => cmp a b == .eq) entries
      · exact .inl hd
      · exact absurd (hp h4 hd) (macroYields_not_panics h)
    · exact .inr (by omega)
  · refine ⟨fun hd => macroYields_not_panics (hy (.inl hd)) h, ?_⟩
    by_cases h4 : entries.length < 8
    · exact h4
    · exact absurd h (macroYields_not_panics (hy (.inr (by omega))))

attribute [local instance] w64 in
/-- **C39**, string keys, exactly (key type `Box<str>` or inferred, see C48): the call panics if and only if two keys are equal and there
are fewer than four. -/
theorem c39_string_iff {env : MacroEnv K V} {isMap : Bool} {form : MacroForm} {kind : MacroKind} {entries : List (MacroEntry K V)}
    (hk : MixedStrs kind (entries.map (fun e => e.key))) (hne : entries ≠ []) (hset : SetValues isMap entries)
    (hn : entries.length < sizeLimit) {kt : StrKeyType} (hkt : kt ≠ .other) {sort : Sorter (Str × V)} (hsort : SorterOk sort)
    (bhStr bhSlice : Str → Nat) (bytesK : K → Str) (cmp : K → K → Ordering) :
    MacroPanics (fzMacro env isMap form kind entries) (fun a b => bytesK a == bytesK b) cmp
      (fzStringCtor kt sort bhStr bhSlice bytesK) ↔
      ¬ DistinctKeys (fun a b => bytesK a == bytesK b) entries ∧ entries.length < 4 := by
  refine ⟨fun h => ?_, fun h => c39_string_panics hk hne hset h.2 h.1 cmp _⟩
  by_cases h4 : entries.length < 4
  · refine ⟨fun hd => ?_, h4⟩
    let q : QueryTraits K K := ⟨fun a b => bytesK a == bytesK b, fun _ _ => .eq, fun _ => 0, fun _ _ => 0, bytesK, fun _ _ => 0⟩
    exact macroYields_not_panics (c39_string_small_partial (q := q) (J := ⟨fun _ _ => .ok none, fun _ _ => .ok none, fun _ _ => .ok none,
      fun _ _ => .ok false, fun _ => 0, fun _ => [], fun m _ _ => m⟩) hk hne hset h4 rfl hd) h
  · obtain ⟨item, m, h1, h2, _⟩ := c39_string_large (env := env) (isMap := isMap) (form := form) hk hne hset (by omega) hn hkt hsort
      bhStr bhSlice bytesK (fun a b => bytesK a == bytesK b) cmp
    obtain ⟨item', msg, h3, h5⟩ := h
    rw [h1] at h3
    cases h3
    rw [h2] at h5
    cases h5

attribute [local instance] w64 in
/-- **C39** refuted: `fz_hash_map!({ a: "x", b: "y" })` panics when `a` and `b` are equal numbers, and so does `fz_ordered_map!` with five
keys of which two are equal. -/
theorem c39_refuted :
    MacroPanics (F := Unit) (fzMacro (demoEnv Nat String "") true .short .hashed [⟨.other, 1, some "x"⟩, ⟨.other, 1, some "y"⟩])
      natEq natCmp (fun _ _ => none) ∧
    MacroPanics (F := Unit) (fzMacro (demoEnv Nat String "") true .short .ordered
        [⟨.other, 1, some "x"⟩, ⟨.other, 2, some "y"⟩, ⟨.other, 3, some "z"⟩, ⟨.other, 1, some "v"⟩, ⟨.other, 4, some "w"⟩])
      (fun a b => natCmp a b == .eq) natCmp (fun _ _ => none) := by
  constructor
  · exact c39_hash_panics (by intro k hk l h; simp at hk; subst hk; cases h) (by simp) (by intro h; cases h) (by decide)
      (by unfold DistinctKeys Distinct; decide) _ _
  · exact c39_ordered_panics (by intro k hk l h; simp at hk; subst hk; cases h) (by simp) (by intro h; cases h) (by decide)
      natCmp_lawful (by unfold DistinctKeys Distinct; decide) _

attribute [local instance] w64 in
/-- Four keys, two of them equal: fine. -/
example : MacroYields (fzMacro (demoEnv Nat String "") true .short .hashed
      [⟨.other, 1, some "x"⟩, ⟨.other, 1, some "y"⟩, ⟨.other, 2, some "z"⟩, ⟨.other, 3, some "w"⟩]) natEq natCmp
    (fun _ es => some (FzHashMap.withHasher listFind slotSort natEq (fun x => x) es))
    (sumImpl (InlineMap.impl natTraits) (FzHashMap.impl (fun x => x) natEq)) natEq [(1, "x"), (1, "y"), (2, "z"), (3, "w")] :=
  c39_hash_partial (q := natTraits) (by intro k hk l h; simp at hk; subst hk; cases h) (by simp) (by intro h; cases h) (by decide)
    listFind_ok slotSort_ok natEq_lawful natEq_query (natEq_hash _) (fun _ => rfl) (Or.inr (by decide))

attribute [local instance] w64 in
/-- Five different ordered keys. -/
example : MacroYields (F := Unit) (fzMacro (demoEnv Nat String "") true .short .ordered
      [⟨.other, 9, some "x"⟩, ⟨.other, 2, some "y"⟩, ⟨.other, 3, some "z"⟩, ⟨.other, 1, some "v"⟩, ⟨.other, 4, some "w"⟩])
    (fun a b => natCmp a b == .eq) natCmp (fun _ _ => none)
    (sumImpl (InlineMap.impl natTraits) ⟨fun _ _ => .ok none, fun _ _ => .ok none, fun _ _ => .ok none, fun _ _ => .ok false, fun _ => 0,
      fun _ => [], fun m _ _ => m⟩) natEq [(9, "x"), (2, "y"), (3, "z"), (1, "v"), (4, "w")] :=
  c39_ordered_partial (q := natTraits) (by intro k hk l h; simp at hk; subst hk; cases h) (by simp) (by intro h; cases h) (by decide)
    natCmp_lawful natCmp_query (by funext a b; by_cases h : a = b <;> simp [natTraits, natEq, natCmp, h]) (by unfold DistinctKeys Distinct; decide)

attribute [local instance] w64 in
/-- Two equal scalar keys, one of them a literal: `fz_scalar_map!({ 1: "x", one(): "y" })` panics; with eight entries it does not. -/
example : MacroPanics (F := Unit) (fzMacro (demoEnv Nat String "") true .short .scalar [⟨.lit (.int 1 ""), 1, some "x"⟩, ⟨.other, 1, some "y"⟩])
    natEq natCmp (fun _ _ => none) :=
  c39_scalar_panics ((c42_classes (by simp)).2.2.1.1 rfl) (by simp) (by intro h; cases h) (by decide)
    (by unfold DistinctKeys Distinct; decide) _ _

/-- Query traits of `u64`. -/
def u64Traits : QueryTraits UInt64 UInt64 where
  equivalent := scalarMatch UInt64.toNat UInt64.toNat
  compare := u64Cmp
  index := UInt64.toNat
  fixedState _ _ := 0
  bytes _ := []
  fixedStateSlice _ _ := 0

attribute [local instance] w64 in
example : MacroYields (fzMacro (demoEnv UInt64 String "") true .short .scalar
      [⟨.lit (.int 1 ""), 1, some "x"⟩, ⟨.other, 1, some "y"⟩, ⟨.other, 2, some "a"⟩, ⟨.other, 3, some "b"⟩, ⟨.other, 4, some "c"⟩,
        ⟨.other, 5, some "d"⟩, ⟨.other, 6, some "e"⟩, ⟨.other, 7, some "f"⟩]) (fun a b => u64Cmp a b == .eq) u64Cmp
    (fun _ es => some (FzScalarMap.new .debug slotSort u64Cmp UInt64.toNat es))
    (sumImpl (InlineMap.impl u64Traits) (FzScalarMap.impl UInt64.toNat (scalarMatch UInt64.toNat UInt64.toNat)))
    (scalarMatch UInt64.toNat UInt64.toNat)
    [(1, "x"), (1, "y"), (2, "a"), (3, "b"), (4, "c"), (5, "d"), (6, "e"), (7, "f")] :=
  c39_scalar_partial (q := u64Traits) ((c42_classes (by simp)).2.2.1.1 rfl) (by simp) (by intro h; cases h) (by decide) slotSort_ok u64_scalar
    rfl (fun _ => rfl) (Or.inr (by decide)) (by intro _; decide)

attribute [local instance] w64 in
/-- Three string keys, and four of which two are equal. -/
example : MacroYields (F := Unit) (fzMacro (demoEnv Str Nat 0) false .short .string
      [⟨.lit (.str [65]), [65], none⟩, ⟨.other, [66], none⟩]) (fun a b => a == b) strCmp (fun _ _ => none)
    (sumImpl (InlineMap.impl strTraits) ⟨fun _ _ => .ok none, fun _ _ => .ok none, fun _ _ => .ok none, fun _ _ => .ok false, fun _ => 0,
      fun _ => [], fun m _ _ => m⟩) (fun a b => a == b) [([65], 0), ([66], 0)] :=
  c39_string_small_partial (q := strTraits) (bytesK := fun x => x) ((c42_classes (by simp)).2.2.2.1.1 rfl) (by simp)
    (by intro _ e he; simp at he; rcases he with rfl | rfl <;> rfl) (by decide) rfl (by unfold DistinctKeys Distinct; decide)

attribute [local instance] w64 in
example : ∃ item m, fzMacro (demoEnv Str Nat 0) true .short .string
      [⟨.lit (.str [65]), [65], some 1⟩, ⟨.other, [66], some 2⟩, ⟨.other, [65], some 3⟩, ⟨.other, [67], some 4⟩] = .ok (.ok item) ∧
    item.ctor.compile (fun a b => a == b) strCmp (fzStringCtor .inferred slotSort (fun _ => 0) (fun _ => 0) (fun x => x)) = some (.ok (.inr m)) ∧
    Behaves (FzStringMap.impl (fun _ => 0) (fun _ => 0)) m (fun a b => a == b) (fun a b => a == b) [([65], 1), ([66], 2), ([65], 3), ([67], 4)] :=
  c39_string_large ((c42_classes (by simp)).2.2.2.1.1 rfl) (by simp) (by intro h; cases h) (by decide) (by decide) (by decide) slotSort_ok
    _ _ (fun x => x) _ _

/-! ## C48: declared key types of string macros -/

attribute [local instance] w64 in
/-- **C48** With an inferred key type or key type `Box<str>`, a string macro call compiles for any number of entries. -/
theorem c48_string_compiles_partial {env : MacroEnv K V} {isMap : Bool} {form : MacroForm} {kind : MacroKind} {entries : List (MacroEntry K V)}
    (hk : MixedStrs kind (entries.map (fun e => e.key))) (hne : entries ≠ []) (hn : entries.length < sizeLimit) {kt : StrKeyType}
    (hkt : kt ≠ .other ∨ entries.length < 4) (sort : Sorter (Str × V)) (bhStr bhSlice : Str → Nat) (bytesK : K → Str) (eqK : K → K → Bool)
    (cmp : K → K → Ordering) :
    ∃ item, fzMacro env isMap form kind entries = .ok (.ok item) ∧
      (item.ctor.compile eqK cmp (fzStringCtor kt sort bhStr bhSlice bytesK)).isSome = true := by
  have ha := (c42_classes (by simpa using hne)).2.2.2.1.2 hk
  have hr : fzMacro env isMap form kind entries = _ :=
    (process_of_assess hne ha).trans (Emitter.finish_ok (form_valid isMap form false false) rfl)
  refine ⟨_, hr, ?_⟩
  rw [itemOf_ctor, exprEntries_length]
  by_cases hlt : entries.length < 4
  · rw [if_pos hlt, ← exprEntries_length env.unit, scanVec_compile (by rw [exprEntries_length]; exact hn) _ _ _ rfl]
    rfl
  · rw [if_neg hlt]
    have hx : FzStringMap.newExists kt = true := by cases kt <;> first | rfl | exact absurd rfl (hkt.resolve_right hlt)
    unfold Generator.genFz
    rw [compile_fz]
    dsimp only [fzStringCtor]
    rw [if_pos hx]
    rfl

attribute [local instance] w64 in
/-- **C48** is false for other key types: with four keys or more the emitted code does not compile, though with up to three keys it does. -/
theorem c48_string_type_error {env : MacroEnv K V} {isMap : Bool} {form : MacroForm} {kind : MacroKind} {entries : List (MacroEntry K V)}
    (hk : MixedStrs kind (entries.map (fun e => e.key))) (h4 : 4 ≤ entries.length) (sort : Sorter (Str × V))
    (bhStr bhSlice : Str → Nat) (bytesK : K → Str) (eqK : K → K → Bool) (cmp : K → K → Ordering) :
    ∃ item, fzMacro env isMap form kind entries = .ok (.ok item) ∧
      item.ctor.compile eqK cmp (fzStringCtor .other sort bhStr bhSlice bytesK) = none := by
  have hne : entries ≠ [] := by rintro rfl; simp at h4
  have ha := (c42_classes (by simpa using hne)).2.2.2.1.2 hk
  have hr : fzMacro env isMap form kind entries = _ :=
    (process_of_assess hne ha).trans (Emitter.finish_ok (form_valid isMap form false false) rfl)
  refine ⟨_, hr, ?_⟩
  rw [itemOf_ctor, exprEntries_length, if_neg (by omega)]
  rfl

attribute [local instance] w64 in
/-- **C48**, exactly: the emitted code compiles if and only if the key type is `Box<str>` or left open, or there are fewer than four keys. -/
theorem c48_string_iff {env : MacroEnv K V} {isMap : Bool} {form : MacroForm} {kind : MacroKind} {entries : List (MacroEntry K V)}
    (hk : MixedStrs kind (entries.map (fun e => e.key))) (hne : entries ≠ []) (hn : entries.length < sizeLimit) (kt : StrKeyType)
    (sort : Sorter (Str × V)) (bhStr bhSlice : Str → Nat) (bytesK : K → Str) (eqK : K → K → Bool) (cmp : K → K → Ordering) :
    ∃ item, fzMacro env isMap form kind entries = .ok (.ok item) ∧
      ((item.ctor.compile eqK cmp (fzStringCtor kt sort bhStr bhSlice bytesK)).isSome = true ↔ kt ≠ .other ∨ entries.length < 4) := by
  by_cases h : kt ≠ .other ∨ entries.length < 4
  · obtain ⟨item, h1, h2⟩ := c48_string_compiles_partial (env := env) (isMap := isMap) (form := form) hk hne hn h sort bhStr bhSlice
      bytesK eqK cmp
    exact ⟨item, h1, fun _ => h, fun _ => h2⟩
  · have hkt : kt = .other := by by_contra hc; exact h (.inl hc)
    subst hkt
    obtain ⟨item, h1, h2⟩ := c48_string_type_error (env := env) (isMap := isMap) (form := form) hk (by omega) sort bhStr bhSlice bytesK
      eqK cmp
    refine ⟨item, h1, ⟨fun h3 => ?_, fun h3 => absurd h3 h⟩⟩
    rw [h2] at h3
    cases h3

attribute [local instance] w64 in
/-- `fz_string_map!(let m: M<&'static str, i32>, { a: 1, b: 2, c: 3, d: 4 })`. -/
example : MixedStrs .string [.other, .other, .other, .other] ∧
    ∃ item, fzMacro (demoEnv Str Nat 0) true (.let_ false "m" "M") .string
      [⟨.other, [65], some 1⟩, ⟨.other, [66], some 2⟩, ⟨.other, [67], some 3⟩, ⟨.other, [68], some 4⟩] = .ok (.ok item) ∧
      item.ctor.compile (fun a b => a == b) strCmp (fzStringCtor .other slotSort (fun _ => 0) (fun _ => 0) (fun x => x)) = none := by
  have h : MixedStrs .string [.other, .other, .other, .other] := (c42_classes (by simp)).2.2.2.1.1 rfl
  exact ⟨h, c48_string_type_error h (by decide) _ _ _ _ _ _⟩

attribute [local instance] w64 in
/-- With key type `Box<str>` it compiles. -/
example : ∃ item, fzMacro (demoEnv Str Nat 0) true (.let_ false "m" "M") .string
      [⟨.other, [65], some 1⟩, ⟨.other, [66], some 2⟩, ⟨.other, [67], some 3⟩, ⟨.other, [68], some 4⟩] = .ok (.ok item) ∧
      (item.ctor.compile (fun a b => a == b) strCmp (fzStringCtor .boxStr slotSort (fun _ => 0) (fun _ => 0) (fun x => x))).isSome = true :=
  c48_string_compiles_partial ((c42_classes (by simp)).2.2.2.1.1 rfl) (by simp) (by decide) (Or.inl (by decide)) _ _ _ _ _ _

/-! ## C49: declared key types of literal integer keys -/

/-- A literal with the given suffix may stand for a value of the integer type. -/
def LitFits (declared : ScalarType) (suffix : String) : Prop := suffix = "" ∨ suffix = suffixName declared

/-- **C49** Every literal key that can stand for the declared type as written still can in the emitted code, provided the literals decide on a
type or the declared type is `i32`. -/
theorem c49_literal_types_partial {kind : MacroKind} {keys : List KeySyntax} {t declared : ScalarType} (hk : AllInts kind keys t)
    (hd : t ≠ .undecided ∨ declared = .i32)
    (hw : ∀ k ∈ keys, ∀ n s, KeyIs k (.int n s) → LitFits declared s) :
    ∀ k ∈ keys, ∀ n s, KeyIs k (.int n s) → LitFits declared (emittedSuffix t s) := by
  intro k hm n s h
  unfold emittedSuffix
  by_cases ht : t = .undecided
  · rw [if_pos ht]
    have hdd := hd.resolve_left (fun h => h ht)
    subst ht
    subst hdd
    obtain ⟨n', s', h', hs'⟩ := hk.2.1 k hm
    cases h.unique h'
    have : s = "" := by rcases hs' with hs' | hs' <;> simpa [suffixName] using hs'
    rw [this]
    exact Or.inr rfl
  · rw [if_neg ht]
    exact hw k hm n s h

/-- **C49** is false otherwise: unsuffixed literals with a declared key type other than `i32` are emitted as `i32`. -/
theorem c49_literal_types_refuted {kind : MacroKind} {keys : List KeySyntax} {declared : ScalarType} (hk : AllInts kind keys .undecided)
    (hd : declared ≠ .i32) :
    (∀ k ∈ keys, ∀ n s, KeyIs k (.int n s) → LitFits declared s) ∧
    ∀ k ∈ keys, ∀ n s, KeyIs k (.int n s) → ¬ LitFits declared (emittedSuffix .undecided s) := by
  have hs : ∀ k ∈ keys, ∀ n s, KeyIs k (.int n s) → s = "" := by
    intro k hm n s h
    obtain ⟨n', s', h', hs'⟩ := hk.2.1 k hm
    cases h.unique h'
    rcases hs' with hs' | hs' <;> simpa [suffixName] using hs'
  refine ⟨fun k hm n s h => Or.inl (hs k hm n s h), fun k hm n s h => ?_⟩
  rw [hs k hm n s h]
  rintro (h | h)
  · exact absurd h (by decide)
  · exact hd (suffixName_inj (show suffixName declared = suffixName .i32 from h.symm))

/-- **C49** Exactly: literals that fit the declared type as written still do as emitted if and only if one of them has a suffix or the declared type is
`i32`. -/
theorem c49_literal_types_iff {kind : MacroKind} {keys : List KeySyntax} {t declared : ScalarType} (hne : keys ≠ []) (hk : AllInts kind keys t)
    (hw : ∀ k ∈ keys, ∀ n s, KeyIs k (.int n s) → LitFits declared s) :
    (∀ k ∈ keys, ∀ n s, KeyIs k (.int n s) → LitFits declared (emittedSuffix t s)) ↔
      (∃ k ∈ keys, ∃ n s, KeyIs k (.int n s) ∧ s ≠ "") ∨ declared = .i32 := by
  constructor
  · intro h
    by_contra hc
    obtain ⟨hc1, hc2⟩ := not_or.1 hc
    obtain ⟨k, ks, rfl⟩ := List.exists_cons_of_ne_nil hne
    obtain ⟨n, s, hks, -⟩ := hk.2.1 k (by simp)
    by_cases ht : t = .undecided
    · subst ht
      exact (c49_literal_types_refuted hk hc2).2 k (by simp) n s hks (h k (by simp) n s hks)
    · obtain ⟨k', hk', n', h'⟩ := hk.2.2.resolve_left ht
      exact hc1 ⟨k', hk', n', _, h', fun hs => ht (suffixName_inj (show suffixName t = suffixName .undecided from hs))⟩
  · intro h
    refine c49_literal_types_partial hk ?_ hw
    rcases h with ⟨k, hkm, n, s, hks, hs⟩ | h
    · left
      rintro rfl
      obtain ⟨n', s', h', hs'⟩ := hk.2.1 k hkm
      cases hks.unique h'
      apply hs
      rcases hs' with hs' | hs' <;> simpa [suffixName] using hs'
    · exact Or.inr h

/-- `fz_scalar_map!(static M: Alias<u8, i32>, { 1: 10, 2: 20 })` becomes a map of type `..<u8, i32, 2>` with entries `(1i32, 10)`, `(2i32, 20)`. -/
example : AllInts .scalar [.lit (.int 1 ""), .lit (.int 2 "")] .undecided ∧ emittedSuffix .undecided "" = "i32" ∧
    ¬ LitFits .u8 (emittedSuffix .undecided "") := by
  have h : AllInts .scalar [.lit (.int 1 ""), .lit (.int 2 "")] .undecided := ((c42_classes (by simp)).1 .undecided).1 rfl
  exact ⟨h, rfl, (c49_literal_types_refuted h (declared := .u8) (by decide)).2 _ List.mem_cons_self _ _ (.lit _)⟩

/-- The same call in the other direction: one suffix is enough. -/
example : (∀ k ∈ [KeySyntax.lit (.int 1 ""), .lit (.int 2 "u8")], ∀ n s, KeyIs k (.int n s) → LitFits .u8 (emittedSuffix .u8 s)) ↔
    (∃ k ∈ [KeySyntax.lit (.int 1 ""), .lit (.int 2 "u8")], ∃ n s, KeyIs k (.int n s) ∧ s ≠ "") ∨ ScalarType.u8 = .i32 :=
  c49_literal_types_iff (by simp) (((c42_classes (kind := .scalar) (by simp)).1 .u8).1 rfl) (by
    intro k hk n s h
    simp at hk
    rcases hk with rfl | rfl <;> cases h
    · exact Or.inl rfl
    · exact Or.inr rfl)

/-- `{ 1: 10, 2u8: 20 }` with key type `u8` keeps its suffixes. -/
example : ∀ k ∈ [KeySyntax.lit (.int 1 ""), .lit (.int 2 "u8")], ∀ n s, KeyIs k (.int n s) → LitFits .u8 (emittedSuffix .u8 s) :=
  c49_literal_types_partial (((c42_classes (kind := .scalar) (by simp)).1 .u8).1 rfl) (Or.inl (by decide)) (by
    intro k hk n s h
    simp at hk
    rcases hk with rfl | rfl <;> cases h
    · exact Or.inl rfl
    · exact Or.inr rfl)

end Frozen.Props
