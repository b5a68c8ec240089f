import Verif.Lemmas.Portable
import Verif.Props.Seeds
import Verif.Props.Serde
import Verif.Props.Target

/-!
# C82: programs on targets of 32 and of 64 bits
-/

namespace Frozen.Props

open Frozen.Spec Frozen.Model

/-- `e` as compiled for the target `t`. -/
local macro "on(" t:term ") " e:term : term => `(letI : Target := $t; $e)

variable {Q K V M M' T E B : Type}

/-! ## The same answers -/

/-- **C82** (maps)  A map built on one target and a map built of the same entries on another, of whichever types and with whichever hash functions,
cannot be told apart except by the order of iteration. -/
theorem c82_histories {t t' : Target} {eqK : K → K → Bool} {mt : Q → K → Bool} {es : List (K × V)} {I : MapImpl M Q K V}
    {J : MapImpl M' Q K V} {m : M} {m' : M'} (hb : on(t) Built eqK mt es I m) (hb' : on(t') Built eqK mt es J m')
    {eqQ : Q → Q → Bool} (hc : EqCompatible eqQ mt) {ops : List (Op Q K V)} (hops : ∀ op ∈ ops, OrderFree op) :
    List.Forall₂ SameOut (I.run eqQ m ops).1 (J.run eqQ m' ops).1 ∧
      (I.entries (I.run eqQ m ops).2).Perm (J.entries (J.run eqQ m' ops).2) := by
  obtain ⟨_, F⟩ := on(t) hb.facts
  obtain ⟨_, G⟩ := on(t') hb'.facts
  obtain ⟨h1, h2, -⟩ := run_sim F.query F.lawful hc ops F.inv
  obtain ⟨h3, h4, -⟩ := run_sim G.query G.lawful hc ops G.inv
  rw [h1, h2, h3, h4]
  have hd : Distinct (entryEq eqK) (J.entries m') :=
    Distinct.perm G.eq.entry G.perm.symm (by unfold survivors; exact keepLast_distinct es)
  exact dictRun_perm F.query eqQ ops hops (F.perm.trans G.perm.symm) hd

/-- **C82** (sets) -/
theorem c82_sets {t t' : Target} {eqT : T → T → Bool} {mt : Q → T → Bool} {xs : List T} {I : SetImpl M Q T} {J : SetImpl M' Q T} {m : M} {m' : M'}
    (hb : on(t) BuiltSet eqT mt xs I m) (hb' : on(t') BuiltSet eqT mt xs J m') :
    (∀ q, I.contains m q = J.contains m' q) ∧ (∀ q, I.get m q = J.get m' q) ∧ I.len m = J.len m' ∧ (I.items m).Perm (J.items m') := by
  obtain ⟨he, -, hs⟩ := on(t) hb.spec
  obtain ⟨-, -, hs'⟩ := on(t') hb'.spec
  have nd : ∀ {l : List T}, Distinct eqT l → l.Nodup := by
    intro l h
    refine List.Pairwise.imp (fun {a b} hab => ?_) h
    rintro rfl
    rw [he.refl] at hab
    cases hab
  have hp : (I.items m).Perm (J.items m') :=
    (List.perm_ext_iff_of_nodup (nd hs.distinct) (nd hs'.distinct)).2 (fun x => (hs.mem x).trans (hs'.mem x).symm)
  refine ⟨fun q => by rw [hs.contains, hs'.contains], fun q => by rw [hs.get, hs'.get], ?_, hp⟩
  rw [hs.len, hs'.len, hp.length_eq]

/-- A scanning map built on 32 bits and an ordered map built on 64 bits, with a write through `get_mut`. -/
example {m' : EytzingerMap Nat String} (h : (on(w64) FzOrderedMap.new natCmp [(3, "a"), (7, "b"), (3, "c")]) = .ok m') :
    List.Forall₂ SameOut
      ((ScanMap.impl (fun q k => natCmp q k == .eq)).run (fun a b => a == b) (ScanMap.new (fun a b => natCmp a b == .eq) [(3, "a"), (7, "b"), (3, "c")])
        [.update 3 (fun v => v ++ "d"), .get 3, .len]).1
      ((FzOrderedMap.impl natCmp).run (fun a b => a == b) m' [.update 3 (fun v => v ++ "d"), .get 3, .len]).1 := by
  have he := LawfulCmp'.eqLawful natCmp_lawful
  refine (c82_histories (t := w32) (t' := w64) (on(w32) Built.scan he (LawfulEq'.query he)) (on(w64) Built.fzOrdered natCmp_lawful natCmp_query h) ?_ ?_).1
  · intro a b k h1 h2
    simp only [beq_iff_eq, natCmp, Nat.compare_eq_eq] at h1 h2 ⊢
    omega
  · intro op hop
    simp only [List.mem_cons, List.not_mem_nil, or_false] at hop
    rcases hop with rfl | rfl | rfl <;> trivial

/-! ## The same collections

With the same hash function on both targets not even the order of iteration differs.
-/

/-- **C82** (`FzHashMap`)  The same entries and the same hash function give the same map on every target that can hold it, in the same order. -/
theorem c82_fz_hash_map {t t' : Target} {find : HbFind} (hf : HbFindOk find) {sort : Sorter (K × V)} (hs : SorterOk sort) {eqK : K → K → Bool}
    (he : LawfulEq' eqK) {bh : K → Nat} (hh : ∀ a b, eqK a b = true → bh a = bh b) {es : List (K × V)} (h : es.length < on(t) sizeLimit)
    (h' : es.length < on(t') sizeLimit) :
    ∃ m, (on(t) FzHashMap.withHasher find sort eqK bh es) = .ok m ∧ (on(t') FzHashMap.withHasher find sort eqK bh es) = .ok m := by
  obtain ⟨m, hm, -⟩ := on(t) FzHashMap.withHasher_spec hf hs he hh es h
  exact ⟨m, hm, (FzHashMap.withHasher_port find hs eqK bh h' h).trans hm⟩

/-- Six entries, five keys. -/
example : ∃ m, (on(w64) FzHashMap.withHasher listFind slotSort natEq (fun k => k * 7)
        [(3, "a"), (10, "b"), (18, "c"), (3, "d"), (500, "e"), (12, "f")]) = .ok m ∧
      (on(w32) FzHashMap.withHasher listFind slotSort natEq (fun k => k * 7)
        [(3, "a"), (10, "b"), (18, "c"), (3, "d"), (500, "e"), (12, "f")]) = .ok m :=
  c82_fz_hash_map listFind_ok slotSort_ok natEq_lawful (fun a b h => by rw [eq_of_beq h]) (by decide) (by decide)

/-- **C82** (`FzOrderedMap`) -/
theorem c82_fz_ordered_map {t t' : Target} {cmp : K → K → Ordering} (hc : LawfulCmp cmp) (es : List (K × V)) :
    ∃ m, (on(t) FzOrderedMap.new cmp es) = .ok m ∧ (on(t') FzOrderedMap.new cmp es) = .ok m := by
  obtain ⟨m, hm, -⟩ := on(t) FzOrderedMap.new_spec hc es
  exact ⟨m, hm, (FzOrderedMap.new_port cmp es).trans hm⟩

/-- **C82** (`FzStringMap`) -/
theorem c82_fz_string_map {t t' : Target} {sort : Sorter (Str × V)} (hs : SorterOk sort) (bhStr bhSlice : Str → Nat) {es : List (Str × V)}
    (h : es.length < on(t) sizeLimit) (h' : es.length < on(t') sizeLimit) (hk : ∀ e ∈ es, e.1.length ≤ on(t) usizeMax)
    (hk' : ∀ e ∈ es, e.1.length ≤ on(t') usizeMax) :
    ∃ m, (on(t) FzStringMap.withHasher sort bhStr bhSlice es) = .ok m ∧ (on(t') FzStringMap.withHasher sort bhStr bhSlice es) = .ok m := by
  obtain ⟨m, hm, -⟩ := on(t) FzStringMap.withHasher_spec hs bhStr bhSlice es h
  exact ⟨m, hm, (FzStringMap.withHasher_port hs bhStr bhSlice h' h hk' hk).trans hm⟩

/-- **C82** (`FzScalarMap`, exact boundary; what is missing is false, see `c82_violated`)  Both programs build the same map, unless the keys span the
whole range of `usize` on one of the targets. -/
theorem c82_fz_scalar_map_partial {t t' : Target} (b : Build) {sort : Sorter (K × V)} (hs : SorterOk sort) {cmp : K → K → Ordering}
    {index : K → Nat} (hc : on(t) LawfulScalar cmp index) (hc' : on(t') LawfulScalar cmp index) {es : List (K × V)}
    (h : es.length < on(t) tableLimit) (h' : es.length < on(t') tableLimit) :
    (∃ m, (on(t) FzScalarMap.new b sort cmp index es) = .ok m ∧ (on(t') FzScalarMap.new b sort cmp index es) = .ok m) ↔
      ¬ ∃ x ∈ es, ∃ y ∈ es, index x.1 = 0 ∧ (index y.1 = (on(t) usizeMax) ∨ index y.1 = on(t') usizeMax) := by
  have c := on(t) c18_construction_partial b hs hc es h
  have c' := on(t') c18_construction_partial b hs hc' es h'
  constructor
  · rintro ⟨m, h1, h2⟩ ⟨x, hx, y, hy, h0, h3 | h3⟩
    · exact c.1 ⟨m, h1⟩ ⟨x, hx, y, hy, h0, h3⟩
    · exact c'.1 ⟨m, h2⟩ ⟨x, hx, y, hy, h0, h3⟩
  · intro hn
    obtain ⟨m, hm⟩ := c.2 (fun ⟨x, hx, y, hy, h0, h3⟩ => hn ⟨x, hx, y, hy, h0, .inl h3⟩)
    refine ⟨m, hm, ?_⟩
    refine (FzScalarMap.new_port b hs hc' hc h' h ?_ ?_).trans hm
    · intro x hx y hy
      by_contra hge
      have := @LawfulScalar.bound t' _ _ _ hc' x.1
      have hu := @target_cases t'
      exact hn ⟨y, hy, x, hx, by omega, .inr (by omega)⟩
    · intro x hx y hy
      by_contra hge
      have := @LawfulScalar.bound t _ _ _ hc x.1
      have hu := @target_cases t
      exact hn ⟨y, hy, x, hx, by omega, .inl (by omega)⟩

/-- The keys `1` and `u32::MAX` make the same map on both. -/
example : ∃ m, (on(w64) FzScalarMap.new .debug slotSort u32Cmp UInt32.toNat [(1, "a"), (4294967295, "b")]) = .ok m ∧
    (on(w32) FzScalarMap.new .debug slotSort u32Cmp UInt32.toNat [(1, "a"), (4294967295, "b")]) = .ok m := by
  refine (c82_fz_scalar_map_partial .debug slotSort_ok (on(w64) u32_scalar) (on(w32) u32_scalar) (by decide) (by decide)).2 ?_
  rintro ⟨x, hx, y, hy, h0, -⟩
  simp only [List.mem_cons, List.not_mem_nil, or_false] at hx
  rcases hx with rfl | rfl <;> exact absurd h0 (by decide)

/-- The map of the keys `0` and `u32::MAX` on targets with 64 bits. -/
def wideMap : FzScalarMap UInt32 String :=
  .hash ⟨⟨[⟨1, 2⟩, ⟨0, 1⟩], [(4294967295, "b"), (0, "a")], 1⟩⟩

/-- **C82 is false** for scalar maps: the keys `0` and `u32::MAX` make a map on targets with 64 bits and a panic on targets with 32 bits. -/
theorem c82_violated (b : Build) :
    (on(w64) FzScalarMap.new b slotSort u32Cmp UInt32.toNat [(0, "a"), (4294967295, "b")]) = .ok wideMap ∧
    ∃ e, (on(w32) FzScalarMap.new b slotSort u32Cmp UInt32.toNat [(0, "a"), (4294967295, "b")]) = .error e := by
  cases b
  · exact ⟨by cbv, _, c18_construction_can_fail_32.1⟩
  · exact ⟨by cbv, _, c18_construction_can_fail_32.2⟩

/-! ## Serialized data -/

theorem same_of_facts {eqK : K → K → Bool} {mt : Q → K → Bool} {es es' : List (K × V)} {I : MapImpl M Q K V} {J : MapImpl M' Q K V} {m : M} {m' : M'}
    {Inv : M → Prop} {Inv' : M' → Prop} (F : Facts eqK mt es I m Inv) (F' : Facts eqK mt es' J m' Inv')
    (hs : ∀ k, lastMatch eqK es k = lastMatch eqK es' k) : SameMap I m J m' := by
  have hp : (I.entries m).Perm (J.entries m') := by
    refine (List.perm_ext_iff_of_nodup ?_ ?_).2 fun e => ?_
    · refine List.Pairwise.imp ?_ (F.lawful.distinct m F.inv)
      rintro a b h rfl
      have := F.eq.refl a.1
      simp only [entryEq] at h
      rw [this] at h; cases h
    · refine List.Pairwise.imp ?_ (F'.lawful.distinct m' F'.inv)
      rintro a b h rfl
      have := F.eq.refl a.1
      simp only [entryEq] at h
      rw [this] at h; cases h
    · rw [F.contents.mem, F'.contents.mem, hs]
  have hl : ∀ q, lastMatch mt es q = lastMatch mt es' q := by
    intro q
    rw [← find?_of_perm_survivors F.query F.perm q, ← find?_of_perm_survivors F'.query (hp.trans F'.perm) q]
  refine ⟨fun q => ?_, fun q => ?_, fun q => ?_, ?_, hp⟩
  · rw [F.lookups.get, F'.lookups.get, hl]
  · rw [F.lookups.getKeyValue, F'.lookups.getKeyValue, hl]
  · rw [F.lookups.containsKey, F'.lookups.containsKey, hl]
  · rw [F.lawful.len _ F.inv, F'.lawful.len _ F'.inv, hp.length_eq]

/-- **C82** (serialized on one target, read on another)  Whatever map the data came from, `FzHashMap` reads it. -/
theorem c82_fz_hash_map_data {t t' : Target} {find : HbFind} (hf : HbFindOk find) {size : Nat} {sort : Sorter (K × V)} (hs : SorterOk sort)
    {eqK : K → K → Bool} {mt : Q → K → Bool} {hK : K → Nat} {hQ : Q → Nat} (hh : LawfulHash eqK mt hK hQ) {es : List (K × V)}
    (hn : es.length < on(t') sizeLimit) {I : MapImpl M Q K V} {m : M} (hb : on(t) Built eqK mt es I m) {acc : Access E (K × V)}
    (hc : on(t') Carries size (I.serialize m) acc) :
    ∃ m', (on(t') FzHashMap.visitMap size find sort eqK hK acc) = .ok (.ok m') ∧ SameMap I m (FzHashMap.impl hQ mt) m' := by
  obtain ⟨Inv, F⟩ := on(t) hb.facts
  have hl := on(t) hb.entries_length
  have hlm := on(t) hb.entries_lastMatch
  let _ : Target := t'
  obtain ⟨hint, items⟩ := acc
  obtain ⟨h1, h2⟩ := hc
  rw [serialized_items] at h1
  simp only at h1
  subst h1
  have hlen := Nat.lt_of_le_of_lt hl hn
  obtain ⟨m', hm', -⟩ := FzHashMap.withHasher_spec hf hs F.eq hh.key (I.entries m) hlen
  obtain ⟨_, G⟩ := (Built.fzHash hf hs F.eq F.query hh hlen hm').facts
  exact ⟨m', visitWith_ok h2 hm', same_of_facts F G fun k => (hlm k).symm⟩

/-- **C82** (`FzOrderedMap` reads data of another target) -/
theorem c82_fz_ordered_map_data {t t' : Target} {size : Nat} {cmp : K → K → Ordering} (hc : LawfulCmp cmp) {qcmp : Q → K → Ordering}
    (hq : LawfulQueryCmp cmp qcmp) {es : List (K × V)} {I : MapImpl M Q K V} {m : M}
    (hb : on(t) Built (fun a b => cmp a b == .eq) (fun q k => qcmp q k == .eq) es I m) {acc : Access E (K × V)}
    (ht : on(t') Carries size (I.serialize m) acc) :
    ∃ m', (on(t') FzOrderedMap.visitMap size cmp acc) = .ok (.ok m') ∧ SameMap I m (FzOrderedMap.impl qcmp) m' := by
  obtain ⟨Inv, F⟩ := on(t) hb.facts
  have hlm := on(t) hb.entries_lastMatch
  let _ : Target := t'
  obtain ⟨hint, items⟩ := acc
  obtain ⟨h1, h2⟩ := ht
  rw [serialized_items] at h1
  simp only at h1
  subst h1
  obtain ⟨m', hm', -⟩ := FzOrderedMap.new_spec hc (I.entries m)
  obtain ⟨_, G⟩ := (Built.fzOrdered hc hq hm').facts
  exact ⟨m', visitWith_ok h2 hm', same_of_facts F G fun k => (hlm k).symm⟩

/-- What a map on 64 bits was serialized to, read on 32 bits. -/
example : ∃ m', (on(w32) FzOrderedMap.visitMap (E := Unit) 16 natCmp ⟨some 2, [.ok (7, "b"), .ok (3, "c")]⟩) = .ok (.ok m') ∧
    SameMap (ScanMap.impl (fun q k => natCmp q k == .eq))
      (ScanMap.new (fun a b => natCmp a b == .eq) [(3, "a"), (7, "b"), (3, "c")]) (FzOrderedMap.impl natCmp) m' := by
  have he := LawfulCmp'.eqLawful natCmp_lawful
  exact c82_fz_ordered_map_data (t := w64) (t' := w32) natCmp_lawful natCmp_query (on(w64) Built.scan he (LawfulEq'.query he)) ⟨by cbv, by decide⟩

/-- **C82** (`FzScalarMap` reads data of another target, exact condition)  `index` is the position of a key on the target that reads. -/
theorem c82_fz_scalar_map_data_partial {t t' : Target} {size : Nat} (b : Build) {sort : Sorter (K × V)} (hso : SorterOk sort)
    {cmp : K → K → Ordering} {index : K → Nat} (hs : on(t') LawfulScalar cmp index) (qindex : Q → Nat) {es : List (K × V)}
    (hn : es.length < on(t') tableLimit) {I : MapImpl M Q K V} {m : M}
    (hb : on(t) Built (fun a b => cmp a b == .eq) (scalarMatch index qindex) es I m) {acc : Access E (K × V)}
    (ht : on(t') Carries size (I.serialize m) acc) :
    (∃ m', (on(t') FzScalarMap.visitMap size b sort cmp index acc) = .ok (.ok m') ∧
      SameMap I m (FzScalarMap.impl qindex (scalarMatch index qindex)) m') ↔
    ¬ ∃ x ∈ es, ∃ y ∈ es, index x.1 = 0 ∧ index y.1 = on(t') usizeMax := by
  obtain ⟨Inv, F⟩ := on(t) hb.facts
  have hl := on(t) hb.entries_length
  have hlm := on(t) hb.entries_lastMatch
  let _ : Target := t'
  have hkeys : ∀ c, (∃ x ∈ es, index x.1 = c) ↔ ∃ x ∈ I.entries m, index x.1 = c := by
    intro c
    constructor
    · rintro ⟨x, hx, rfl⟩
      obtain ⟨e, he, hxe⟩ := exists_mem_keepLast F.eq.entry hx
      refine ⟨e, F.perm.mem_iff.2 he, ?_⟩
      have := hs.eq_iff x.1 e.1
      simp only [entryEq] at hxe
      rw [hxe] at this
      exact (eq_of_beq this.symm).symm
    · rintro ⟨x, hx, rfl⟩
      exact ⟨x, survivors_mem (F.perm.mem_iff.1 hx), rfl⟩
  have hiff := c18_construction_partial b hso hs (I.entries m) (Nat.lt_of_le_of_lt hl hn)
  have hex : (∃ x ∈ es, ∃ y ∈ es, index x.1 = 0 ∧ index y.1 = usizeMax) ↔
      ∃ x ∈ I.entries m, ∃ y ∈ I.entries m, index x.1 = 0 ∧ index y.1 = usizeMax := by
    have a := hkeys 0
    have c := hkeys usizeMax
    constructor
    · rintro ⟨x, hx, y, hy, h1, h2⟩
      obtain ⟨x', hx', h1'⟩ := a.1 ⟨x, hx, h1⟩
      obtain ⟨y', hy', h2'⟩ := c.1 ⟨y, hy, h2⟩
      exact ⟨x', hx', y', hy', h1', h2'⟩
    · rintro ⟨x, hx, y, hy, h1, h2⟩
      obtain ⟨x', hx', h1'⟩ := a.2 ⟨x, hx, h1⟩
      obtain ⟨y', hy', h2'⟩ := c.2 ⟨y, hy, h2⟩
      exact ⟨x', hx', y', hy', h1', h2'⟩
  obtain ⟨hint, items⟩ := acc
  obtain ⟨h1, h2⟩ := ht
  rw [serialized_items] at h1
  simp only at h1
  subst h1
  show _ ↔ ¬ ∃ x ∈ es, ∃ y ∈ es, index x.1 = 0 ∧ index y.1 = usizeMax
  rw [hex, ← hiff]
  constructor
  · rintro ⟨m', hm', -⟩
    cases hnew : FzScalarMap.new b sort cmp index (I.entries m) with
    | ok m' => exact ⟨m', rfl⟩
    | error e =>
      exfalso
      have hm' : FzScalarMap.visitMap size b sort cmp index _ = _ := hm'
      simp only [FzScalarMap.visitMap, visitWith, vecWithCapacity, if_pos h2, bind, Except.bind, drain_ok, List.nil_append, hnew] at hm'
      cases hm'
  · rintro ⟨m', hm'⟩
    obtain ⟨_, G⟩ := (Built.fzScalar (qindex := qindex) hso hs (Nat.lt_of_le_of_lt hl hn) hm').facts
    exact ⟨m', visitWith_ok h2 hm', same_of_facts F G fun k => (hlm k).symm⟩

/-! ## Code generated on a host of another width

`host` is the machine on which the build script or the macro runs, `target` the one that the generated code is compiled for.  The hash functions of
the two agree (for what happens otherwise see C57).
-/

/-- **C82** (`emit_hash_collection`) -/
theorem c82_emit_hash {host target : Target} {q : QueryTraits Q K} {em : Emitter} (hv : ValidOptions em) {unit : V} {find : HbFind}
    (hfind : HbFindOk find) {sort : Sorter (CollectionEntry B K V)} (hsort : SorterOk sort) {eqB : B → B → Bool} (heB : LawfulEq' eqB)
    {eqK : K → K → Bool} (he : LawfulEq' eqK) (hq : LawfulQuery eqK q.equivalent) {fixedState : Nat → B → Nat} {seed : Nat}
    (hseed : seed < 2 ^ 64) (hB : ∀ a b, eqB a b = true → fixedState seed a = fixedState seed b) {hk : K → Nat}
    (hh : LawfulHash eqK q.equivalent hk (q.fixedState seed)) {entries : List (CollectionEntry B K V)}
    (hag : ∀ x ∈ entries, ∀ y ∈ entries, eqB x.key y.key = eqK x.keyExpr y.keyExpr)
    (hhash : ∀ x ∈ entries, hk x.keyExpr = fixedState seed x.key) (hn : entries.length < on(host) sizeLimit)
    (hn' : entries.length < on(target) sizeLimit) :
    on(target) EmitsMap q em eqK q.equivalent (written em unit entries) (on(host) em.emitHash unit find sort eqB fixedState seed entries) := by
  have := Emitter.emitHash_port (t := host) (t' := target) em unit find hsort eqB fixedState seed hn hn'
  simp only [this]
  exact on(target) c37_emit_hash hv hfind hsort heB he hq hseed hB hh hag hhash hn'

/-- Emitted on 64 bits, compiled on 32 bits. -/
example : ∃ item m, (on(w64) staticMap.emitHash "" listFind slotSort natEq (fun seed q => (seed + 31 * q) % 2 ^ 64) 77
        [⟨3, 3, "a"⟩, ⟨10, 10, "b"⟩, ⟨18, 18, "c"⟩, ⟨3, 3, "d"⟩, ⟨500, 500, "e"⟩, ⟨12, 12, "f"⟩]) = .ok (.ok item) ∧
      (on(w32) item.ctor.compile (F := Unit) natEq natCmp (fun _ _ => none)) = some (.ok (.inl m)) ∧
      (on(w32) InlineMap.impl natTraits).get m 3 = .ok (some "d") ∧ (on(w32) InlineMap.impl natTraits).get m 4 = .ok none := by
  obtain ⟨item, m, h1, h2, h3, h4⟩ := c82_emit_hash (host := w64) (target := w32) (q := natTraits) (em := staticMap) (by unfold ValidOptions; decide) (unit := "")
        listFind_ok slotSort_ok natEq_lawful natEq_lawful
        natEq_query (fixedState := fun seed q => (seed + 31 * q) % 2 ^ 64) (seed := 77) (by decide)
        (fun a b h => by rw [eq_of_beq h]) (hk := fun q => (77 + 31 * q) % 2 ^ 64) (natEq_hash _)
        (entries := [⟨3, 3, "a"⟩, ⟨10, 10, "b"⟩, ⟨18, 18, "c"⟩, ⟨3, 3, "d"⟩, ⟨500, 500, "e"⟩, ⟨12, 12, "f"⟩])
        (by decide) (by decide) (by decide) (by decide)
  refine ⟨item, m, h1, h3 _ _ _ _, ?_, ?_⟩
  · exact (h4.lookups.get 3).trans (by decide)
  · exact (h4.lookups.get 4).trans (by decide)

/-- **C82** (`emit_ordered_collection`) -/
theorem c82_emit_ordered {host target : Target} {q : QueryTraits Q K} {em : Emitter} (hv : ValidOptions em) {unit : V} {cmpB : B → B → Ordering}
    (hB : LawfulCmp cmpB) {cmp : K → K → Ordering} (hc : LawfulCmp cmp) (hq : LawfulQueryCmp cmp q.compare)
    (heqv : q.equivalent = fun q' k => q.compare q' k == .eq) {entries : List (CollectionEntry B K V)}
    (hag : ∀ x ∈ entries, ∀ y ∈ entries, cmpB x.key y.key = cmp x.keyExpr y.keyExpr) (hn' : entries.length < on(target) sizeLimit) :
    on(target) EmitsMap q em (fun a b => cmp a b == .eq) (fun q' k => q.compare q' k == .eq) (written em unit entries)
      (on(host) em.emitOrdered unit cmpB entries) := by
  have := Emitter.emitOrdered_port (t := host) (t' := target) em unit cmpB entries
  simp only [this]
  exact on(target) c37_emit_ordered hv hB hc hq heqv hag hn'

/-- **C82** (`emit_scalar_collection`; what is missing is keys that span the whole range of `usize` on the host, for which the host panics, see C18, or
on the target, for which see `c57_scalars_partial`).  The host and the target have to agree on the index of each key. -/
theorem c82_emit_scalar_partial {host target : Target} {q : QueryTraits Q K} {em : Emitter} (hv : ValidOptions em) {unit : V} (b : Build)
    {sort : Sorter (CollectionEntry B K V)} (hsort : SorterOk sort) {cmpB : B → B → Ordering} {index : B → Nat}
    (hB : on(host) LawfulScalar cmpB index) (hB' : on(target) LawfulScalar cmpB index) {cmp : K → K → Ordering} {indexK : K → Nat}
    (hk : on(target) LawfulScalar cmp indexK) (heqv : q.equivalent = scalarMatch indexK q.index) {entries : List (CollectionEntry B K V)}
    (hag : ∀ x ∈ entries, indexK x.keyExpr = index x.key) (hn : entries.length < on(host) tableLimit) (hn' : entries.length < on(target) tableLimit)
    (hspan : ∀ x ∈ entries, ∀ y ∈ entries, index x.key - index y.key < on(host) usizeMax)
    (hspan' : ∀ x ∈ entries, ∀ y ∈ entries, index x.key - index y.key < on(target) usizeMax) :
    on(target) EmitsMap q em (fun a b => cmp a b == .eq) (scalarMatch indexK q.index) (written em unit entries)
      (on(host) em.emitScalar unit b sort cmpB index entries) := by
  have := Emitter.emitScalar_port (t := host) (t' := target) em unit b hsort hB hB' hn hn' hspan hspan'
  simp only [this]
  exact on(target) c37_emit_scalar hv b hsort hB' hk heqv hag hn' hspan'

/-- **C82** (`emit_string_collection`) -/
theorem c82_emit_string {host target : Target} {q : QueryTraits Q K} {em : Emitter} (hv : ValidOptions em) {unit : V}
    {sort : Sorter (CollectionEntry Str K V)} (hsort : SorterOk sort) {fsStr fsSlice : Nat → Str → Nat} {seed : Nat}
    (hseed : seed < 2 ^ 64) {bytesK : K → Str} (heqv : q.equivalent = fun q' k => q.bytes q' == bytesK k)
    (hstr : ∀ q', q.fixedState seed q' = fsStr seed (q.bytes q')) (hslice : q.fixedStateSlice seed = fsSlice seed)
    {entries : List (CollectionEntry Str K V)} (hag : ∀ x ∈ entries, bytesK x.keyExpr = x.key)
    (hn : entries.length < on(host) sizeLimit) (hn' : entries.length < on(target) sizeLimit)
    (hkl : ∀ x ∈ entries, x.key.length ≤ on(host) usizeMax) (hkl' : ∀ x ∈ entries, x.key.length ≤ on(target) usizeMax) :
    on(target) EmitsMap q em (fun a b => bytesK a == bytesK b) q.equivalent (written em unit entries)
      (on(host) em.emitString unit sort fsStr fsSlice seed entries) := by
  have := Emitter.emitString_port (t := host) (t' := target) em unit hsort fsStr fsSlice seed hn hn' hkl hkl'
  simp only [this]
  exact on(target) c37_emit_string hv hsort hseed heqv hstr hslice hag hn' hkl'

/-- **C82** (macros, string literals)  The host has 64 bits and the target has any width. -/
theorem c82_macro_strings {target : Target} {env : MacroEnv K V} (hsort : SorterOk env.sortStr) (hseed : env.seed < 2 ^ 64)
    {isMap : Bool} {form : MacroForm} {kind : MacroKind} {entries : List (MacroEntry K V)} (hne : entries ≠ [])
    (hk : AllStrs kind (entries.map (fun e => e.key))) {bytesK : K → Str}
    (hval : ∀ e ∈ entries, ∀ v, KeyIs e.key (.str v) → bytesK e.keyValue = v ∧ v.length ≤ on(target) usizeMax)
    (hn : entries.length < on(target) sizeLimit) {q : QueryTraits Q K} (heqv : q.equivalent = fun x k => q.bytes x == bytesK k)
    (hstr : ∀ x, q.fixedState env.seed x = env.fsStr env.seed (q.bytes x)) (hslice : q.fixedStateSlice env.seed = env.fsSlice env.seed) :
    on(target) EmitsMap q { form.emitter isMap with constKeys := true, constValues := true } (fun a b => bytesK a == bytesK b) q.equivalent
      (macroWritten isMap env.unit entries) (fzMacro env isMap form kind entries) := by
  have hu := @target_cases target
  have hw := limits_w64
  have hint : ∀ e ∈ entries, ∃ v, KeyIs e.key (.str v) := fun e he => hk.2 e.key (List.mem_map_of_mem he)
  have hp : ∀ e ∈ entries, parseStr e.key = .ok (strOf e.key) := by
    intro e he
    obtain ⟨v, h⟩ := hint e he
    exact parseStr_ok h
  have ha := (c42_classes (by simpa using hne)).2.1.2 hk
  unfold fzMacro
  rw [process_of_assess hne ha]
  show on(target) EmitsMap _ _ _ _ _ (handleLiteralStringKeys env (form.emitter isMap) entries)
  unfold handleLiteralStringKeys
  rw [literalEntries_ok hp]
  simp only
  have hlen : ∀ x ∈ entries.map (fun e => e.toCollection env.unit (strOf e.key)), x.key.length ≤ @usizeMax target := by
    intro x hx
    obtain ⟨e, he, rfl⟩ := List.mem_map.1 hx
    obtain ⟨v, h⟩ := hint e he
    show (strOf e.key).length ≤ _
    rw [strOf_eq h]
    exact (hval e he v h).2
  have key := c82_emit_string (host := w64) (target := target) (q := q) (form_valid isMap form true true) (unit := env.unit) hsort hseed heqv
    hstr hslice (entries := entries.map (fun e => e.toCollection env.unit (strOf e.key))) ?_ (by rw [List.length_map]; show _ < @sizeLimit w64; omega)
    (by rw [List.length_map]; exact hn) (fun x hx => by have := hlen x hx; show _ ≤ @usizeMax w64; omega) hlen
  · have hw := written_macro (f := fun e => strOf e.key)
      (em := { form.emitter isMap with constKeys := true, constValues := true }) (form_hasValueType isMap form) env.unit entries
    unfold written at key
    rw [hw] at key
    exact key
  · intro x hx
    obtain ⟨e, he, rfl⟩ := List.mem_map.1 hx
    obtain ⟨v, h⟩ := hint e he
    show bytesK e.keyValue = strOf e.key
    rw [strOf_eq h]
    exact (hval e he v h).1

/-- `{ "a": 1, "b": 2, .. }` in a proc-macro on 64 bits, compiled for 32 bits. -/
example : ∃ item m, fzMacro (demoEnv Str Nat 0) true .short .string fiveStrings = .ok (.ok item) ∧
      (on(w32) item.ctor.compile (F := Unit) (fun _ _ => false) (fun _ _ => .eq) (fun _ _ => none)) = some (.ok (.inl m)) ∧
      (on(w32) InlineMap.impl strTraits).get m [99] = .ok (some 3) := by
  obtain ⟨item, m, h1, -, h3, h4⟩ := c82_macro_strings (target := w32) (env := demoEnv Str Nat 0) slotSort_ok (by decide) (isMap := true) (form := .short)
    (kind := .string) (entries := fiveStrings) (by simp [fiveStrings])
    ((c42_classes (by simp [fiveStrings])).2.1.1 rfl) (bytesK := fun x => x)
    (by
      intro e he v h
      simp only [fiveStrings, List.mem_cons, List.not_mem_nil, or_false] at he
      rcases he with rfl | rfl | rfl | rfl | rfl <;> cases h <;> decide)
    (by decide) (q := strTraits) rfl (fun _ => rfl) rfl
  exact ⟨item, m, h1, h3 _ _ _ _, (h4.lookups.get [99]).trans (by decide)⟩

end Frozen.Props
