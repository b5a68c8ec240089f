import Verif.Lemmas.EffectMaps
import Verif.Props.Effects

/-!
# Property theorems: comparing and cloning maps with user code that panics or keeps state (C95)

`==` of C25 and `Clone` of C81, with trait functions of keys and values that may change the state of the program and panic.
-/

namespace Frozen.Props

open Frozen.Spec Frozen.Model

variable {W M M' Q K V V' : Type} {R : (A : Type) → Eff W A → Res A → Prop}

/-- **C95** (`==`).  In each of the three senses: if the trait functions of keys and values answer correctly, `==` says whether the two maps have the same keys
with equal values.  Equality of values can be any relation. -/
theorem c95_map_eq [Target] (hR : Sense R) {eqK : K → K → Bool} {mt : Q → K → Bool} {es : List (K × V)} {es' : List (K × V')} {I : MapImpl M Q K V}
    {J : MapImpl M' K K V'} {m : M} {m' : M'} (hb : Built eqK mt es I m) (hb' : Built eqK eqK es' J m') {S : M' → K → Eff W (Option Nat)}
    (hS : RunsWith (fun A x r => R A x (.ok r)) J S) {eqV : V → V' → Bool} {eqE : V → V' → Eff W Bool} (he : ∀ v v', R Bool (eqE v v') (.ok (eqV v v'))) :
    ∃ b, R Bool (I.eqE J S eqE m m') (.ok b) ∧ (b = true ↔ SameMapping eqK eqV es es') := by
  obtain ⟨E, rfl⟩ := hR.eq
  obtain ⟨b, h1, h2⟩ := c25_map_eq_is_extensional hb hb' eqV
  refine ⟨b, ?_, h2⟩
  rw [← h1]
  exact E.ite (fun _ => E.pure _) (fun _ => E.allEntriesIn hb' hS he _)

/-- **C95** (comparisons of values).  `==` compares values in the order of iteration, each at most once and with the value of the other map for the same key, and
none after the first that differs; none if the lengths differ; all if it answers `true`. -/
theorem c95_values_compared [Target] {eqK : K → K → Bool} {mt : Q → K → Bool} {es : List (K × V)} {es' : List (K × V')} {I : MapImpl M Q K V}
    {J : MapImpl M' K K V'} {m : M} {m' : M'} (hb : Built eqK mt es I m) (hb' : Built eqK eqK es' J m') {S : M' → K → Eff (List (V × V')) (Option Nat)}
    (hS : RunsWith (fun _ x r => Quiet x (.ok r)) J S) (eqV : V → V' → Bool) :
    ∃ b l, I.eqE J S (recordEq eqV) m m' [] = (.ok b, l) ∧ (b = true ↔ SameMapping eqK eqV es es') ∧ ValuesCompared eqK eqV (I.iter m).rest es' l ∧
      (I.len m ≠ J.len m' → l = []) ∧ (b = true → l.length = I.len m) := by
  obtain ⟨b, h1, h2⟩ := c25_map_eq_is_extensional hb hb' eqV
  obtain ⟨Inv, F⟩ := hb.facts
  have hlen := F.lawful.len m F.inv
  have hrest : (I.iter m).rest = I.entries m := rfl
  unfold MapImpl.eq at h1
  unfold MapImpl.eqE
  by_cases hl : I.len m = J.len m'
  · have hl' : ¬ (I.len m != J.len m') = true := by simp [hl]
    rw [if_neg hl'] at h1 ⊢
    obtain ⟨c, ps, g1, g2, g3, g4⟩ := allEntriesInE_record hb' hS eqV (I.iter m).rest
    have hc : c = b := by
      rw [hrest, h1] at g4
      exact (Except.ok.inj g4).symm
    subst hc
    exact ⟨c, ps, by rw [g1 [], List.nil_append], h2, g2, fun h => absurd hl h, fun h => by rw [g3 h, hrest, hlen]⟩
  · have hl' : (I.len m != J.len m') = true := by simp [hl]
    rw [if_pos hl'] at h1 ⊢
    cases h1
    exact ⟨false, [], rfl, h2, ⟨fun i p h => by simp at h, fun i p h => by simp at h⟩, fun _ => rfl, fun h => by cases h⟩

/-- **C95** (`==`, memory safety).  Comparing a map with a map of the crate made from anything, with trait functions that answer as they like: no undefined
behaviour. -/
theorem c95_eq_memory_safe [Target] {I : MapImpl M Q K V} {J : MapImpl M' K K V'} {m : M} {m' : M'} {S : M' → K → Eff W (Option Nat)}
    (hS : AnyLookups J.entries S m') {eqE : V → V' → Eff W Bool} (he : ∀ v v', SafeCode (eqE v v')) : SafeCode (I.eqE J S eqE m m') := by
  unfold MapImpl.eqE
  split
  · exact fun _ => NoUb.ok _
  · exact allEntriesInE_safe (fun k w => (c91_memory_safe hS k w).1) he _

/-! ## Clones -/

section

variable {ck : K → Eff W K} {cv : V → Eff W V} {f : K → K} {g : V → V}

/-- **C95** (`Clone`).  In each of the three senses: if `Clone` of keys and values gives the clones `f k` and `g v`, where a clone of a key equals the key, `Clone`
of an `FzHashMap`, `FzOrderedMap`, `FzScalarMap` or emitted map gives a faithful copy. -/
theorem c95_clone (hR : Sense R) {eqK : K → K → Bool} {mt : Q → K → Bool} (he : LawfulEq' eqK) (hq : LawfulQuery eqK mt) {cmp : K → K → Ordering}
    {qcmp : Q → K → Ordering} (hl : LawfulCmp cmp) (hqc : LawfulQueryCmp cmp qcmp) :
    (∀ (m : HashMap K V) (bh bh' : Q → Nat), (∀ q, bh' q = bh q) → ClonesE R ck cv f g m.table.entries → (∀ e ∈ m.table.entries, eqK (f e.1) e.1 = true) →
      CopiesE R f g (FzHashMap.impl bh mt) (FzHashMap.impl bh' mt) m (m.cloneE ck cv)) ∧
    (∀ m : EytzingerMap K V, ClonesE R ck cv f g m.entries → (∀ e ∈ m.entries, cmp (f e.1) e.1 = .eq) →
      CopiesE R f g (FzOrderedMap.impl qcmp) (FzOrderedMap.impl qcmp) m (m.cloneE ck cv)) ∧
    (∀ (m : FzScalarMap K V) (qindex : Q → Nat), ClonesE R ck cv f g m.entries → (∀ e ∈ m.entries, eqK (f e.1) e.1 = true) →
      CopiesE R f g (FzScalarMap.impl qindex mt) (FzScalarMap.impl qindex mt) m (m.cloneE ck cv)) ∧
    ∀ (m : InlineMap K V) (t : QueryTraits Q K), LawfulQuery eqK t.equivalent → LawfulQueryCmp cmp t.compare → ClonesE R ck cv f g m.entries →
      (∀ e ∈ m.entries, eqK (f e.1) e.1 = true ∧ cmp (f e.1) e.1 = .eq) →
      CopiesE R f g (InlineMap.impl t) (InlineMap.impl t) m (m.cloneE ck cv) := by
  obtain ⟨E, rfl⟩ := hR.eq
  refine ⟨fun m bh bh' hh h hc => ?_, fun m h hc => ?_, fun m qindex h hc => ?_, fun m t h1 h2 h hc => ?_⟩
  · obtain ⟨m', e1, e2⟩ := c81_fz_hash_map he hq hh (clonesTo_pure m.table.entries) hc
    exact ⟨m', e1 ▸ E.hashClone h, e2⟩
  · obtain ⟨m', e1, e2⟩ := c81_ordered hl hqc (clonesTo_pure m.entries) hc
    exact ⟨m', e1 ▸ E.eytzingerClone h, e2⟩
  · obtain ⟨m', e1, e2⟩ := c81_fz_scalar_map he hq qindex (clonesTo_pure m.entries) hc
    exact ⟨m', e1 ▸ E.scalarClone h, e2⟩
  · obtain ⟨m', e1, e2⟩ := c81_inline_map he h1 hl h2 (clonesTo_pure m.entries) hc
    exact ⟨m', e1 ▸ E.inlineClone h, e2⟩

/-- **C95** (`Clone` of an `FzStringMap`). -/
theorem c95_clone_string (hR : Sense R) {m : FzStringMap V} (h : ∀ e ∈ m.entries, R V (cv e.2) (.ok (g e.2))) (bhStr bhSlice : Str → Nat) :
    CopiesE R id g (FzStringMap.impl bhStr bhSlice) (FzStringMap.impl bhStr bhSlice) m (m.cloneE cv) := by
  obtain ⟨E, rfl⟩ := hR.eq
  obtain ⟨m', e1, e2⟩ := c81_fz_string_map (fun _ => rfl) (fun _ => rfl) (bhStr := bhStr) (bhSlice := bhSlice) (cv := fun v => .ok (g v)) (m := m) (g := g)
    (fun _ _ => rfl)
  exact ⟨m', e1 ▸ E.stringClone h, e2⟩

/-! ## Clones by arbitrary functions -/

/-- **C95** (`Clone`, arbitrary functions, ordered maps).  Cloning with functions that answer as they like and panic, and lookups in the clone with such functions,
run into no undefined behaviour. -/
theorem c95_clone_hostile_ordered (hk : ∀ k, SafeCode (ck k)) (hv : ∀ v, SafeCode (cv v)) (m : EytzingerMap K V) {qc : Q → K → Eff W Ordering}
    (h : ∀ q k, SafeCode (qc q k)) :
    ClonesSafely EytzingerMap.entries m (m.cloneE ck cv) (SafeLookups EytzingerMap.entries (EytzingerMap.searchE qc)) :=
  Sure.bind (Sure.cloneEntries hk hv _) (fun _ hl => Sure.pure ⟨hl, fun q w => orderedE_fine _ h q w⟩)

/-- **C95** (`Clone`, arbitrary functions, hash maps). -/
theorem c95_clone_hostile_hash [Target] (hk : ∀ k, SafeCode (ck k)) (hv : ∀ v, SafeCode (cv v)) {m : HashMap K V}
    (hm : ∀ (hQ : Q → Nat) (mt : Q → K → Bool), Used (HashMap.impl (bridgeHash hQ) mt) m) {hE : Q → Eff W Nat} {eqv : Q → K → Eff W Bool}
    (hh : ∀ q, SafeCode (hE q)) (h : ∀ q k, SafeCode (eqv q k)) :
    ClonesSafely (fun m => m.table.entries) m (m.cloneE ck cv) (SafeLookups (fun m => m.table.entries) (HashMap.searchE hE eqv)) := by
  refine Sure.bind (Sure.cloneEntries hk hv _) (fun es hl => Sure.pure ⟨hl, fun q w => hashE_fine (hh q) (fun c w' _ => ?_) h⟩)
  rw [findMut_length m.table hl]
  obtain ⟨m₀, h1, h2⟩ := hm (fun _ => c) (fun _ _ => false)
  exact (c50_memory_safe h1 h2).getMut q

/-- **C95** (`Clone`, arbitrary functions, scalar maps). -/
theorem c95_clone_hostile_scalar [Target] (hk : ∀ k, SafeCode (ck k)) (hv : ∀ v, SafeCode (cv v)) {m : FzScalarMap K V}
    (hm : ∀ (qindex : Q → Nat) (mt : Q → K → Bool), Used (FzScalarMap.impl qindex mt) m) {ix : Q → Eff W Nat} {eqv : Q → K → Eff W Bool}
    (hi : ∀ q, SafeCode (ix q)) (h : ∀ q k, SafeCode (eqv q k)) :
    ClonesSafely FzScalarMap.entries m (m.cloneE ck cv) (SafeLookups FzScalarMap.entries (FzScalarMap.searchE ix eqv)) := by
  have hu : ∀ qi mt q, NoUb (FzScalarMap.getMut qi mt m q) := fun qi mt q => by
    obtain ⟨m₀, h1, h2⟩ := hm qi mt
    exact (c50_memory_safe h1 h2).getMut q
  cases m with
  | hash m =>
    refine Sure.bind (Sure.bind (P' := fun m' : HashMap K V => ∃ es, es.length = m.table.entries.length ∧ m' = ⟨⟨m.table.slots, es, m.table.mask⟩⟩)
      (Sure.cloneEntries hk hv _) (fun es hl => Sure.pure ⟨es, hl, rfl⟩)) (fun m' hm' => Sure.pure ?_)
    obtain ⟨es, hl, rfl⟩ := hm'
    refine ⟨hl, fun q w => hashE_fine (hi q) (fun c w' _ => ?_) h⟩
    rw [findMut_length m.table hl]
    exact hu (fun _ => c) (fun _ _ => false) q
  | dense m =>
    refine Sure.bind (Sure.bind (P' := fun m' : DenseMap K V => ∃ es, es.length = m.entries.length ∧ m' = ⟨m.min, m.max, es⟩)
      (Sure.cloneEntries hk hv _) (fun es hl => Sure.pure ⟨es, hl, rfl⟩)) (fun m' hm' => Sure.pure ?_)
    obtain ⟨es, hl, rfl⟩ := hm'
    refine ⟨hl, fun q w => denseE_fine (fun qi => ?_) (hi q) w⟩
    rw [denseGetMut_length m hl]
    exact hu qi (fun _ _ => false) q
  | sparse m =>
    refine Sure.bind (Sure.bind (P' := fun m' : SparseMap K V => ∃ es, es.length = m.entries.length ∧ m' = ⟨m.min, m.max, m.lookup, es⟩)
      (Sure.cloneEntries hk hv _) (fun es hl => Sure.pure ⟨es, hl, rfl⟩)) (fun m' hm' => Sure.pure ?_)
    obtain ⟨es, hl, rfl⟩ := hm'
    refine ⟨hl, fun q w => sparseE_fine (fun qi => ?_) (hi q) w⟩
    rw [sparseGetMut_length m hl]
    exact hu qi (fun _ _ => false) q

/-- **C95** (`Clone`, arbitrary functions, string maps). -/
theorem c95_clone_hostile_string [Target] (hv : ∀ v, SafeCode (cv v)) {m m₀ : FzStringMap V} {sort : Sorter (Str × V)} {bhStr bhSlice : Str → Nat}
    {es : List (Str × V)} {a : SliceAnalysis} (hs : SorterOk sort) (hn : es.length < sizeLimit) (hm : FzStringMap.build sort bhStr bhSlice es a = .ok m₀)
    (hw : Stores (FzStringMap.impl bhStr bhSlice) m₀ m) {b1 b2 : Str → Eff W Nat} (h1 : ∀ s, SafeCode (b1 s)) (h2 : ∀ s, SafeCode (b2 s)) :
    ClonesSafely FzStringMap.entries m (m.cloneE cv) (SafeLookups FzStringMap.entries (FzStringMap.searchE b1 b2)) := by
  have hb : FzStringMap.Bounded m := by
    induction hw with
    | refl => exact FzStringMap.build_bounded hs hn hm
    | write i v _ ih => exact FzStringMap.Bounded.write ih i v
  have key : ∀ (m : HashMap Str V), m.table.Bounded → Sure (m.cloneE (fun k => pure k) cv)
      (fun m' : HashMap Str V => m'.table.entries.length = m.table.entries.length ∧ m'.table.Bounded) := by
    intro m hb
    refine Sure.bind (Sure.cloneEntries (fun _ _ => NoUb.ok _) hv _) (fun es hl => Sure.pure ⟨hl, hb.1, fun s hs => ?_⟩)
    obtain ⟨g1, g2⟩ := hb.2 s hs
    exact ⟨g1, by rw [show List.length _ = _ from hl]; exact g2⟩
  cases m with
  | leftRange r m =>
    exact Sure.bind (key m hb) (fun m' hm' => Sure.pure ⟨hm'.1, fun q w =>
      hashE_fine (leftRangeE_safe h2 r q) (fun c _ _ => (HashTable.Bounded.findMut hm'.2 c _).2.1) (fun _ _ => SafeCode.lift (NoUb.ok _))⟩)
  | rightRange r m =>
    exact Sure.bind (key m hb) (fun m' hm' => Sure.pure ⟨hm'.1, fun q w =>
      hashE_fine (rightRangeE_safe h2 r q) (fun c _ _ => (HashTable.Bounded.findMut hm'.2 c _).2.1) (fun _ _ => SafeCode.lift (NoUb.ok _))⟩)
  | hash m =>
    exact Sure.bind (key m hb) (fun m' hm' => Sure.pure ⟨hm'.1, fun q w =>
      hashE_fine (h1 q) (fun c _ _ => (HashTable.Bounded.findMut hm'.2 c _).2.1) (fun _ _ => SafeCode.lift (NoUb.ok _))⟩)

/-- **C95** (`Clone`, arbitrary functions, emitted maps). -/
theorem c95_clone_hostile_inline [Target] (hk : ∀ k, SafeCode (ck k)) (hv : ∀ v, SafeCode (cv v)) {m : InlineMap K V} {u : UserTraits W Q K}
    (hm : ∀ t : QueryTraits Q K, Used (InlineMap.impl t) m) (h1 : ∀ q k, SafeCode (u.equivalent q k)) (h2 : ∀ q k, SafeCode (u.compare q k))
    (h3 : ∀ q, SafeCode (u.index q)) (h4 : ∀ n q, SafeCode (u.fixedState n q)) (h5 : ∀ n s, SafeCode (u.fixedStateSlice n s)) :
    ClonesSafely InlineMap.entries m (m.cloneE ck cv) (SafeLookups InlineMap.entries (InlineMap.searchE u)) := by
  have hu : ∀ t q, NoUb (InlineMap.getMut t m q) := fun t q => by
    obtain ⟨m₀, h1, h2⟩ := hm t
    exact (c50_memory_safe h1 h2).getMut q
  obtain ⟨sz, r⟩ := m
  have hh : ∀ (hr : InlineHasher) q, SafeCode (hr.hashOneE u q) := by
    intro hr q
    cases hr with
    | bridge seed => exact h4 seed q
    | scalar => exact h3 q
    | length => exact SafeCode.lift (InlineHasher.hashOne_noUb (K := K) ⟨fun _ _ => true, fun _ _ => .eq, fun _ => 0, fun _ _ => 0, u.bytes, fun _ _ => 0⟩ .length q)
    | left a b seed => exact leftRangeE_safe (h5 seed) _ _
    | right a b seed => exact rightRangeE_safe (h5 seed) _ _
  let P : InlineRepr K V → Prop := fun r' => (InlineMap.entries ⟨sz, r'⟩).length = (InlineMap.entries ⟨sz, r⟩).length ∧
    SafeLookups InlineMap.entries (InlineMap.searchE u) ⟨sz, r'⟩
  refine Sure.bind (P := P) ?_ (fun r' h => Sure.pure h)
  cases r with
  | scan m =>
    refine Sure.bind (Sure.bind (P' := fun m' : ScanMap K V => m'.entries.length = m.entries.length)
      (Sure.cloneEntries hk hv _) (fun es hl => Sure.pure hl)) (fun m' hl => Sure.pure ⟨hl, fun q w => ?_⟩)
    have := scanLoopE_fine h1 q m'.entries 0 none w (fun k hk => by cases hk)
    rw [Nat.zero_add] at this
    exact this
  | eytzinger m =>
    exact Sure.bind (Sure.bind (P' := fun m' : EytzingerMap K V => m'.entries.length = m.entries.length)
      (Sure.cloneEntries hk hv _) (fun es hl => Sure.pure hl)) (fun m' hl => Sure.pure ⟨hl, fun q w => orderedE_fine _ h2 q w⟩)
  | dense m =>
    refine Sure.bind (Sure.bind (P' := fun m' : DenseMap K V => ∃ es, es.length = m.entries.length ∧ m' = ⟨m.min, m.max, es⟩)
      (Sure.cloneEntries hk hv _) (fun es hl => Sure.pure ⟨es, hl, rfl⟩)) (fun m' hm' => Sure.pure ?_)
    obtain ⟨es, hl, rfl⟩ := hm'
    refine ⟨hl, fun q w => denseE_fine (fun qi => ?_) (h3 q) w⟩
    rw [denseGetMut_length m hl]
    exact hu ⟨fun _ _ => true, fun _ _ => .eq, qi, fun _ _ => 0, u.bytes, fun _ _ => 0⟩ q
  | sparse m =>
    refine Sure.bind (Sure.bind (P' := fun m' : SparseMap K V => ∃ es, es.length = m.entries.length ∧ m' = ⟨m.min, m.max, m.lookup, es⟩)
      (Sure.cloneEntries hk hv _) (fun es hl => Sure.pure ⟨es, hl, rfl⟩)) (fun m' hm' => Sure.pure ?_)
    obtain ⟨es, hl, rfl⟩ := hm'
    refine ⟨hl, fun q w => sparseE_fine (fun qi => ?_) (h3 q) w⟩
    rw [sparseGetMut_length m hl]
    exact hu ⟨fun _ _ => true, fun _ _ => .eq, qi, fun _ _ => 0, u.bytes, fun _ _ => 0⟩ q
  | hash hr m =>
    refine Sure.bind (Sure.bind (P' := fun m' : HashMap K V => ∃ es, es.length = m.table.entries.length ∧ m' = ⟨⟨m.table.slots, es, m.table.mask⟩⟩)
      (Sure.cloneEntries hk hv _) (fun es hl => Sure.pure ⟨es, hl, rfl⟩)) (fun m' hm' => Sure.pure ?_)
    obtain ⟨es, hl, rfl⟩ := hm'
    refine ⟨hl, fun q w => hashE_fine (hh hr q) (fun c w' hx => ?_) h1⟩
    rw [findMut_length m.table hl]
    obtain ⟨t, e1, e2⟩ := hashOneE_reached hx
    have := hu t q
    simp only [InlineMap.getMut, HashMap.getMut, e1, e2] at this
    exact this
  | hashNC hr m =>
    refine Sure.bind (Sure.bind (P' := fun m' : HashMapNC K V => ∃ es, es.length = m.table.entries.length ∧ m' = ⟨⟨m.table.slots, es, m.table.mask⟩⟩)
      (Sure.cloneEntries hk hv _) (fun es hl => Sure.pure ⟨es, hl, rfl⟩)) (fun m' hm' => Sure.pure ?_)
    obtain ⟨es, hl, rfl⟩ := hm'
    refine ⟨hl, fun q w => hashNCE_fine (hh hr q) (fun c w' hx => ?_) h1⟩
    rw [findMutNC_length m.table hl]
    obtain ⟨t, e1, e2⟩ := hashOneE_reached hx
    have := hu t q
    simp only [InlineMap.getMut, HashMapNC.getMut, e1, e2] at this
    exact this

end

/-! ## Cases -/

/-- Comparing values counts its calls; the second call panics. -/
def valueEqE (a b : Char) : Eff Nat Bool := fun n => (if n = 1 then .error (.panic "values") else .ok (a == b), n + 1)

attribute [local instance] w64 in
/-- Two scan maps with the same entries in another order, whose keys have an equality that counts on its own.  `==` panics or says `true`; both happen. -/
example :
    let m := ScanMap.new natEq [(1, 'a'), (2, 'b')]
    let m' := ScanMap.new natEq [(2, 'b'), (1, 'a')]
    let S : ScanMap Nat Char → Nat → Eff Nat (Option Nat) := ScanMap.searchE (fun q k => Eff.lift (.ok (natEq q k)))
    (∃ b, PanicsOr (MapImpl.eqE (ScanMap.impl natEq : MapImpl _ Nat _ _) (ScanMap.impl natEq) S valueEqE m m') (.ok b) ∧
      (b = true ↔ SameMapping natEq (fun a b : Char => a == b) [(1, 'a'), (2, 'b')] [(2, 'b'), (1, 'a')])) ∧
    (MapImpl.eqE (ScanMap.impl natEq : MapImpl _ Nat _ _) (ScanMap.impl natEq) S valueEqE m m' 5).1 = .ok true ∧
    (MapImpl.eqE (ScanMap.impl natEq : MapImpl _ Nat _ _) (ScanMap.impl natEq) S valueEqE m m' 0).1 = .error (.panic "values") := by
  refine ⟨c95_map_eq Sense.panicsOr (Built.scan natEq_lawful (LawfulEq'.query natEq_lawful)) (Built.scan natEq_lawful (LawfulEq'.query natEq_lawful))
    (.scan fun _ _ _ => .inr rfl) (fun a b n => ?_), rfl, rfl⟩
  by_cases h : n = 1
  · exact .inl ⟨"values", by simp [valueEqE, h]⟩
  · exact .inr (by simp [valueEqE, h])

attribute [local instance] w64 in
/-- The comparisons of values that are made: the second differs, the third is not made. -/
example :
    let m := ScanMap.new natEq [(1, 'a'), (2, 'b'), (3, 'c')]
    let m' := ScanMap.new natEq [(3, 'c'), (2, 'x'), (1, 'a')]
    let S : ScanMap Nat Char → Nat → Eff (List (Char × Char)) (Option Nat) := ScanMap.searchE (fun q k => Eff.lift (.ok (natEq q k)))
    (∃ b l, MapImpl.eqE (ScanMap.impl natEq : MapImpl _ Nat _ _) (ScanMap.impl natEq) S (recordEq fun a b => a == b) m m' [] = (.ok b, l) ∧
      (b = true ↔ SameMapping natEq (fun a b : Char => a == b) [(1, 'a'), (2, 'b'), (3, 'c')] [(3, 'c'), (2, 'x'), (1, 'a')]) ∧
      ValuesCompared natEq (fun a b : Char => a == b) m.entries [(3, 'c'), (2, 'x'), (1, 'a')] l ∧ (3 ≠ 3 → l = []) ∧ (b = true → l.length = 3)) ∧
    MapImpl.eqE (ScanMap.impl natEq : MapImpl _ Nat _ _) (ScanMap.impl natEq) S (recordEq fun a b => a == b) m m' [] =
      (.ok false, [('a', 'a'), ('b', 'x')]) := by
  exact ⟨c95_values_compared (Built.scan (mt := natEq) natEq_lawful (LawfulEq'.query natEq_lawful)) (Built.scan natEq_lawful (LawfulEq'.query natEq_lawful))
    (.scan fun _ _ _ => rfl) _, rfl⟩

/-- `Clone` of numbers that counts its calls and panics in the fourth. -/
def fourthClone (k : Nat) : Eff Nat Nat := fun n => (if n = 3 then .error (.panic "clone") else .ok k, n + 1)

theorem fourthClone_honest (k : Nat) : PanicsOr (fourthClone k) (.ok k) := by
  intro n
  by_cases h : n = 3
  · exact .inl ⟨"clone", by simp [fourthClone, h]⟩
  · exact .inr (by simp [fourthClone, h])

/-- A clone of an ordered map panics or is a faithful copy; both happen. -/
example :
    let m : EytzingerMap Nat Nat := ⟨[(2, 20), (1, 10), (3, 30)]⟩
    CopiesE (fun _ x r => PanicsOr x r) id id (FzOrderedMap.impl natCmp) (FzOrderedMap.impl natCmp) m (m.cloneE fourthClone fourthClone) ∧
    (m.cloneE fourthClone fourthClone 0).1 = .error (.panic "clone") ∧
    ((m.cloneE fourthClone fourthClone 4).1.map fun m => m.entries) = .ok [(2, 20), (1, 10), (3, 30)] :=
  ⟨(c95_clone Sense.panicsOr natEq_lawful (LawfulEq'.query natEq_lawful) natCmp_lawful natCmp_query).2.1 _
    (fun _ _ => ⟨fourthClone_honest _, fourthClone_honest _⟩) (fun _ _ => natCmp_lawful.refl _), rfl, rfl⟩

/-- Clones that are other numbers each time: the clone of the ordered map is out of order, but of the right length, and can be searched. -/
example :
    let m : EytzingerMap Nat Nat := ⟨[(2, 20), (1, 10), (3, 30)]⟩
    let c : Nat → Eff Nat Nat := fun _ n => (.ok n, n + 1)
    ClonesSafely EytzingerMap.entries m (m.cloneE c c) (SafeLookups EytzingerMap.entries (EytzingerMap.searchE (W := Nat) fun q k => Eff.lift (.ok (natCmp q k)))) ∧
    ((m.cloneE c c 0).1.map fun m => m.entries) = .ok [(0, 1), (2, 3), (4, 5)] :=
  ⟨c95_clone_hostile_ordered (fun _ _ => NoUb.ok _) (fun _ _ => NoUb.ok _) _ (fun _ _ _ => NoUb.ok _), rfl⟩

attribute [local instance] w64 in
/-- A dense map whose keys clone to other keys, and whose queries give another index every time: lookups in the clone stay in it. -/
example :
    let m : FzScalarMap Nat Nat := .dense { min := 3, max := 4, entries := [(3, 30), (4, 40)] }
    let c : Nat → Eff Nat Nat := fun _ n => (.ok n, n + 1)
    ClonesSafely FzScalarMap.entries m (m.cloneE c c) (SafeLookups FzScalarMap.entries (FzScalarMap.searchE c fun _ _ => Eff.lift (.ok true))) ∧
    ((m.cloneE c c 7).1.map fun m => m.entries) = .ok [(7, 8), (9, 10)] := by
  refine ⟨c95_clone_hostile_scalar (fun _ _ => NoUb.ok _) (fun _ _ => NoUb.ok _) (fun qi mt => ⟨_, ?_, .refl⟩) (fun _ _ => NoUb.ok _) (fun _ _ _ => NoUb.ok _), rfl⟩
  exact .fzScalar (b := .release) (sort := slotSort) (index := fun k => k % 100) (a := .denseRange) (es := [(3, 30), (4, 40)]) qi mt slotSort_ok
    (fun k => by have := Nat.mod_lt k (show 100 > 0 by omega); show k % 100 ≤ 2 ^ 64 - 1; omega) (by decide) (by decide) rfl

attribute [local instance] w64 in
/-- The same for a hash map: the table of the clone is the one of the original, whatever the clones of the keys are. -/
example (m : HashMap Nat Nat)
    (hm : HashMap.fromDedupped .large slotSort (bridgeHash fun k => 7 * k) [(10, 1), (20, 2), (30, 3)] = .ok (.ok m)) :
    let c : Nat → Eff Nat Nat := fun _ n => (.ok n, n + 1)
    ClonesSafely (fun m => m.table.entries) m (m.cloneE c c)
      (SafeLookups (fun m => m.table.entries) (HashMap.searchE c fun _ _ => Eff.lift (.ok true))) :=
  c95_clone_hostile_hash (fun _ _ => NoUb.ok _) (fun _ _ => NoUb.ok _)
    (fun hQ mt => ⟨_, .hash hQ mt slotSort_ok (by decide) hm, .refl⟩) (fun _ _ => NoUb.ok _) (fun _ _ _ => NoUb.ok _)

attribute [local instance] w64 in
/-- There is such a map. -/
example : (match HashMap.fromDedupped .large slotSort (bridgeHash fun k : Nat => 7 * k) [(10, 1), (20, 2), (30, 3)] with
    | .ok (.ok m) => m.table.entries.length
    | _ => 0) = 3 := by cbv

attribute [local instance] w64 in
/-- A string map with a value type whose clones are other values, looked up with a hasher that gives another hash each time. -/
example (m : FzStringMap Nat)
    (hm : FzStringMap.build slotSort (fun s => s.length) (fun s => s.length) [([1], 1), ([1, 2], 2), ([1, 2, 3], 3)] .general = .ok m) :
    let c : Nat → Eff Nat Nat := fun _ n => (.ok n, n + 1)
    ClonesSafely FzStringMap.entries m (m.cloneE c)
      (SafeLookups FzStringMap.entries (FzStringMap.searchE (fun _ n => (.ok n, n + 1)) (fun _ n => (.ok n, n + 1)))) :=
  c95_clone_hostile_string (fun _ _ => NoUb.ok _) slotSort_ok (by decide) hm .refl (fun _ _ => NoUb.ok _) (fun _ _ => NoUb.ok _)

attribute [local instance] w64 in
/-- There is such a map. -/
example : (match FzStringMap.build slotSort (fun s => s.length) (fun s => s.length) [([1], 1), ([1, 2], 2), ([1, 2, 3], 3)] .general with
    | .ok m => (FzStringMap.entries m).length
    | _ => 0) = 3 := by cbv

attribute [local instance] w64 in
/-- A map emitted as a scan of two entries. -/
example (u : UserTraits Nat Nat Nat) (h1 : ∀ q k, SafeCode (u.equivalent q k)) (h2 : ∀ q k, SafeCode (u.compare q k))
    (h3 : ∀ q, SafeCode (u.index q)) (h4 : ∀ n q, SafeCode (u.fixedState n q)) (h5 : ∀ n s, SafeCode (u.fixedStateSlice n s)) :
    let m : InlineMap Nat Nat := ⟨2, .scan ⟨[(1, 10), (2, 20)]⟩⟩
    let c : Nat → Eff Nat Nat := fun _ n => (.ok n, n + 1)
    ClonesSafely InlineMap.entries m (m.cloneE c c) (SafeLookups InlineMap.entries (InlineMap.searchE u)) ∧
    ((m.cloneE c c 7).1.map fun m => m.entries) = .ok [(7, 8), (9, 10)] := by
  refine ⟨c95_clone_hostile_inline (fun _ _ => NoUb.ok _) (fun _ _ => NoUb.ok _) (fun t => ⟨_, ?_, .refl⟩) h1 h2 h3 h4 h5, rfl⟩
  exact .emitPlain (B := Nat) (F := Unit) t (g := Generator.new 2) (es := [⟨1, 1, 10⟩, ⟨2, 2, 20⟩]) (e := _) (eq' := natEq) (cmp' := natCmp)
    (fz := fun _ _ => none) (.inr (.inl rfl)) rfl

end Frozen.Props
