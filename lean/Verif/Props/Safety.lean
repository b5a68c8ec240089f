import Verif.Lemmas.Safety
import Verif.Props.Maps

/-!
# Property theorems: memory safety without trust in trait implementations (C50-C52)
-/

namespace Frozen.Props

open Frozen.Spec Frozen.Model

variable {M Q K V : Type}

/-! ## C50: arbitrary trait implementations -/

/-- **C50.** Whatever the implementations of `Eq`, `Ord`, `Hash`, `Equivalent`, `Comparable` and `Scalar` do (as functions; for
`Scalar::index` and `Hash` changing their answers see C51), no lookup on a map built by any constructor of the crate, or by code
it emitted, and then modified through `get_mut`/`iter_mut` references, runs into undefined behaviour; the reference handed out by
`get_mut` points at an entry. -/
theorem c50_memory_safe [Target] {I : MapImpl M Q K V} {m : M} (h : AnyMap I m) {m' : M} (hw : Stores I m m') : MemSafe I m' := by
  cases h with
  | scan mt es => exact ScanMap.safe _ _
  | eytzinger qcmp h => exact EytzingerMap.safe _ _
  | dense qindex hi hn h =>
    have hb : DenseMap.Bounded m' := by
      induction hw with
      | refl => exact DenseMap.newSorted_bounded hi h
      | write i v _ ih => intro hle; have := ih hle; simpa [DenseMap.impl, writeAt_length] using this
    exact hb.safe qindex
  | sparse qindex hi h =>
    have hb : SparseMap.Bounded m' := by
      induction hw with
      | refl => exact SparseMap.newSorted_bounded hi h
      | write i v _ ih =>
        exact ⟨ih.1, fun v hv => by have := ih.2 v hv; simpa [SparseMap.impl, writeAt_length] using this⟩
    exact hb.safe qindex
  | hash hQ mt hs hn h =>
    have hb : HashTable.Bounded (HashMap.table m') := by
      induction hw with
      | refl => exact HashMap.fromDedupped_bounded hs hn h
      | write i v _ ih =>
        exact ⟨ih.1, fun v hv => by have := ih.2 v hv; simpa [HashMap.impl, writeAt_length] using this⟩
    exact HashMap.safe hb (fun q => (NoUb.ok _ : NoUb (bridgeHash hQ q))) mt
  | fzScalar qindex mt hs hi hn ha h =>
    have hb : FzScalarMap.Bounded m' := by
      induction hw with
      | refl => exact FzScalarMap.build_bounded hs hi hn ha h
      | write i v _ ih => exact FzScalarMap.Bounded.write ih i v
    exact hb.safe qindex mt
  | fzString hs hn h =>
    have hb : FzStringMap.Bounded m' := by
      induction hw with
      | refl => exact FzStringMap.build_bounded hs hn h
      | write i v _ ih => exact FzStringMap.Bounded.write ih i v
    exact hb.safe _ _
  | default qindex mt =>
    have hb : FzScalarMap.Bounded m' := by
      induction hw with
      | refl => intro h0; simp [DenseMap.default] at h0
      | write i v _ ih => exact FzScalarMap.Bounded.write ih i v
    exact hb.safe qindex mt
  | emitPlain t h hc =>
    have hb : InlineMap.Bounded m' := by
      induction hw with
      | refl =>
        refine compile_plain_bounded ?_ hc
        rcases h with h | rfl | rfl | rfl
        · simp only [Generator.genEytzinger, bind, Except.bind] at h
          split at h
          · cases h
          · cases h; exact .inr (.inr (.inl ⟨_, _, rfl⟩))
        · exact .inl ⟨_, _, rfl⟩
        · exact .inr (.inl ⟨_, _, rfl⟩)
        · exact .inr (.inr (.inr ⟨_, _, rfl⟩))
      | write i v _ ih => exact InlineMap.Bounded.write ih i v
    exact hb.safe t
  | emitHash t hs hn h hc =>
    have hb : InlineMap.Bounded m' := by
      induction hw with
      | refl => exact compile_genHash_bounded hs hn h hc
      | write i v _ ih => exact InlineMap.Bounded.write ih i v
    exact hb.safe t
  | emitScalar t hs hi hn ha h hc =>
    have hb : InlineMap.Bounded m' := by
      induction hw with
      | refl => exact compile_genScalar_bounded hs hi hn ha h hc
      | write i v _ ih => exact InlineMap.Bounded.write ih i v
    exact hb.safe t

/-- **C50**, operators: indexing, `==` and the (unchecked) disjoint lookups do not run into undefined behaviour either;
aliasing of the returned references is C23. -/
theorem c50_operators [Target] {I : MapImpl M Q K V} {m : M} (h : AnyMap I m) {m' : M} (hw : Stores I m m') :
    (∀ q, NoUb (I.index m' q)) ∧
    (∀ (qs : List Q), NoUb (I.getDisjointUncheckedMut m' qs)) ∧
    (∀ {M₁ Q₁ V₁ : Type} (I₁ : MapImpl M₁ Q₁ Q V₁) (eqV : V₁ → V → Bool) (m₁ : M₁) (J : MapImpl M Q Q V),
      J.get = I.get → NoUb (I₁.eq J eqV m₁ m')) := by
  have hs := c50_memory_safe h hw
  refine ⟨fun q => ?_, fun qs => ?_, fun I₁ eqV m₁ J hJ => ?_⟩
  · refine NoUb.bind (hs.get q) fun x _ => ?_
    cases x with
    | none => intro w hw; cases hw
    | some v => exact NoUb.ok _
  · induction qs with
    | nil => exact NoUb.ok _
    | cons q qs ih => exact NoUb.bind (hs.getMut q) fun _ _ => NoUb.bind ih fun _ _ => NoUb.ok _
  · unfold MapImpl.eq
    split
    · exact NoUb.ok _
    · generalize I₁.entries m₁ = es
      induction es with
      | nil => exact NoUb.ok _
      | cons e es ih =>
        unfold allEntriesIn
        refine NoUb.bind (by rw [hJ]; exact hs.get e.1) fun x _ => ?_
        cases x with
        | none => exact NoUb.ok _
        | some v =>
          dsimp only
          split
          · exact ih
          · exact NoUb.ok _

/-! The constructors as called by users are instances. -/

theorem c50_dense_new [Target] {b : Build} {cmp : K → K → Ordering} {index : K → Nat} (hi : ∀ k, index k ≤ usizeMax)
    {es : List (K × V)} (hn : es.length < sizeLimit) {m : DenseMap K V} (h : DenseMap.new b cmp index es = .ok (.ok m))
    (qindex : Q → Nat) : MemSafe (DenseMap.impl qindex) m := by
  rw [DenseMap.new_eq_newSorted] at h
  exact c50_memory_safe (.dense qindex hi (Nat.lt_of_le_of_lt (sad_subset es _).1 hn) h) .refl

theorem c50_sparse_new [Target] {b : Build} {cmp : K → K → Ordering} {index : K → Nat} (hi : ∀ k, index k ≤ usizeMax)
    {es : List (K × V)} {m : SparseMap K V} (h : SparseMap.new b cmp index es = .ok m)
    (qindex : Q → Nat) : MemSafe (SparseMap.impl qindex) m := by
  rw [SparseMap.new_eq_newSorted] at h
  exact c50_memory_safe (.sparse qindex hi h) .refl

theorem c50_fz_scalar_new [Target] {b : Build} {sort : Sorter (K × V)} (hs : SorterOk sort) {cmp : K → K → Ordering}
    {index : K → Nat} (hi : ∀ k, index k ≤ usizeMax) {es : List (K × V)} (hn : es.length < sizeLimit) {m : FzScalarMap K V}
    (h : FzScalarMap.new b sort cmp index es = .ok m) (qindex : Q → Nat) (mt : Q → K → Bool) :
    MemSafe (FzScalarMap.impl qindex mt) m := by
  simp only [FzScalarMap.new, bind, Except.bind] at h
  split at h
  · cases h
  · rename_i a ha
    exact c50_memory_safe (.fzScalar qindex mt hs hi (Nat.lt_of_le_of_lt (sad_subset es _).1 hn) ha h) .refl

theorem c50_fz_hash_new [Target] {find : HbFind} {sort : Sorter (K × V)} (hs : SorterOk sort) {eqK : K → K → Bool} {bh : K → Nat}
    {es : List (K × V)} (hn : es.length < sizeLimit) {m : HashMap K V}
    (h : FzHashMap.withHasher find sort eqK bh es = .ok m) (hQ : Q → Nat) (mt : Q → K → Bool) :
    MemSafe (HashMap.impl (bridgeHash hQ) mt) m := by
  simp only [FzHashMap.withHasher, bind, Except.bind] at h
  split at h
  · cases h
  · rename_i S hS
    split at h
    · cases h
    · rename_i r hr
      cases r with
      | error e => cases h
      | ok m' =>
        cases h
        exact c50_memory_safe (.hash hQ mt hs (Nat.lt_of_le_of_lt (usingHash_length hS) hn) hr) .refl

theorem c50_fz_string_new [Target] {sort : Sorter (Str × V)} (hs : SorterOk sort) {bhStr bhSlice : Str → Nat}
    {es : List (Str × V)} (hn : es.length < sizeLimit) {m : FzStringMap V}
    (h : FzStringMap.withHasher sort bhStr bhSlice es = .ok m) : MemSafe (FzStringMap.impl bhStr bhSlice) m := by
  simp only [FzStringMap.withHasher, bind, Except.bind] at h
  split at h
  · cases h
  · exact c50_memory_safe (.fzString hs (Nat.lt_of_le_of_lt (sad_subset es _).1 hn) h) .refl

attribute [local instance] w64 in
/-- An unlawful `Scalar` (the index runs against the order) that gets past the test of `DenseScalarLookupMap::new`: the
map holds one entry, and only its index is let through to the unchecked access. -/
example : (match DenseMap.new .release (fun _ _ : Nat => .eq) (fun k => 7 - k) [(1, 'a'), (3, 'b')] with
    | .ok (.ok m) => (m.min, m.max, m.entries)
    | _ => (0, 0, [])) = (4, 4, [(3, 'b')]) := by cbv

/-! ## C51: trait implementations that change their answers -/

/-- **C51 (refuted).** `DenseScalarLookupMap::new` asks each key for its index several times and trusts the last
answers: if `Scalar::index` (a safe trait function) answers `5` where it first answered `0`, a lookup reads past the
end of the entries. -/
theorem c51_dense_varying_ub [T : Target] : ∃ (i1 i2 i3 i4 : Unit → Nat) (es : List (Unit × Nat)) (m : DenseMap Unit Nat),
    (∀ k, i1 k ≤ usizeMax ∧ i2 k ≤ usizeMax ∧ i3 k ≤ usizeMax ∧ i4 k ≤ usizeMax) ∧
    (∀ b, DenseMap.newSorted b i1 i2 i3 i4 es = .ok (.ok m)) ∧
    ∃ (q : Nat) (what : String), q ≤ usizeMax ∧ (DenseMap.impl (fun q : Nat => q)).get m q = .error (.ub what) := by
  obtain ⟨_, rfl | rfl⟩ := T <;>
    exact ⟨fun _ => 0, fun _ => 0, fun _ => 0, fun _ => 5, [((), 7)], ⟨0, 5, [((), 7)]⟩, fun _ => by simp [usizeMax], fun b => by cases b <;> rfl,
      5, _, by decide, rfl⟩

/-- **C51 (refuted)** for the public `FzScalarMap`. -/
theorem c51_fz_scalar_varying_ub [T : Target] : ∃ (i0 i3 i4 : Unit → Nat) (es : List (Unit × Nat)) (m : FzScalarMap Unit Nat),
    (∀ k, i0 k ≤ usizeMax ∧ i3 k ≤ usizeMax ∧ i4 k ≤ usizeMax) ∧
    (∀ b sort, FzScalarMap.newSorted b sort i0 i3 i4 es = .ok m) ∧
    ∃ (q : Nat) (what : String), q ≤ usizeMax ∧
      (FzScalarMap.impl (fun q : Nat => q) (fun _ _ => true)).get m q = .error (.ub what) := by
  obtain ⟨_, rfl | rfl⟩ := T <;>
    exact ⟨fun _ => 0, fun _ => 0, fun _ => 5, [((), 7)], .dense ⟨0, 5, [((), 7)]⟩, fun _ => by simp [usizeMax],
      fun b sort => by cases b <;> rfl, 5, _, by decide, rfl⟩

/-- **C51** for the sparse map: safe however `Scalar::index` changes its answers. -/
theorem c51_sparse_partial [Target] {b : Build} {i1 i2 : K → Nat} {i3 : Nat → K → Nat} (hi : ∀ k, i2 k ≤ usizeMax)
    {es : List (K × V)} {m : SparseMap K V} (h : SparseMap.newSorted b i1 i2 i3 es = .ok m) (qindex : Q → Nat) {m' : SparseMap K V}
    (hw : Stores (SparseMap.impl qindex) m m') : MemSafe (SparseMap.impl qindex) m' := by
  have hb : SparseMap.Bounded m' := by
    induction hw with
    | refl => exact SparseMap.newSorted_bounded hi h
    | write i v _ ih =>
      exact ⟨ih.1, fun v hv => by have := ih.2 v hv; simpa [SparseMap.impl, writeAt_length] using this⟩
  exact hb.safe qindex

attribute [local instance] w64 in
/-- An index that moves under the constructor's feet: still inside the table. -/
example : (match SparseMap.newSorted .release (fun _ => 4) (fun _ => 9) (fun i _ => 5 + i) [((), 'a'), ((), 'b')] with
    | .ok m => (m.min, m.max, m.lookup)
    | _ => (0, 0, [])) = (4, 9, [0, 1, 2, 0, 0, 0]) := by decide

/-- **C51** for the hash tables: safe however `Hash` changes its answers between the analysis, the placement and the
lookups. -/
theorem c51_hash_partial [Target] {cm : Magnitude} {sort : Sorter (K × V)} (hs : SorterOk sort) {es : List (K × V)}
    {h1 h2 : K × V → Nat} (hn : es.length < sizeLimit) {t : HashTable (K × V)}
    (h : HashTable.newVarying cm sort es h1 h2 = .ok (.ok t)) (hQ : Q → Nat) (mt : Q → K → Bool) {m' : HashMap K V}
    (hw : Stores (HashMap.impl (bridgeHash hQ) mt) ⟨t⟩ m') : MemSafe (HashMap.impl (bridgeHash hQ) mt) m' := by
  have hb : HashTable.Bounded (HashMap.table m') := by
    induction hw with
    | refl => exact (HashTable.newVarying_bounded hs hn h).1
    | write i v _ ih =>
      exact ⟨ih.1, fun v hv => by have := ih.2 v hv; simpa [HashMap.impl, writeAt_length] using this⟩
  exact HashMap.safe hb (fun q => (NoUb.ok _ : NoUb (bridgeHash hQ q))) mt

attribute [local instance] w64 in
/-- Hash codes that change between the analysis and the placement. -/
example : (match HashTable.newVarying .large slotSort [(10, 'a'), (20, 'b'), (30, 'c')] (fun e => e.1) (fun e => 7 * e.1) with
    | .ok (.ok t) => t.entries.length
    | _ => 0) = 3 := by cbv

/-! ## C52: the constructors that take finished tables -/

/-- **C52 (refuted).** `InlineDenseScalarLookupMap::new_raw` (core/inline_maps/inline_dense_scalar_lookup_map.rs l.42-48) is a
safe function and stores `min` and `max` unchecked. -/
theorem c52_dense_raw_ub [Target] (t : QueryTraits Nat Nat) (ht : t.index = id) :
    ∃ (min max : Nat) (what : String), min ≤ usizeMax ∧ max ≤ usizeMax ∧
      (InlineMap.impl t).get ⟨1, .dense ⟨min, max, [(0, 'a')]⟩⟩ 5 = .error (.ub what) := by
  refine ⟨0, 5, "get_unchecked out of bounds", by omega, by have := target_cases; omega, ?_⟩
  show DenseMap.get t.index _ _ = _
  rw [ht]
  rfl

/-- **C52 (refuted)** for `InlineSparseScalarLookupMap::new_raw` (core/inline_maps/inline_sparse_scalar_lookup_map.rs
l.45-52): both `max` and the contents of `lookup` are trusted. -/
theorem c52_sparse_raw_ub (t : QueryTraits Nat Nat) (ht : t.index = id) :
    (∃ what, (InlineMap.impl t).get ⟨1, .sparse ⟨0, 5, [1], [(0, 'a')]⟩⟩ 5 = .error (.ub what)) ∧
    (∃ what, (InlineMap.impl t).get ⟨1, .sparse ⟨0, 0, [2], [(0, 'a')]⟩⟩ 0 = .error (.ub what)) := by
  refine ⟨⟨"get_unchecked out of bounds", ?_⟩, ⟨"get_unchecked out of bounds", ?_⟩⟩
  · show SparseMap.get t.index _ _ = _
    rw [ht]
    rfl
  · show SparseMap.get t.index _ _ = _
    rw [ht]
    rfl

/-- **C52 (refuted)** for `InlineHashTable::new_raw` (core/hash_tables/inline_hash_table.rs l.29-35): a slot that claims more
entries than there are; every lookup is undefined. -/
theorem c52_hash_raw_ub : ∃ t, HashTable.newRaw [⟨0, 2⟩] [((0 : Nat), 'a')] = .ok t ∧
    ∀ (hQ : Nat → Nat) (mt : Nat → Nat → Bool) q, ∃ what,
      (HashMap.impl (bridgeHash hQ) mt).get ⟨t⟩ q = .error (.ub what) := by
  refine ⟨_, rfl, fun hQ mt q => ⟨"get_unchecked range out of bounds", ?_⟩⟩
  show HashMap.get (bridgeHash hQ) mt _ q = _
  simp [HashMap.get, bridgeHash, HashTable.find, getUnchecked, getUncheckedRange, bind, Except.bind]

/-- **C52 (refuted)** for `InlineHashTableNoCollisions::new_raw` (core/hash_tables/inline_hash_table_no_collisions.rs l.27-33). -/
theorem c52_hash_nc_raw_ub : ∃ t, HashTableNC.newRaw [2] [((0 : Nat), 'a')] = .ok t ∧
    ∀ (hQ : Nat → Nat) (mt : Nat → Nat → Bool) q, ∃ what,
      (HashMapNC.impl (bridgeHash hQ) mt).get ⟨t⟩ q = .error (.ub what) := by
  refine ⟨_, rfl, fun hQ mt q => ⟨"get_unchecked out of bounds", ?_⟩⟩
  show HashMapNC.get (bridgeHash hQ) mt _ q = _
  simp [HashMapNC.get, bridgeHash, HashTableNC.find, getUnchecked, bind, Except.bind]

/-- **C52** for the two types whose `new_raw` takes only entries: `InlineScanMap` and `InlineEytzingerSearchMap` are
safe for every argument, sorted or not. -/
theorem c52_scan_eytzinger_partial (t : QueryTraits Q K) (es : List (K × V)) :
    MemSafe (InlineMap.impl t) ⟨es.length, .scan ⟨es⟩⟩ ∧ MemSafe (InlineMap.impl t) ⟨es.length, .eytzinger ⟨es⟩⟩ :=
  ⟨InlineMap.Bounded.safe (m := ⟨es.length, .scan ⟨es⟩⟩) trivial t,
    InlineMap.Bounded.safe (m := ⟨es.length, .eytzinger ⟨es⟩⟩) trivial t⟩

/-- Arguments with which the other two are safe: what the emitted code has to establish (and does, C50). -/
theorem c52_dense_sparse_condition_partial (t : QueryTraits Q K) (es : List (K × V)) (lookup : List Nat) (min max : Nat)
    (h : min ≤ max → max - min < es.length) (h' : (min ≤ max → max - min < lookup.length) ∧ ∀ v ∈ lookup, v ≤ es.length) :
    MemSafe (InlineMap.impl t) ⟨es.length, .dense ⟨min, max, es⟩⟩ ∧
      MemSafe (InlineMap.impl t) ⟨es.length, .sparse ⟨min, max, lookup, es⟩⟩ :=
  ⟨InlineMap.Bounded.safe (m := ⟨es.length, .dense ⟨min, max, es⟩⟩) h t,
    InlineMap.Bounded.safe (m := ⟨es.length, .sparse ⟨min, max, lookup, es⟩⟩) h' t⟩

example : ((2 : Nat) ≤ 3 → 3 - 2 < [(2, 'a'), (3, 'b')].length) ∧ (∀ v ∈ [1, 2], v ≤ [(2, 'a'), (3, 'b')].length) := by decide

end Frozen.Props
