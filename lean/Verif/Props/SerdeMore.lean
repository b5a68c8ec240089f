import Verif.Props.Serde

/-!
# Property theorems: serialization round-trips, continued (C34)

Equality of deserialized sets with the original, and scalar maps and sets read from what any other collection wrote.
-/

namespace Frozen.Props

open Frozen Frozen.Spec Frozen.Model

variable {K V Q T M E : Type} {size : Nat} {find : HbFind}

/-- **C34** (equality) A set read back as an `FzHashSet` equals the set that was written. -/
theorem c34_hash_set_equal [Target] (hf : HbFindOk find) {sort : Sorter (T × Unit)} (hso : SorterOk sort) {eqT : T → T → Bool}
    {hT : T → Nat} (hh : ∀ x y, eqT x y = true → hT x = hT y) {xs : List T} (hn : xs.length < sizeLimit) {I : SetImpl M T T} {m : M}
    (hb : BuiltSet eqT eqT xs I m) {acc : Access E T} (hc : Carries size (I.serialize m) acc) :
    ∃ m', FzHashSet.visitSeq size find sort eqT hT acc = .ok (.ok m') ∧
      setEq (I.view m) ((fzSetImpl (FzHashMap.impl hT eqT)).view m') = .ok true := by
  obtain ⟨he, hq, hs⟩ := hb.spec
  obtain ⟨hint, items⟩ := acc
  obtain ⟨h1, h2⟩ := hc
  rw [set_serialized_items] at h1
  simp only at h1
  subst h1
  have hlen := Nat.lt_of_le_of_lt hb.items_length hn
  obtain ⟨m', hm', -⟩ := FzHashMap.withHasher_spec hf hso he hh (unitEntries (I.items m)) (by simpa [unitEntries])
  refine ⟨m', ?_, setEq_of_builtSet hb (fun _ _ => rfl) (.fzHash hf hso he hq ⟨hh, hh⟩ hlen hm')⟩
  unfold FzHashSet.visitSeq
  simp only [map_withUnit]
  exact visitWith_ok h2 hm'

/-- **C34** (equality) A set read back as an `FzOrderedSet` equals the set that was written. -/
theorem c34_ordered_set_equal [Target] {cmp : T → T → Ordering} (hc : LawfulCmp cmp) (hq : LawfulQueryCmp cmp cmp) {xs : List T}
    {I : SetImpl M T T} {m : M} (hb : BuiltSet (fun a b => cmp a b == .eq) (fun q k => cmp q k == .eq) xs I m) {acc : Access E T}
    (ht : Carries size (I.serialize m) acc) :
    ∃ m', FzOrderedSet.visitSeq size cmp acc = .ok (.ok m') ∧ setEq (I.view m) ((fzSetImpl (FzOrderedMap.impl cmp)).view m') = .ok true := by
  obtain ⟨hint, items⟩ := acc
  obtain ⟨h1, h2⟩ := ht
  rw [set_serialized_items] at h1
  simp only at h1
  subst h1
  obtain ⟨m', hm', -⟩ := FzOrderedMap.new_spec hc (unitEntries (I.items m))
  refine ⟨m', ?_, setEq_of_builtSet hb (fun _ _ => rfl) (.fzOrdered hc hq hm')⟩
  unfold FzOrderedSet.visitSeq
  simp only [map_withUnit]
  exact visitWith_ok h2 hm'

/-- **C34** (scalar maps, exact) What any map with scalar keys wrote can be read as an `FzScalarMap` exactly when its keys do not include both ends of the
range of `usize`; the map read is then the same and equal to the one written. -/
theorem c34_scalar_map_iff [Target] (b : Build) {sort : Sorter (K × V)} (hso : SorterOk sort) {cmp : K → K → Ordering} {index : K → Nat}
    (hs : LawfulScalar cmp index) (qindex : Q → Nat) {es : List (K × V)} (hn : es.length < tableLimit) {I : MapImpl M Q K V} {m : M}
    (hb : Built (fun a b => cmp a b == .eq) (scalarMatch index qindex) es I m) {acc : Access E (K × V)} (ht : Carries size (I.serialize m) acc)
    {eqV : V → V → Bool} (hv : ∀ v, eqV v v = true) :
    (∃ m', FzScalarMap.visitMap size b sort cmp index acc = .ok (.ok m') ∧ SameMap I m (FzScalarMap.impl qindex (scalarMatch index qindex)) m' ∧
      I.eq (FzScalarMap.impl index (scalarMatch index index)) eqV m m' = .ok true) ↔
    ¬ ∃ x ∈ I.entries m, ∃ y ∈ I.entries m, index x.1 = 0 ∧ index y.1 = usizeMax := by
  obtain ⟨hint, items⟩ := acc
  obtain ⟨h1, h2⟩ := ht
  rw [serialized_items] at h1
  simp only at h1
  subst h1
  have hlen := Nat.lt_of_le_of_lt hb.entries_length hn
  rw [← c18_construction_partial b hso hs _ hlen]
  constructor
  · rintro ⟨m', h, -⟩
    cases hm : FzScalarMap.new b sort cmp index (I.entries m) with
    | ok m'' => exact ⟨m'', rfl⟩
    | error e =>
      exfalso
      unfold FzScalarMap.visitMap visitWith at h
      simp only [vecWithCapacity, if_pos h2, bind, Except.bind, drain_ok, List.nil_append, hm] at h
      cases h
  · rintro ⟨m', hm'⟩
    have hb' : Built _ _ _ (FzScalarMap.impl index (scalarMatch index index)) m' := .fzScalar hso hs hlen hm'
    have hmt := scalarMatch_self hs
    refine ⟨m', visitWith_ok h2 hm', same_of_built hb (.fzScalar hso hs hlen hm'), ?_⟩
    generalize scalarMatch index index = smt at hb' hmt ⊢
    subst hmt
    exact eq_of_built hb hb' hv

/-- **C34** (scalar sets, exact) What any set with scalar elements wrote can be read as an `FzScalarSet` exactly when its elements do not include both ends of the
range of `usize`; the set read then equals the one written. -/
theorem c34_scalar_set_iff [Target] (b : Build) {sort : Sorter (T × Unit)} (hso : SorterOk sort) {cmp : T → T → Ordering} {index : T → Nat}
    (hs : LawfulScalar cmp index) {xs : List T} (hn : xs.length < tableLimit) {I : SetImpl M T T} {m : M}
    (hb : BuiltSet (fun a b => cmp a b == .eq) (scalarMatch index index) xs I m) {acc : Access E T} (ht : Carries size (I.serialize m) acc) :
    (∃ m', FzScalarSet.visitSeq size b sort cmp index acc = .ok (.ok m') ∧
      SameSetContents I m (fzSetImpl (FzScalarMap.impl index (scalarMatch index index))) m' ∧
      setEq (I.view m) ((fzSetImpl (FzScalarMap.impl index (scalarMatch index index))).view m') = .ok true) ↔
    ¬ ∃ x ∈ I.items m, ∃ y ∈ I.items m, index x = 0 ∧ index y = usizeMax := by
  obtain ⟨hint, items⟩ := acc
  obtain ⟨h1, h2⟩ := ht
  rw [set_serialized_items] at h1
  simp only at h1
  subst h1
  have hlen := Nat.lt_of_le_of_lt hb.items_length hn
  have hiff := c18_construction_partial b hso hs (unitEntries (I.items m)) (by simpa [unitEntries] using hlen)
  have hex : (∃ x ∈ unitEntries (I.items m), ∃ y ∈ unitEntries (I.items m), index x.1 = 0 ∧ index y.1 = usizeMax) ↔
      ∃ x ∈ I.items m, ∃ y ∈ I.items m, index x = 0 ∧ index y = usizeMax := by
    unfold unitEntries
    simp only [List.mem_map, exists_exists_and_eq_and]
  rw [hex] at hiff
  rw [← hiff]
  have hmt := scalarMatch_self hs
  constructor
  · rintro ⟨m', h, -⟩
    cases hm : FzScalarMap.new b sort cmp index (unitEntries (I.items m)) with
    | ok m'' => exact ⟨m'', rfl⟩
    | error e =>
      exfalso
      unfold FzScalarSet.visitSeq at h
      simp only [map_withUnit] at h
      unfold visitWith at h
      simp only [vecWithCapacity, if_pos h2, bind, Except.bind, drain_ok, List.nil_append, hm] at h
      cases h
  · rintro ⟨m', hm'⟩
    have hb' : BuiltSet (fun a b => cmp a b == .eq) (scalarMatch index index) _ (fzSetImpl (FzScalarMap.impl index (scalarMatch index index))) m' :=
      .fzScalar hso hs hlen hm'
    refine ⟨m', ?_, same_of_builtSet hb hb', setEq_of_builtSet hb (fun x y => congrFun (congrFun hmt x) y) hb'⟩
    unfold FzScalarSet.visitSeq
    simp only [map_withUnit]
    exact visitWith_ok h2 hm'

attribute [local instance] w64 in
/-- A scanned map with the keys `0` and `u64::MAX` is written, and cannot be read as an `FzScalarMap`. -/
example : ¬ ∃ m', FzScalarMap.visitMap (E := Unit) 16 .debug slotSort u64Cmp UInt64.toNat
        ⟨some 2, [.ok (0, "a"), .ok (18446744073709551615, "b")]⟩ = .ok (.ok m') ∧
      SameMap (ScanMap.impl (scalarMatch UInt64.toNat UInt64.toNat))
        (ScanMap.new (fun a b => u64Cmp a b == .eq) [(0, "a"), (18446744073709551615, "b")])
        (FzScalarMap.impl UInt64.toNat (scalarMatch UInt64.toNat UInt64.toNat)) m' ∧
      (ScanMap.impl (scalarMatch UInt64.toNat UInt64.toNat)).eq (FzScalarMap.impl UInt64.toNat (scalarMatch UInt64.toNat UInt64.toNat))
        (fun a b => a == b) (ScanMap.new (fun a b => u64Cmp a b == .eq) [(0, "a"), (18446744073709551615, "b")]) m' = .ok true := by
  have he : LawfulEq' (fun a b => u64Cmp a b == .eq) := LawfulCmp'.eqLawful u64_scalar.lawfulCmp
  have hb : Built (fun a b => u64Cmp a b == .eq) (scalarMatch UInt64.toNat UInt64.toNat) [(0, "a"), (18446744073709551615, "b")] _ _ :=
    .scan he (by rw [scalarMatch_self u64_scalar]; exact LawfulEq'.query he)
  rw [c34_scalar_map_iff .debug slotSort_ok u64_scalar UInt64.toNat (by decide) hb ⟨by cbv, by decide⟩ (by simp)]
  intro h
  have e : (ScanMap.impl (scalarMatch UInt64.toNat UInt64.toNat)).entries
      (ScanMap.new (fun a b => u64Cmp a b == .eq) [(0, "a"), (18446744073709551615, "b")]) = [(0, "a"), (18446744073709551615, "b")] := by cbv
  have he1 : ((0 : UInt64), "a") ∈ (ScanMap.impl (scalarMatch UInt64.toNat UInt64.toNat)).entries
      (ScanMap.new (fun a b => u64Cmp a b == .eq) [(0, "a"), (18446744073709551615, "b")]) := by rw [e]; simp
  have he2 : ((18446744073709551615 : UInt64), "b") ∈ (ScanMap.impl (scalarMatch UInt64.toNat UInt64.toNat)).entries
      (ScanMap.new (fun a b => u64Cmp a b == .eq) [(0, "a"), (18446744073709551615, "b")]) := by rw [e]; simp
  exact h ⟨(0, "a"), he1, (18446744073709551615, "b"), he2, by decide, by decide⟩

attribute [local instance] w64 in
/-- A scanned set of `1`, `5`, `1` read as an `FzScalarSet` equals the original. -/
example : ∃ m', FzScalarSet.visitSeq (E := Unit) 8 .debug slotSort u64Cmp UInt64.toNat ⟨none, [.ok 5, .ok 1]⟩ = .ok (.ok m') ∧
    setEq ((inlineSetImpl (ScanMap.impl (scalarMatch UInt64.toNat UInt64.toNat))).view
        (ScanMap.new (fun a b => u64Cmp a b == .eq) (unitEntries [1, 5, 1])))
      ((fzSetImpl (FzScalarMap.impl UInt64.toNat (scalarMatch UInt64.toNat UInt64.toNat))).view m') = .ok true := by
  have he : LawfulEq' (fun a b => u64Cmp a b == .eq) := LawfulCmp'.eqLawful u64_scalar.lawfulCmp
  have hb : BuiltSet (fun a b => u64Cmp a b == .eq) (scalarMatch UInt64.toNat UInt64.toNat) [1, 5, 1] _ _ :=
    .ofMap (.scan he (by rw [scalarMatch_self u64_scalar]; exact LawfulEq'.query he))
  obtain ⟨m', h1, -, h2⟩ := (c34_scalar_set_iff (E := Unit) (size := 8) .debug slotSort_ok u64_scalar (by decide) hb
    (acc := ⟨none, [.ok 5, .ok 1]⟩) ⟨by cbv, by decide⟩).2 (by
      rintro ⟨x, hx, y, hy, h0, -⟩
      have : x ∈ [(5 : UInt64), 1] := by
        have h : x ∈ (inlineSetImpl (ScanMap.impl (scalarMatch UInt64.toNat UInt64.toNat))).items
          (ScanMap.new (fun a b => u64Cmp a b == .eq) (unitEntries [1, 5, 1])) := hx
        have e : (inlineSetImpl (ScanMap.impl (scalarMatch UInt64.toNat UInt64.toNat))).items
          (ScanMap.new (fun a b => u64Cmp a b == .eq) (unitEntries [1, 5, 1])) = [5, 1] := by cbv
        rwa [e] at h
      simp only [List.mem_cons, List.not_mem_nil, or_false] at this
      rcases this with rfl | rfl <;> revert h0 <;> decide)
  exact ⟨m', h1, h2⟩

end Frozen.Props
