import Verif.Lemmas.Serde
import Verif.Props.Equality
import Verif.Props.Scalar
import Verif.Props.Sets

/-! # C34, C35, C47: serialization, deserialization and the other construction routes -/

namespace Frozen.Props

open Frozen Frozen.Spec Frozen.Model

variable {M M' Q K V T E A : Type}

/-- The items among the calls made on a serializer. -/
def itemsOf : List (SerCall A) → List A
  | [] => []
  | .item a :: r => a :: itemsOf r
  | _ :: r => itemsOf r

/-- The text a deserializer provides, lent or not. -/
def providedText : DeStr → Str
  | .borrowed s => s
  | .transient s => s

/-- A transport that hands the deserializing side the items that were serialized, in order, without error, with a size hint
for which a vector of elements of `size` bytes can be allocated. -/
def Carries [Target] (size : Nat) (calls : List (SerCall A)) (acc : Access E A) : Prop :=
  acc.items = (itemsOf calls).map .ok ∧ acc.sizeHint.getD 0 * size < allocLimit

/-- The two maps cannot be told apart by lookups, length or iteration (up to order). -/
structure SameMap (I : MapImpl M Q K V) (m : M) (J : MapImpl M' Q K V) (m' : M') : Prop where
  get : ∀ q, I.get m q = J.get m' q
  getKeyValue : ∀ q, I.getKeyValue m q = J.getKeyValue m' q
  containsKey : ∀ q, I.containsKey m q = J.containsKey m' q
  len : I.len m = J.len m'
  entries : (I.entries m).Perm (J.entries m')

theorem itemsOf_serialized (n : Option Nat) (l : List A) :
    itemsOf (.start n :: l.map SerCall.item ++ [.finish]) = l := by
  suffices h : itemsOf (l.map SerCall.item ++ [.finish]) = l by simpa [itemsOf] using h
  induction l with
  | nil => rfl
  | cons a l ih => simp only [List.map_cons, List.cons_append, itemsOf, ih]

/-- **C34** The length announced to the serializer is the number of entries that follow (formats with a length prefix rely on
it). -/
theorem c34_announced_length [Target] {eqK : K → K → Bool} {mt : Q → K → Bool} {es : List (K × V)} {I : MapImpl M Q K V} {m : M}
    (hb : Built eqK mt es I m) :
    ∃ l, I.serialize m = .start (some l.length) :: l.map SerCall.item ++ [.finish] ∧ l = I.entries m := by
  obtain ⟨Inv, F⟩ := hb.facts
  refine ⟨I.entries m, ?_, rfl⟩
  unfold MapImpl.serialize
  rw [F.lawful.len m F.inv]
  rfl

theorem serialized_items (I : MapImpl M Q K V) (m : M) : itemsOf (I.serialize m) = I.entries m :=
  itemsOf_serialized _ _

theorem same_of_built [Target] {eqK : K → K → Bool} {mt : Q → K → Bool} {es : List (K × V)} {I : MapImpl M Q K V} {m : M}
    (hb : Built eqK mt es I m) {J : MapImpl M' Q K V} {m' : M'} (hb' : Built eqK mt (I.entries m) J m') :
    SameMap I m J m' := by
  obtain ⟨h1, h2, h3, h4, h5⟩ := c35_same_entries_same_map hb hb' fun k => (hb.entries_lastMatch k).symm
  exact ⟨h1, h2, h3, h4, h5⟩

theorem eq_of_built [Target] {eqK : K → K → Bool} {mt : Q → K → Bool} {es : List (K × V)} {I : MapImpl M Q K V} {m : M}
    (hb : Built eqK mt es I m) {J : MapImpl M' K K V} {m' : M'} (hb' : Built eqK eqK (I.entries m) J m')
    {eqV : V → V → Bool} (hv : ∀ v, eqV v v = true) : I.eq J eqV m m' = .ok true := by
  obtain ⟨b, hb1, hi⟩ := c25_map_eq_is_extensional hb hb' eqV
  rw [hb1, hi.2]
  intro k
  rw [hb.entries_lastMatch k]
  cases lastMatch eqK es k with
  | none => trivial
  | some e => exact hv e.2

/-! ## C34: maps -/

section maps

variable {find : HbFind} {size : Nat}

/-- **C34** Serialize any map, deserialize as `FzHashMap`: no panic, no error, and the result has the same content and is
`==` the original. -/
theorem c34_fz_hash_map [Target] (hf : HbFindOk find) {sort : Sorter (K × V)} (hs : SorterOk sort) {eqK : K → K → Bool}
    {mt : Q → K → Bool} {hK : K → Nat} {hQ : Q → Nat} (hh : LawfulHash eqK mt hK hQ) {es : List (K × V)}
    (hn : es.length < sizeLimit) {I : MapImpl M Q K V} {m : M} (hb : Built eqK mt es I m) {acc : Access E (K × V)}
    (hc : Carries size (I.serialize m) acc) {eqV : V → V → Bool} (hv : ∀ v, eqV v v = true) :
    ∃ m', FzHashMap.visitMap size find sort eqK hK acc = .ok (.ok m') ∧ SameMap I m (FzHashMap.impl hQ mt) m' ∧
      I.eq (FzHashMap.impl hK eqK) eqV m m' = .ok true := by
  obtain ⟨Inv, F⟩ := hb.facts
  obtain ⟨hint, items⟩ := acc
  obtain ⟨h1, h2⟩ := hc
  rw [serialized_items] at h1
  simp only at h1
  subst h1
  have hlen := Nat.lt_of_le_of_lt hb.entries_length hn
  obtain ⟨m', hm', -⟩ := FzHashMap.withHasher_spec hf hs F.eq hh.key (I.entries m) hlen
  refine ⟨m', visitWith_ok h2 hm', same_of_built hb (.fzHash hf hs F.eq F.query hh hlen hm'), ?_⟩
  exact eq_of_built hb (.fzHash hf hs F.eq F.eq.query ⟨hh.key, fun q a h => hh.key q a h⟩ hlen hm') hv

/-- **C34** Serialize any map with ordered keys, deserialize as `FzOrderedMap`. -/
theorem c34_fz_ordered_map [Target] {cmp : K → K → Ordering} (hc : LawfulCmp cmp) {qcmp : Q → K → Ordering}
    (hq : LawfulQueryCmp cmp qcmp) (hq' : LawfulQueryCmp cmp cmp) {es : List (K × V)} {I : MapImpl M Q K V} {m : M}
    (hb : Built (fun a b => cmp a b == .eq) (fun q k => qcmp q k == .eq) es I m) {acc : Access E (K × V)}
    (ht : Carries size (I.serialize m) acc) {eqV : V → V → Bool} (hv : ∀ v, eqV v v = true) :
    ∃ m', FzOrderedMap.visitMap size cmp acc = .ok (.ok m') ∧ SameMap I m (FzOrderedMap.impl qcmp) m' ∧
      I.eq (FzOrderedMap.impl cmp) eqV m m' = .ok true := by
  obtain ⟨hint, items⟩ := acc
  obtain ⟨h1, h2⟩ := ht
  rw [serialized_items] at h1
  simp only at h1
  subst h1
  obtain ⟨m', hm', -⟩ := FzOrderedMap.new_spec hc (I.entries m)
  exact ⟨m', visitWith_ok h2 hm', same_of_built hb (.fzOrdered hc hq hm'), eq_of_built hb (.fzOrdered hc hq' hm') hv⟩

/-- **C34** Serialize an `FzScalarMap`, deserialize it again (possibly in a program built in another mode). -/
theorem c34_fz_scalar_map [Target] (b b' : Build) {sort sort' : Sorter (K × V)} (hso : SorterOk sort) (hso' : SorterOk sort')
    {cmp : K → K → Ordering} {index : K → Nat} (hs : LawfulScalar cmp index) (qindex : Q → Nat) {es : List (K × V)}
    (hn : es.length < tableLimit) {m : FzScalarMap K V} (hm : FzScalarMap.new b sort cmp index es = .ok m)
    {acc : Access E (K × V)}
    (ht : Carries size ((FzScalarMap.impl qindex (scalarMatch index qindex)).serialize m) acc) {eqV : V → V → Bool}
    (hv : ∀ v, eqV v v = true) :
    ∃ m', FzScalarMap.visitMap size b' sort' cmp index acc = .ok (.ok m') ∧
      SameMap (FzScalarMap.impl qindex (scalarMatch index qindex)) m
        (FzScalarMap.impl qindex (scalarMatch index qindex)) m' ∧
      (FzScalarMap.impl qindex (scalarMatch index qindex)).eq (FzScalarMap.impl index (scalarMatch index index)) eqV m m' =
        .ok true := by
  have hb : Built _ _ es (FzScalarMap.impl qindex (scalarMatch index qindex)) m := .fzScalar hso hs hn hm
  obtain ⟨hint, items⟩ := acc
  obtain ⟨h1, h2⟩ := ht
  rw [serialized_items] at h1
  simp only at h1
  subst h1
  have hlen := Nat.lt_of_le_of_lt hb.entries_length hn
  have hno := (c18_construction_partial b hso hs es hn).1 ⟨m, hm⟩
  obtain ⟨m', hm'⟩ := (c18_construction_partial b' hso' hs _ hlen).2 (by
    rintro ⟨x, hx, y, hy, h⟩
    exact hno ⟨x, hb.entries_mem hx, y, hb.entries_mem hy, h⟩)
  have hb' : Built _ _ _ (FzScalarMap.impl index (scalarMatch index index)) m' := .fzScalar hso' hs hlen hm'
  have hmt := scalarMatch_self hs
  refine ⟨m', visitWith_ok h2 hm', same_of_built hb (.fzScalar hso' hs hlen hm'), ?_⟩
  generalize scalarMatch index index = smt at hb' hmt ⊢
  subst hmt
  exact eq_of_built hb hb' hv

/-- **C34** for string maps, in part: when the deserializer can lend every key from its input, the round trip gives the same
map.  What is missing are formats that cannot lend the strings, for which it fails, see `c34_transient_strings_fail`. -/
theorem c34_fz_string_map_partial [Target] {sort : Sorter (Str × V)} (hso : SorterOk sort) (bhStr bhSlice : Str → Nat)
    {es : List (Str × V)} (hn : es.length < sizeLimit) {I : MapImpl M Str Str V} {m : M}
    (hb : Built (fun a b => a == b) (fun a b => a == b) es I m) {acc : Access E (DeStr × V)} (err : E)
    (ht : acc.items = (itemsOf (I.serialize m)).map (fun e => .ok (.borrowed e.1, e.2)))
    (hh : acc.sizeHint.getD 0 * size < allocLimit) {eqV : V → V → Bool} (hv : ∀ v, eqV v v = true) :
    ∃ m', FzStringMap.visitMap size err sort bhStr bhSlice acc = .ok (.ok m') ∧
      SameMap I m (FzStringMap.impl bhStr bhSlice) m' ∧
      I.eq (FzStringMap.impl bhStr bhSlice) eqV m m' = .ok true := by
  obtain ⟨hint, items⟩ := acc
  rw [serialized_items] at ht
  simp only at ht hh
  subst ht
  have hlen := Nat.lt_of_le_of_lt hb.entries_length hn
  obtain ⟨m', hm', -⟩ := FzStringMap.withHasher_spec hso bhStr bhSlice (I.entries m) hlen
  have hb' : Built _ _ _ (FzStringMap.impl bhStr bhSlice) m' := .fzString hso hlen hm'
  refine ⟨m', ?_, same_of_built hb hb', eq_of_built hb hb' hv⟩
  unfold FzStringMap.visitMap
  have : ((I.entries m).map (fun e => Except.ok (DeStr.borrowed e.1, e.2))).map (borrowEntry err) =
      (I.entries m).map .ok := by
    rw [List.map_map]
    rfl
  simp only [this]
  exact visitWith_ok hh hm'

/-- **C34** is false for string maps and formats that cannot lend a key from the input (JSON text with an escape in the
key, or any format read from a stream): deserialization fails, although the same entries are accepted when lent. -/
theorem c34_transient_strings_fail [Target] {sort : Sorter (Str × V)} (bhStr bhSlice : Str → Nat) (err : E)
    (before : List (Str × V)) (k : Str) (v : V) (after : List (Except E (DeStr × V))) (hint : Option Nat)
    (hh : hint.getD 0 * size < allocLimit) :
    FzStringMap.visitMap size err sort bhStr bhSlice
      ⟨hint, before.map (fun e => .ok (.borrowed e.1, e.2)) ++ .ok (.transient k, v) :: after⟩ = .ok (.error err) := by
  unfold FzStringMap.visitMap
  have : (before.map (fun e : Str × V => Except.ok (ε := E) (DeStr.borrowed e.1, e.2)) ++
      Except.ok (.transient k, v) :: after).map (borrowEntry err) = before.map .ok ++ .error err :: after.map (borrowEntry err) := by
    rw [List.map_append, List.map_map]
    rfl
  simp only [this]
  exact visitWith_error hh

/-- **C34** Exactly: whatever mixture of lent and other strings the deserializer delivers, a string map is restored if and only if all its keys are
lent. -/
theorem c34_fz_string_map_iff [Target] {sort : Sorter (Str × V)} (hso : SorterOk sort) (bhStr bhSlice : Str → Nat)
    {es : List (Str × V)} (hn : es.length < sizeLimit) {I : MapImpl M Str Str V} {m : M}
    (hb : Built (fun a b => a == b) (fun a b => a == b) es I m) {hint : Option Nat} {ds : List (DeStr × V)} (err : E)
    (ht : ds.map (fun d => (providedText d.1, d.2)) = itemsOf (I.serialize m)) (hh : hint.getD 0 * size < allocLimit) :
    (∃ m', FzStringMap.visitMap size err sort bhStr bhSlice ⟨hint, ds.map .ok⟩ = .ok (.ok m') ∧
      SameMap I m (FzStringMap.impl bhStr bhSlice) m') ↔ ∀ d ∈ ds, ∃ s, d.1 = .borrowed s := by
  constructor
  · rintro ⟨m', hm', -⟩
    by_contra hc
    have hex : ∃ before : List (Str × V), ∃ k v after,
        ds = before.map (fun e => (DeStr.borrowed e.1, e.2)) ++ (DeStr.transient k, v) :: after := by
      clear hm' ht hh
      induction ds with
      | nil => exact absurd (by simp) hc
      | cons d ds ih =>
        obtain ⟨d, v⟩ := d
        cases d with
        | transient k => exact ⟨[], k, v, ds, rfl⟩
        | borrowed k =>
          obtain ⟨before, k', v', after, rfl⟩ := ih (fun h => hc (fun d hd => by
            rcases List.mem_cons.1 hd with rfl | hd
            · exact ⟨k, rfl⟩
            · exact h d hd))
          exact ⟨(k, v) :: before, k', v', after, rfl⟩
    obtain ⟨before, k, v, after, rfl⟩ := hex
    have h := c34_transient_strings_fail (sort := sort) bhStr bhSlice err before k v (after.map .ok) hint hh
    rw [List.map_append, List.map_map, List.map_cons] at hm'
    rw [show (Except.ok (ε := E) ∘ fun e : Str × V => (DeStr.borrowed e.1, e.2)) = fun e => Except.ok (DeStr.borrowed e.1, e.2) from rfl, h] at hm'
    cases hm'
  · intro hall
    have hds : ds.map (Except.ok (ε := E)) = (itemsOf (I.serialize m)).map (fun e => .ok (.borrowed e.1, e.2)) := by
      rw [← ht, List.map_map]
      apply List.map_congr_left
      rintro ⟨d, v⟩ hd
      obtain ⟨s, hs⟩ := hall _ hd
      simp only at hs
      subst hs
      rfl
    obtain ⟨m', h1, h2, -⟩ := c34_fz_string_map_partial (size := size) hso bhStr bhSlice hn hb (acc := ⟨hint, ds.map .ok⟩) err hds hh
      (eqV := fun _ _ => true) (fun _ => rfl)
    exact ⟨m', h1, h2⟩

/-- **C34** An error of the deserializer is passed on: no map is built from part of the input. -/
theorem c34_error_propagates [Target] (build : List A → Res M) (l : List A) (e : E) (r : List (Except E A)) (hint : Option Nat)
    (hh : hint.getD 0 * size < allocLimit) : visitWith size build ⟨hint, l.map .ok ++ .error e :: r⟩ = .ok (.error e) :=
  visitWith_error hh

end maps

attribute [local instance] w64 in
/-- Round trip of a map built from entries with a repeated key: a scan map becomes an ordered map. -/
example : ∃ m', FzOrderedMap.visitMap (E := Unit) 16 natCmp
      ⟨some 2, [.ok (7, "b"), .ok (3, "c")]⟩ = .ok (.ok m') ∧
    SameMap (ScanMap.impl (fun q k => natCmp q k == .eq))
      (ScanMap.new (fun a b => natCmp a b == .eq) [(3, "a"), (7, "b"), (3, "c")]) (FzOrderedMap.impl natCmp) m' := by
  have hb : Built (fun a b => natCmp a b == .eq) (fun q k => natCmp q k == .eq) [(3, "a"), (7, "b"), (3, "c")] _ _ :=
    .scan (LawfulCmp'.eqLawful natCmp_lawful) (LawfulEq'.query (LawfulCmp'.eqLawful natCmp_lawful))
  obtain ⟨m', h1, h2, -⟩ := c34_fz_ordered_map (E := Unit) (size := 16) natCmp_lawful natCmp_query natCmp_query hb
    (acc := ⟨some 2, [.ok (7, "b"), .ok (3, "c")]⟩) ⟨by cbv, by decide⟩ (eqV := fun a b => a == b) (by simp)
  exact ⟨m', h1, h2⟩

/-! ## C34: sets -/

/-- The two sets cannot be told apart by `contains`, `get`, length or iteration (up to order). -/
structure SameSetContents (I : SetImpl M Q T) (m : M) (J : SetImpl M' Q T) (m' : M') : Prop where
  get : ∀ q, I.get m q = J.get m' q
  contains : ∀ q, I.contains m q = J.contains m' q
  mem : ∀ x, x ∈ I.items m ↔ x ∈ J.items m'
  len : I.len m = J.len m'

theorem set_serialized_items (I : SetImpl M Q T) (m : M) : itemsOf (I.serialize m) = I.items m :=
  itemsOf_serialized _ _

/-- **C34** Likewise for sets: the length announced is the number of elements that follow, which are those of the set. -/
theorem c34_announced_length_set [Target] {eqT : T → T → Bool} {mt : Q → T → Bool} {xs : List T} {I : SetImpl M Q T} {m : M}
    (hb : BuiltSet eqT mt xs I m) :
    ∃ l, I.serialize m = .start (some l.length) :: l.map SerCall.item ++ [.finish] ∧ l = I.items m := by
  obtain ⟨-, -, hs⟩ := hb.spec
  refine ⟨I.items m, ?_, rfl⟩
  unfold SetImpl.serialize
  rw [hs.len]

theorem same_of_builtSet [Target] {eqT : T → T → Bool} {mt : Q → T → Bool} {xs : List T} {I : SetImpl M Q T} {m : M}
    (hb : BuiltSet eqT mt xs I m) {J : SetImpl M' Q T} {m' : M'} (hb' : BuiltSet eqT mt (I.items m) J m') :
    SameSetContents I m J m' := by
  obtain ⟨he, hq, hs⟩ := hb.spec
  obtain ⟨-, -, hs'⟩ := hb'.spec
  have hmem : ∀ x, x ∈ I.items m ↔ x ∈ J.items m' := by
    intro x
    rw [hs.mem, hs'.mem, hb.items_lastOf he.query]
  refine ⟨fun q => ?_, fun q => ?_, hmem, ?_⟩
  · rw [hs.get, hs'.get, hb.items_lastOf hq]
  · rw [hs.contains, hs'.contains, ← lastOf_isSome, ← lastOf_isSome, hb.items_lastOf hq]
  · rw [hs.len, hs'.len]
    exact Nat.le_antisymm
      (distinct_length_le he hs.distinct fun a ha => ⟨a, (hmem a).1 ha, he.refl a⟩)
      (distinct_length_le he hs'.distinct fun a ha => ⟨a, (hmem a).2 ha, he.refl a⟩)

theorem setEq_of_builtSet [Target] {eqT : T → T → Bool} {mt : T → T → Bool} {xs : List T} {I : SetImpl M T T} {m : M}
    (hb : BuiltSet eqT mt xs I m) (hmt : ∀ x y, mt x y = eqT x y) {J : SetImpl M' T T} {m' : M'}
    (hb' : BuiltSet eqT mt (I.items m) J m') : setEq (I.view m) (J.view m') = .ok true := by
  obtain ⟨b, h1, h2⟩ := c30_built_set_eq hb hb' hmt hmt
  obtain ⟨he, _, hs⟩ := hb.spec
  rw [h1, h2.2]
  refine ⟨fun x hx => ?_, fun y hy => ⟨y, hb.items_mem hy, he.refl y⟩⟩
  obtain ⟨z, hz, hxz⟩ := (c32_is_set hb hmt).complete x ⟨x, hx, he.refl x⟩
  exact ⟨z, hz, hxz⟩

section sets

variable {find : HbFind} {size : Nat}

theorem map_withUnit (l : List T) : (l.map (Except.ok (ε := E))).map withUnit = (unitEntries l).map .ok := by
  simp [unitEntries, withUnit]

/-- **C34** Serialize any set, deserialize as `FzHashSet`. -/
theorem c34_fz_hash_set [Target] (hf : HbFindOk find) {sort : Sorter (T × Unit)} (hso : SorterOk sort) {eqT : T → T → Bool}
    {mt : Q → T → Bool} {hT : T → Nat} {hQ : Q → Nat} (hh : LawfulHash eqT mt hT hQ) {xs : List T}
    (hn : xs.length < sizeLimit) {I : SetImpl M Q T} {m : M} (hb : BuiltSet eqT mt xs I m) {acc : Access E T}
    (hc : Carries size (I.serialize m) acc) :
    ∃ m', FzHashSet.visitSeq size find sort eqT hT acc = .ok (.ok m') ∧
      SameSetContents I m (fzSetImpl (FzHashMap.impl hQ mt)) m' := by
  obtain ⟨he, hq, hs⟩ := hb.spec
  obtain ⟨hint, items⟩ := acc
  obtain ⟨h1, h2⟩ := hc
  rw [set_serialized_items] at h1
  simp only at h1
  subst h1
  have hlen := Nat.lt_of_le_of_lt hb.items_length hn
  obtain ⟨m', hm', -⟩ := FzHashMap.withHasher_spec hf hso he hh.key (unitEntries (I.items m)) (by simpa [unitEntries])
  refine ⟨m', ?_, same_of_builtSet hb (.fzHash hf hso he hq hh hlen hm')⟩
  unfold FzHashSet.visitSeq
  simp only [map_withUnit]
  exact visitWith_ok h2 hm'

/-- **C34** Serialize any set with ordered elements, deserialize as `FzOrderedSet`. -/
theorem c34_fz_ordered_set [Target] {cmp : T → T → Ordering} (hc : LawfulCmp cmp) {qcmp : Q → T → Ordering}
    (hq : LawfulQueryCmp cmp qcmp) {xs : List T} {I : SetImpl M Q T} {m : M}
    (hb : BuiltSet (fun a b => cmp a b == .eq) (fun q k => qcmp q k == .eq) xs I m) {acc : Access E T}
    (ht : Carries size (I.serialize m) acc) :
    ∃ m', FzOrderedSet.visitSeq size cmp acc = .ok (.ok m') ∧
      SameSetContents I m (fzSetImpl (FzOrderedMap.impl qcmp)) m' := by
  obtain ⟨hint, items⟩ := acc
  obtain ⟨h1, h2⟩ := ht
  rw [set_serialized_items] at h1
  simp only at h1
  subst h1
  obtain ⟨m', hm', -⟩ := FzOrderedMap.new_spec hc (unitEntries (I.items m))
  refine ⟨m', ?_, same_of_builtSet hb (.fzOrdered hc hq hm')⟩
  unfold FzOrderedSet.visitSeq
  simp only [map_withUnit]
  exact visitWith_ok h2 hm'

/-- **C34** Serialize an `FzScalarSet`, deserialize it again. -/
theorem c34_fz_scalar_set [Target] (b b' : Build) {sort sort' : Sorter (T × Unit)} (hso : SorterOk sort) (hso' : SorterOk sort')
    {cmp : T → T → Ordering} {index : T → Nat} (hs : LawfulScalar cmp index) (qindex : Q → Nat) {xs : List T}
    (hn : xs.length < tableLimit) {m : FzScalarMap T Unit} (hm : FzScalarSet.new b sort cmp index xs = .ok m)
    {acc : Access E T}
    (ht : Carries size ((fzSetImpl (FzScalarMap.impl qindex (scalarMatch index qindex))).serialize m) acc) :
    ∃ m', FzScalarSet.visitSeq size b' sort' cmp index acc = .ok (.ok m') ∧
      SameSetContents (fzSetImpl (FzScalarMap.impl qindex (scalarMatch index qindex))) m
        (fzSetImpl (FzScalarMap.impl qindex (scalarMatch index qindex))) m' := by
  have hb : BuiltSet _ _ xs (fzSetImpl (FzScalarMap.impl qindex (scalarMatch index qindex))) m := .fzScalar hso hs hn hm
  obtain ⟨hint, items⟩ := acc
  obtain ⟨h1, h2⟩ := ht
  rw [set_serialized_items] at h1
  simp only at h1
  subst h1
  have hlen := Nat.lt_of_le_of_lt hb.items_length hn
  have hno := (c18_construction_partial b hso hs (unitEntries xs) (by simpa [unitEntries])).1 ⟨m, hm⟩
  obtain ⟨m', hm'⟩ := (c18_construction_partial b' hso' hs (unitEntries _) (by simpa [unitEntries] using hlen)).2 (by
    rintro ⟨x, hx, y, hy, h⟩
    obtain ⟨x', hx', rfl⟩ := List.mem_map.1 hx
    obtain ⟨y', hy', rfl⟩ := List.mem_map.1 hy
    exact hno ⟨_, List.mem_map.2 ⟨x', hb.items_mem hx', rfl⟩, _, List.mem_map.2 ⟨y', hb.items_mem hy', rfl⟩, h⟩)
  refine ⟨m', ?_, same_of_builtSet hb (.fzScalar hso' hs hlen hm')⟩
  unfold FzScalarSet.visitSeq
  simp only [map_withUnit]
  exact visitWith_ok h2 hm'

/-- **C34** for string sets, in part (see `c34_fz_string_map_partial`): the strings must be lent by the deserializer. -/
theorem c34_fz_string_set_partial [Target] {sort : Sorter (Str × Unit)} (hso : SorterOk sort) (bhStr bhSlice : Str → Nat)
    {xs : List Str} (hn : xs.length < sizeLimit) {I : SetImpl M Str Str} {m : M}
    (hb : BuiltSet (fun a b => a == b) (fun a b => a == b) xs I m) {acc : Access E DeStr} (err : E)
    (ht : acc.items = (itemsOf (I.serialize m)).map (fun s => .ok (.borrowed s)))
    (hh : acc.sizeHint.getD 0 * size < allocLimit) :
    ∃ m', FzStringSet.visitSeq size err sort bhStr bhSlice acc = .ok (.ok m') ∧
      SameSetContents I m (fzSetImpl (FzStringMap.impl bhStr bhSlice)) m' ∧
      setEq (I.view m) ((fzSetImpl (FzStringMap.impl bhStr bhSlice)).view m') = .ok true := by
  obtain ⟨hint, items⟩ := acc
  rw [set_serialized_items] at ht
  simp only at ht hh
  subst ht
  have hlen := Nat.lt_of_le_of_lt hb.items_length hn
  obtain ⟨m', hm', -⟩ := FzStringMap.withHasher_spec hso bhStr bhSlice (unitEntries (I.items m)) (by simpa [unitEntries])
  have hb' : BuiltSet _ _ (I.items m) (fzSetImpl (FzStringMap.impl bhStr bhSlice)) m' := .fzString hso hlen hm'
  refine ⟨m', ?_, same_of_builtSet hb hb', setEq_of_builtSet hb (fun _ _ => rfl) hb'⟩
  unfold FzStringSet.visitSeq
  have : ((I.items m).map (fun s => Except.ok (DeStr.borrowed s))).map (borrowElem err) = (I.items m).map .ok := by
    rw [List.map_map]
    rfl
  simp only [this, map_withUnit]
  exact visitWith_ok hh hm'

/-- **C34** fails for string sets like it does for string maps. -/
theorem c34_transient_string_set_fails [Target] {sort : Sorter (Str × Unit)} (bhStr bhSlice : Str → Nat) (err : E)
    (before : List Str) (k : Str) (after : List (Except E DeStr)) (hint : Option Nat)
    (hh : hint.getD 0 * size < allocLimit) :
    FzStringSet.visitSeq size err sort bhStr bhSlice
      ⟨hint, before.map (fun s => .ok (.borrowed s)) ++ .ok (.transient k) :: after⟩ = .ok (.error err) := by
  unfold FzStringSet.visitSeq
  have : ((before.map (fun s => Except.ok (ε := E) (DeStr.borrowed s)) ++ Except.ok (.transient k) :: after).map (borrowElem err)).map
      withUnit = (unitEntries before).map .ok ++ .error err :: (after.map (borrowElem err)).map withUnit := by
    simp [unitEntries, withUnit, borrowElem, DeStr.asBorrowed, Function.comp_def]
  simp only [this]
  exact visitWith_error hh

/-- **C34** Exactly, for string sets. -/
theorem c34_fz_string_set_iff [Target] {sort : Sorter (Str × Unit)} (hso : SorterOk sort) (bhStr bhSlice : Str → Nat)
    {xs : List Str} (hn : xs.length < sizeLimit) {I : SetImpl M Str Str} {m : M}
    (hb : BuiltSet (fun a b => a == b) (fun a b => a == b) xs I m) {hint : Option Nat} {ds : List DeStr} (err : E)
    (ht : ds.map providedText = itemsOf (I.serialize m)) (hh : hint.getD 0 * size < allocLimit) :
    (∃ m', FzStringSet.visitSeq size err sort bhStr bhSlice ⟨hint, ds.map .ok⟩ = .ok (.ok m') ∧
      SameSetContents I m (fzSetImpl (FzStringMap.impl bhStr bhSlice)) m') ↔ ∀ d ∈ ds, ∃ s, d = .borrowed s := by
  constructor
  · rintro ⟨m', hm', -⟩
    by_contra hc
    have hex : ∃ before : List Str, ∃ k after, ds = before.map DeStr.borrowed ++ DeStr.transient k :: after := by
      clear hm' ht hh
      induction ds with
      | nil => exact absurd (by simp) hc
      | cons d ds ih =>
        cases d with
        | transient k => exact ⟨[], k, ds, rfl⟩
        | borrowed k =>
          obtain ⟨before, k', after, rfl⟩ := ih (fun h => hc (fun d hd => by
            rcases List.mem_cons.1 hd with rfl | hd
            · exact ⟨k, rfl⟩
            · exact h d hd))
          exact ⟨k :: before, k', after, rfl⟩
    obtain ⟨before, k, after, rfl⟩ := hex
    have h := c34_transient_string_set_fails (sort := sort) bhStr bhSlice err before k (after.map .ok) hint hh
    rw [List.map_append, List.map_map, List.map_cons] at hm'
    rw [show (Except.ok (ε := E) ∘ DeStr.borrowed) = fun s => Except.ok (DeStr.borrowed s) from rfl, h] at hm'
    cases hm'
  · intro hall
    have hds : ds.map (Except.ok (ε := E)) = (itemsOf (I.serialize m)).map (fun s => .ok (.borrowed s)) := by
      rw [← ht, List.map_map]
      apply List.map_congr_left
      intro d hd
      obtain ⟨s, rfl⟩ := hall _ hd
      rfl
    obtain ⟨m', h1, h2, -⟩ := c34_fz_string_set_partial (size := size) hso bhStr bhSlice hn hb (acc := ⟨hint, ds.map .ok⟩) err hds hh
    exact ⟨m', h1, h2⟩

end sets

attribute [local instance] w64 in
/-- A set made of 3, 7 and 3 announces two elements and writes two. -/
example : ∃ l, (inlineSetImpl (ScanMap.impl (fun q k => natCmp q k == .eq))).serialize
      (ScanMap.new (fun a b => natCmp a b == .eq) (unitEntries [3, 7, 3])) = .start (some l.length) :: l.map SerCall.item ++ [.finish] ∧
    l = [7, 3] := by
  have hb : BuiltSet (fun a b => natCmp a b == .eq) (fun q k => natCmp q k == .eq) [3, 7, 3] _ _ :=
    .ofMap (.scan (LawfulCmp'.eqLawful natCmp_lawful) (LawfulEq'.query (LawfulCmp'.eqLawful natCmp_lawful)))
  obtain ⟨l, h1, h2⟩ := c34_announced_length_set hb
  exact ⟨l, h1, h2.trans (by cbv)⟩

attribute [local instance] w64 in
/-- Of the keys "B" and "A" the deserializer lends one only: the map is not restored. -/
example {sort : Sorter (Str × Nat)} (hso : SorterOk sort) (bhStr bhSlice : Str → Nat) :
    ¬ ∃ m', FzStringMap.visitMap (E := Unit) 24 () sort bhStr bhSlice ⟨some 2, [(DeStr.borrowed [66], 2), (.transient [65], 3)].map .ok⟩ =
        .ok (.ok m') ∧
      SameMap (ScanMap.impl (fun a b : Str => a == b)) (ScanMap.new (fun a b : Str => a == b) [([65], 1), ([66], 2), ([65], 3)])
        (FzStringMap.impl bhStr bhSlice) m' := by
  have hb : Built (fun a b : Str => a == b) (fun a b => a == b) [([65], 1), ([66], 2), ([65], 3)] _ _ :=
    .scan strEq_lawful (LawfulEq'.query strEq_lawful)
  rw [c34_fz_string_map_iff hso bhStr bhSlice (by decide) hb () (by cbv) (by decide)]
  intro h
  obtain ⟨s, hs⟩ := h (.transient [65], 3) (by simp)
  cases hs

attribute [local instance] w64 in
/-- A set with a repeated element goes through serialization. -/
example : ∃ m', FzOrderedSet.visitSeq (E := Unit) 16 natCmp ⟨none, [.ok 7, .ok 3]⟩ = .ok (.ok m') ∧
    SameSetContents (inlineSetImpl (ScanMap.impl (fun q k => natCmp q k == .eq)))
      (ScanMap.new (fun a b => natCmp a b == .eq) (unitEntries [3, 7, 3])) (fzSetImpl (FzOrderedMap.impl natCmp)) m' := by
  have hb : BuiltSet (fun a b => natCmp a b == .eq) (fun q k => natCmp q k == .eq) [3, 7, 3] _ _ :=
    .ofMap (.scan (LawfulCmp'.eqLawful natCmp_lawful) (LawfulEq'.query (LawfulCmp'.eqLawful natCmp_lawful)))
  obtain ⟨m', h1, h2⟩ := c34_fz_ordered_set (E := Unit) (size := 16) natCmp_lawful natCmp_query hb
    (acc := ⟨none, [.ok 7, .ok 3]⟩) ⟨by cbv, by decide⟩
  exact ⟨m', h1, h2⟩

/-! ## C35: the routes -/

/-- **C35** `from_iter` over an iterator that gives the entries `es`, `from([..])` with them, and deserializing them are all
the same as calling the constructor with them: same success, same map. -/
theorem c35_routes [Target] {S : Type} (build : List A → Res M) {next : S → Res (Option A × S)} {s s' : S} {es : List A}
    (hy : Yields next s es s') {fuel : Nat} (hf : es.length < fuel) {size : Nat} {hint : Option Nat}
    (hh : hint.getD 0 * size < allocLimit) :
    fromArray build es = build es ∧
    fromIter build next fuel s = (build es).map some ∧
    visitWith (E := E) size build ⟨hint, es.map .ok⟩ = (build es).map .ok := by
  have hcol : collect next fuel s = .ok (some es) := by
    clear hh
    induction hy generalizing fuel with
    | nil h =>
      cases fuel with
      | zero => simp at hf
      | succ n => simp only [collect, h, bind, Except.bind]
    | @cons s s1 s' a as h _ ih =>
      cases fuel with
      | zero => simp at hf
      | succ n =>
        have := ih (fuel := n) (by simpa using hf)
        simp only [collect, h, bind, Except.bind, this, Option.map_some]
  refine ⟨rfl, ?_, ?_⟩
  · simp only [fromIter, collectVec, hcol, bind, Except.bind]
    cases build es <;> rfl
  · simp only [visitWith, vecWithCapacity, if_pos hh, bind, Except.bind, drain_ok, List.nil_append]
    cases build es <;> rfl

/-- The iterator over a list, as used for `c35_routes`. -/
example : Yields (fun l : List Nat => match l with | [] => .ok (none, []) | a :: r => .ok (some a, r)) [1, 2] [1, 2] [] :=
  .cons rfl (.cons rfl (.nil rfl))

/-! ## C47: hostile size hints -/

/-- **C47** is false: an input that merely claims to have very many entries (the claim is all that is looked at before the
first entry is read) makes deserialization of every type panic, since the claim is used as the capacity of a vector. -/
theorem c47_hostile_hint_panics [Target] (build : List A → Res M) (items : List (Except E A)) {size : Nat} (hs : 0 < size) :
    visitWith size build ⟨some usizeMax, items⟩ = .error (.panic "capacity overflow") := by
  have : ¬ usizeMax * size < allocLimit := by
    have h2 : usizeMax * 1 ≤ usizeMax * size := Nat.mul_le_mul_left _ hs
    have hu := target_cases
    omega
  simp only [visitWith, vecWithCapacity, Option.getD_some, if_neg this, bind, Except.bind]

/-- **C47**, what does hold: with a size hint that is absent or small enough to allocate, the hint does not matter, however
wrong it is.  What is missing is the robustness against large claims. -/
theorem c47_hint_irrelevant_partial [Target] (build : List A → Res M) (items : List (Except E A)) {size : Nat} {h1 h2 : Option Nat}
    (hh1 : h1.getD 0 * size < allocLimit) (hh2 : h2.getD 0 * size < allocLimit) :
    visitWith size build ⟨h1, items⟩ = visitWith size build ⟨h2, items⟩ := by
  simp only [visitWith, vecWithCapacity, if_pos hh1, if_pos hh2]

/-- **C47**, exactly: a claim is harmless, that is the outcome is the same as without a claim whatever the input, if and only if a vector
of that many elements can be allocated at all. -/
theorem c47_hint_iff [Target] (build : List A → Res M) {size : Nat} {hint : Option Nat} (hb : ∃ m, build [] = .ok m) :
    (∀ items : List (Except E A), visitWith size build ⟨hint, items⟩ = visitWith size build ⟨none, items⟩) ↔
      hint.getD 0 * size < allocLimit := by
  refine ⟨fun h => ?_, fun h items => c47_hint_irrelevant_partial build items h (by simp)⟩
  by_contra hc
  obtain ⟨m, hm⟩ := hb
  have h1 := h []
  have hz : Option.getD (none : Option Nat) 0 * size < allocLimit := by simp
  simp only [visitWith, vecWithCapacity, if_neg hc, if_pos hz, drain, hm, bind, Except.bind] at h1
  cases h1

attribute [local instance] w64 in
/-- A claim of 2^60 entries of 8 bytes; and a wrong but harmless claim. -/
example : FzOrderedMap.visitMap (E := Unit) (V := Unit) 8 natCmp ⟨some (2 ^ 60), []⟩ = .error (.panic "capacity overflow") ∧
    FzOrderedMap.visitMap (E := Unit) (V := Unit) 8 natCmp ⟨some 1000, []⟩ =
      FzOrderedMap.visitMap 8 natCmp ⟨none, []⟩ :=
  ⟨rfl, c47_hint_irrelevant_partial _ _ (by decide) (by decide)⟩

end Frozen.Props
