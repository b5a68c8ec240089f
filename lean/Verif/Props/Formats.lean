import Verif.Lemmas.Formats
import Verif.Props.Serde

/-!
# C92: collections in documents, and collections inside collections
-/

namespace Frozen.Props

open Frozen Frozen.Spec Frozen.Model

variable {M Q K V T E A S O : Type}

/-! ## Serializers that fail -/

/-- **C92** `serialize` of a map succeeds exactly when the serializer takes the number of entries, then the entries in the
order of iteration, and then the end; and its result is then what the serializer returned at the end. -/
theorem c92_serialize_map_ok_iff [Target] {eqK : K → K → Bool} {mt : Q → K → Bool} {es : List (K × V)} {I : MapImpl M Q K V}
    {m : M} (hb : Built eqK mt es I m) (z : Serializer S O E (K × V)) (o : O) :
    I.serializeTo z m = .ok o ↔
      ∃ s s', z.start (some (I.iter m).rest.length) = .ok s ∧ Accepts z s (I.iter m).rest s' ∧ z.finish s' = .ok o := by
  obtain ⟨Inv, F⟩ := hb.facts
  have hl : I.len m = (I.iter m).rest.length := F.lawful.len m F.inv
  unfold MapImpl.serializeTo
  rw [hl]
  rcases h1 : z.start (some (I.iter m).rest.length) with e | s
  · simp [bind, Except.bind]
  · rcases h2 : z.feed s (I.iter m).rest with e | s'
    · simp only [bind, Except.bind, h2, reduceCtorEq, Except.ok.injEq, false_iff]
      rintro ⟨_, s', rfl, h3, -⟩
      rw [(feed_ok_iff ..).2 h3] at h2
      cases h2
    · simp only [bind, Except.bind, h2, Except.ok.injEq]
      constructor
      · intro h
        exact ⟨s, s', rfl, (feed_ok_iff ..).1 h2, h⟩
      · rintro ⟨_, s'', rfl, h3, h4⟩
        rw [(feed_ok_iff ..).2 h3] at h2
        cases h2
        exact h4

/-- **C92** `serialize` of a map fails with the first error of the serializer, and makes no call after it: the error comes from
the start, or from an entry after the entries before it were taken, or from the end after all were taken. -/
theorem c92_serialize_map_error_iff [Target] {eqK : K → K → Bool} {mt : Q → K → Bool} {es : List (K × V)} {I : MapImpl M Q K V}
    {m : M} (hb : Built eqK mt es I m) (z : Serializer S O E (K × V)) (e : E) :
    I.serializeTo z m = .error e ↔
      z.start (some (I.iter m).rest.length) = .error e ∨
      ∃ s, z.start (some (I.iter m).rest.length) = .ok s ∧
        ((∃ done x r s', (I.iter m).rest = done ++ x :: r ∧ Accepts z s done s' ∧ z.item s' x = .error e) ∨
          ∃ s', Accepts z s (I.iter m).rest s' ∧ z.finish s' = .error e) := by
  obtain ⟨Inv, F⟩ := hb.facts
  have hl : I.len m = (I.iter m).rest.length := F.lawful.len m F.inv
  unfold MapImpl.serializeTo
  rw [hl]
  rcases h1 : z.start (some (I.iter m).rest.length) with e' | s
  · simp [bind, Except.bind]
  · simp only [bind, Except.bind, reduceCtorEq, false_or, Except.ok.injEq, exists_eq_left']
    rw [← feed_error_iff]
    simp only [← feed_ok_iff]
    rcases z.feed s (I.iter m).rest with e' | s' <;> simp

/-- **C92** The same for sets. -/
theorem c92_serialize_set_ok_iff [Target] {eqT : T → T → Bool} {mt : Q → T → Bool} {xs : List T} {I : SetImpl M Q T}
    {m : M} (hb : BuiltSet eqT mt xs I m) (z : Serializer S O E T) (o : O) :
    I.serializeTo z m = .ok o ↔
      ∃ s s', z.start (some (I.items m).length) = .ok s ∧ Accepts z s (I.items m) s' ∧ z.finish s' = .ok o := by
  have hl := hb.spec.2.2.len
  unfold SetImpl.serializeTo
  rw [hl]
  rcases h1 : z.start (some (I.items m).length) with e' | s
  · simp [bind, Except.bind]
  · simp only [bind, Except.bind, Except.ok.injEq, ← feed_ok_iff]
    rcases h2 : z.feed s (I.items m) with e' | s' <;> simp [h2]

/-- **C92** The same for sets. -/
theorem c92_serialize_set_error_iff [Target] {eqT : T → T → Bool} {mt : Q → T → Bool} {xs : List T} {I : SetImpl M Q T}
    {m : M} (hb : BuiltSet eqT mt xs I m) (z : Serializer S O E T) (e : E) :
    I.serializeTo z m = .error e ↔
      z.start (some (I.items m).length) = .error e ∨
      ∃ s, z.start (some (I.items m).length) = .ok s ∧
        ((∃ done x r s', I.items m = done ++ x :: r ∧ Accepts z s done s' ∧ z.item s' x = .error e) ∨
          ∃ s', Accepts z s (I.items m) s' ∧ z.finish s' = .error e) := by
  have hl := hb.spec.2.2.len
  unfold SetImpl.serializeTo
  rw [hl]
  rcases h1 : z.start (some (I.items m).length) with e' | s
  · simp [bind, Except.bind]
  · simp only [bind, Except.bind, reduceCtorEq, false_or, Except.ok.injEq, exists_eq_left']
    rw [← feed_error_iff]
    simp only [← feed_ok_iff]
    rcases z.feed s (I.items m) with e' | s' <;> simp

/-! ## Round trips -/

theorem builds_hash [Target] {n : Nat} {find : HbFind} {sort : Sorter (K × V)} {eqK : K → K → Bool} {mt : Q → K → Bool}
    {hK : K → Nat} {hQ : Q → Nat} (hn : n ≤ sizeLimit) (hf : HbFindOk find) (hs : SorterOk sort) (he : LawfulEq' eqK)
    (hq : LawfulQuery eqK mt) (hh : LawfulHash eqK mt hK hQ) (goodK : K → Prop) :
    Builds n goodK eqK mt (FzHashMap.impl hQ mt) (FzHashMap.withHasher find sort eqK hK) := by
  intro es hl _
  obtain ⟨m, hm, -⟩ := FzHashMap.withHasher_spec hf hs he hh.key es (by omega)
  exact ⟨m, hm, .fzHash hf hs he hq hh (by omega) hm⟩

theorem builds_ordered [Target] {n : Nat} {cmp : K → K → Ordering} {qcmp : Q → K → Ordering} (hc : LawfulCmp cmp)
    (hq : LawfulQueryCmp cmp qcmp) (goodK : K → Prop) :
    Builds (V := V) n goodK (fun a b => cmp a b == .eq) (fun q k => qcmp q k == .eq) (FzOrderedMap.impl qcmp)
      (FzOrderedMap.new cmp) := by
  intro es hl _
  obtain ⟨m, hm, -⟩ := FzOrderedMap.new_spec hc es
  exact ⟨m, hm, .fzOrdered hc hq hm⟩

theorem builds_scalar [Target] {n : Nat} {b : Build} {sort : Sorter (K × V)} {cmp : K → K → Ordering} {index : K → Nat}
    {qindex : Q → Nat} (hn : n ≤ tableLimit) (hso : SorterOk sort) (hs : LawfulScalar cmp index) {goodK : K → Prop}
    (hx : ∀ k, goodK k → index k ≠ usizeMax) :
    Builds n goodK (fun a b => cmp a b == .eq) (scalarMatch index qindex)
      (FzScalarMap.impl qindex (scalarMatch index qindex)) (FzScalarMap.new b sort cmp index) := by
  intro es hl hg
  obtain ⟨m, hm⟩ := (c18_construction_partial b hso hs es (by omega)).2 (by
    rintro ⟨x, _, y, hy, _, h⟩
    exact hx _ (hg y hy) h)
  exact ⟨m, hm, .fzScalar hso hs (by omega) hm⟩

theorem builds_string [Target] {n : Nat} {sort : Sorter (Str × V)} {bhStr bhSlice : Str → Nat} (hn : n ≤ sizeLimit)
    (hso : SorterOk sort) (goodK : Str → Prop) :
    Builds n goodK (fun a b => a == b) (fun a b => a == b) (FzStringMap.impl bhStr bhSlice)
      (FzStringMap.withHasher sort bhStr bhSlice) := by
  intro es hl _
  obtain ⟨m, hm, -⟩ := FzStringMap.withHasher_spec hso bhStr bhSlice es (by omega)
  exact ⟨m, hm, .fzString hso (by omega) hm⟩

theorem unitEntries_few {n : Nat} {xs : List T} (h : xs.length < n) : (unitEntries xs).length < n := by simpa [unitEntries]

theorem unitEntries_good {good : T → Prop} {xs : List T} (h : ∀ x ∈ xs, good x) : ∀ e ∈ unitEntries xs, good e.1 := by
  intro e he
  obtain ⟨x, hx, rfl⟩ := List.mem_map.1 he
  exact h x hx

/-- **C92** Every type made of collections, nested to any depth, keeps its values when it is written and read back, provided
the types at the leaves do. -/
theorem c92_nested_round_trip [Target] {n : Nat} {hint : Nat → Option Nat} {invalid : String → E} (hh : ∀ k, (hint k).getD 0 ≤ k)
    {good : A → Prop} {same : A → A → Prop} {c : Codec E A} (hs : Storable n hint invalid good same c) :
    Keeps good same c := by
  induction hs with
  | leaf hk _ => exact hk
  | hashMap hn hz hf hs he hq hl _ _ ihk ihv => exact keeps_map hh hz (builds_hash hn hf hs he hq hl _) ihk ihv
  | orderedMap hz hc hq _ _ ihk ihv => exact keeps_map hh hz (builds_ordered hc hq _) ihk ihv
  | scalarMap hn hz hso hs hx _ _ ihk ihv => exact keeps_map hh hz (builds_scalar hn hso hs hx) ihk ihv
  | stringMap hn hz hso _ _ ihk ihv => exact keeps_map hh hz (builds_string hn hso _) ihk ihv
  | hashSet hn hz hf hs he hq hl _ ihk =>
    refine keeps_set hh hz (fun xs h1 h2 => ?_) ihk
    obtain ⟨m, hm, -⟩ := builds_hash hn hf hs he hq hl _ _ (unitEntries_few h1) (unitEntries_good h2)
    exact ⟨m, hm, .fzHash hf hs he hq hl (by omega) hm⟩
  | orderedSet hz hc hq _ ihk =>
    refine keeps_set hh hz (fun xs h1 h2 => ?_) ihk
    obtain ⟨m, hm, -⟩ := builds_ordered hc hq _ _ (unitEntries_few h1) (unitEntries_good h2)
    exact ⟨m, hm, .fzOrdered hc hq hm⟩
  | @scalarSet T Q _ _ _ _ _ qindex _ _ hn hz hso hs hx _ ihk =>
    refine keeps_set hh hz (fun xs h1 h2 => ?_) ihk
    obtain ⟨m, hm, -⟩ := builds_scalar (qindex := qindex) hn hso hs hx _ (unitEntries_few h1) (unitEntries_good h2)
    exact ⟨m, hm, .fzScalar hso hs (by omega) hm⟩
  | @stringSet _ _ bhStr bhSlice _ _ hn hz hso _ ihk =>
    refine keeps_set hh hz (fun xs h1 h2 => ?_) ihk
    obtain ⟨m, hm, -⟩ := builds_string (bhStr := bhStr) (bhSlice := bhSlice) hn hso _ _ (unitEntries_few h1) (unitEntries_good h2)
    exact ⟨m, hm, .fzString hso (by omega) hm⟩

/-- **C92** Reading any document as such a type, for example one written by a program that expected another type or one that was
tampered with, gives an error or a collection that works; it does not panic. -/
theorem c92_any_document [Target] {n : Nat} {hint : Nat → Option Nat} {invalid : String → E} (hh : ∀ k, (hint k).getD 0 ≤ k)
    {good : A → Prop} {same : A → A → Prop} {c : Codec E A} (hs : Storable n hint invalid good same c) :
    Reads n good c := by
  induction hs with
  | leaf _ hr => exact hr
  | hashMap hn hz hf hs he hq hl _ _ ihk ihv => exact reads_map hh hz (builds_hash hn hf hs he hq hl _) ihk ihv
  | orderedMap hz hc hq _ _ ihk ihv => exact reads_map hh hz (builds_ordered hc hq _) ihk ihv
  | scalarMap hn hz hso hs hx _ _ ihk ihv => exact reads_map hh hz (builds_scalar hn hso hs hx) ihk ihv
  | stringMap hn hz hso _ _ ihk ihv => exact reads_map hh hz (builds_string hn hso _) ihk ihv
  | hashSet hn hz hf hs he hq hl _ ihk =>
    refine reads_set hh hz (fun xs h1 h2 => ?_) ihk
    obtain ⟨m, hm, -⟩ := builds_hash hn hf hs he hq hl _ _ (unitEntries_few h1) (unitEntries_good h2)
    exact ⟨m, hm, .fzHash hf hs he hq hl (by omega) hm⟩
  | orderedSet hz hc hq _ ihk =>
    refine reads_set hh hz (fun xs h1 h2 => ?_) ihk
    obtain ⟨m, hm, -⟩ := builds_ordered hc hq _ _ (unitEntries_few h1) (unitEntries_good h2)
    exact ⟨m, hm, .fzOrdered hc hq hm⟩
  | @scalarSet T Q _ _ _ _ _ qindex _ _ hn hz hso hs hx _ ihk =>
    refine reads_set hh hz (fun xs h1 h2 => ?_) ihk
    obtain ⟨m, hm, -⟩ := builds_scalar (qindex := qindex) hn hso hs hx _ (unitEntries_few h1) (unitEntries_good h2)
    exact ⟨m, hm, .fzScalar hso hs (by omega) hm⟩
  | @stringSet _ _ bhStr bhSlice _ _ hn hz hso _ ihk =>
    refine reads_set hh hz (fun xs h1 h2 => ?_) ihk
    obtain ⟨m, hm, -⟩ := builds_string (bhStr := bhStr) (bhSlice := bhSlice) hn hso _ _ (unitEntries_few h1) (unitEntries_good h2)
    exact ⟨m, hm, .fzString hso (by omega) hm⟩

/-! ## What is in a document, and which documents are read -/

/-- **C92** The document of a map lists the documents of its keys and values in the order of iteration. -/
theorem c92_map_document [Target] {hint : Nat → Option Nat} {invalid : E} {size : Nat} {build : List (K × V) → Res M}
    {I : MapImpl M Q K V} {ck : Codec E K} {cv : Codec E V} {m : M} {d : Doc}
    (h : (mapCodec hint invalid size build I ck cv).ser m = .ok d) :
    ∃ ds, d = .map ds ∧
      List.Forall₂ (fun e p => ck.ser e.1 = .ok p.1 ∧ cv.ser e.2 = .ok p.2) (I.iter m).rest ds := by
  suffices key : ∀ (l : List (K × V)) (s s' : List (Doc × Doc)), (ck.mapSerializer cv).feed s l = .ok s' →
      ∃ ds, s' = s ++ ds ∧ List.Forall₂ (fun e p => ck.ser e.1 = .ok p.1 ∧ cv.ser e.2 = .ok p.2) l ds by
    simp only [mapCodec, MapImpl.serializeTo] at h
    rw [show (ck.mapSerializer cv).start (some (I.len m)) = .ok [] from rfl] at h
    rcases h1 : (ck.mapSerializer cv).feed [] (I.iter m).rest with e | s'
    · simp only [bind, Except.bind, h1] at h
      cases h
    · simp only [bind, Except.bind, h1] at h
      obtain ⟨ds, h2, h3⟩ := key _ _ _ h1
      cases h
      exact ⟨ds, by rw [h2]; rfl, h3⟩
  intro l
  induction l with
  | nil =>
    intro s s' h
    cases h
    exact ⟨[], by simp, .nil⟩
  | cons e l ih =>
    intro s s' h
    rw [Serializer.feed] at h
    rcases h1 : ck.ser e.1 with x | d1
    · simp only [Codec.mapSerializer, h1, bind, Except.bind] at h
      cases h
    · rcases h2 : cv.ser e.2 with x | d2
      · simp only [Codec.mapSerializer, h1, h2, bind, Except.bind] at h
        cases h
      · obtain ⟨ds, h4, h5⟩ := ih (s ++ [(d1, d2)]) s' (by
          simp only [Codec.mapSerializer, h1, h2, bind, Except.bind] at h
          exact h)
        exact ⟨(d1, d2) :: ds, by simp [h4], .cons ⟨h1, h2⟩ h5⟩

/-- **C92** The document of a set lists the documents of its elements in the order of iteration. -/
theorem c92_set_document [Target] {hint : Nat → Option Nat} {invalid : E} {size : Nat} {build : List (T × Unit) → Res M}
    {I : SetImpl M Q T} {c : Codec E T} {m : M} {d : Doc} (h : (setCodec hint invalid size build I c).ser m = .ok d) :
    ∃ ds, d = .seq ds ∧ List.Forall₂ (fun x d => c.ser x = .ok d) (I.items m) ds := by
  suffices key : ∀ (l : List T) (s s' : List Doc), c.seqSerializer.feed s l = .ok s' →
      ∃ ds, s' = s ++ ds ∧ List.Forall₂ (fun x d => c.ser x = .ok d) l ds by
    simp only [setCodec, SetImpl.serializeTo] at h
    rw [show c.seqSerializer.start (some (I.len m)) = .ok [] from rfl] at h
    rcases h1 : c.seqSerializer.feed [] (I.items m) with e | s'
    · simp only [bind, Except.bind, h1] at h
      cases h
    · simp only [bind, Except.bind, h1] at h
      obtain ⟨ds, h2, h3⟩ := key _ _ _ h1
      cases h
      exact ⟨ds, by rw [h2]; rfl, h3⟩
  intro l
  induction l with
  | nil =>
    intro s s' h
    cases h
    exact ⟨[], by simp, .nil⟩
  | cons x l ih =>
    intro s s' h
    rw [Serializer.feed] at h
    rcases h1 : c.ser x with e | d1
    · simp only [Codec.seqSerializer, h1, bind, Except.bind] at h
      cases h
    · obtain ⟨ds, h4, h5⟩ := ih (s ++ [d1]) s' (by
        simp only [Codec.seqSerializer, h1, bind, Except.bind] at h
        exact h)
      exact ⟨d1 :: ds, by simp [h4], .cons h1 h5⟩

/-- **C92** A map is read only from a map, and a set only from a sequence; for anything else the error says what was expected. -/
theorem c92_wrong_kind [Target] {hint : Nat → Option Nat} {invalid : String → E} {size : Nat} {find : HbFind} {b : Build}
    {sort : Sorter (K × V)} {sortU : Sorter (K × Unit)} {sortS : Sorter (Str × V)} {sortSU : Sorter (Str × Unit)}
    {eqK : K → K → Bool} {cmp : K → K → Ordering} {hK index : K → Nat} {hQ qindex : Q → Nat} {mt : Q → K → Bool}
    {qcmp : Q → K → Ordering} {bhStr bhSlice : Str → Nat} (ck : Codec E K) (cs : Codec E Str) (cv : Codec E V) (d : Doc) :
    ((∀ es, d ≠ .map es) →
      (FzHashMap.codec hint invalid size find sort eqK hK hQ mt ck cv).de d = .ok (.error (invalid "a map with hashable keys")) ∧
      (FzOrderedMap.codec hint invalid size cmp qcmp ck cv).de d = .ok (.error (invalid "a map with ordered keys")) ∧
      (FzScalarMap.codec hint invalid size b sort cmp index qindex mt ck cv).de d =
        .ok (.error (invalid "a map with scalar keys")) ∧
      (FzStringMap.codec hint invalid size sortS bhStr bhSlice cs cv).de d = .ok (.error (invalid "a map with string keys"))) ∧
    ((∀ ds, d ≠ .seq ds) →
      (FzHashSet.codec hint invalid size find sortU eqK hK hQ mt ck).de d = .ok (.error (invalid "a set with hashable values")) ∧
      (FzOrderedSet.codec hint invalid size cmp qcmp ck).de d = .ok (.error (invalid "a set with ordered values")) ∧
      (FzScalarSet.codec hint invalid size b sortU cmp index qindex mt ck).de d =
        .ok (.error (invalid "a set with scalar values")) ∧
      (FzStringSet.codec hint invalid size sortSU bhStr bhSlice cs).de d = .ok (.error (invalid "a set with string values"))) := by
  cases d with
  | leaf x => exact ⟨fun _ => ⟨rfl, rfl, rfl, rfl⟩, fun _ => ⟨rfl, rfl, rfl, rfl⟩⟩
  | seq ds => exact ⟨fun _ => ⟨rfl, rfl, rfl, rfl⟩, fun h => absurd rfl (h ds)⟩
  | map es => exact ⟨fun h => absurd rfl (h es), fun _ => ⟨rfl, rfl, rfl, rfl⟩⟩

/-- **C92** When a key or a value of a map cannot be read, reading the map gives that error: the first one in the order of the
document, the key's before the value's.  No map is made of the part before it. -/
theorem c92_first_error [Target] {n : Nat} {hint : Nat → Option Nat} (hh : ∀ k, (hint k).getD 0 ≤ k) {invalid : E} {size : Nat}
    (hz : n * size ≤ allocLimit) {build : List (K × V) → Res M} {I : MapImpl M Q K V} {ck : Codec E K} {cv : Codec E V}
    {pre post : List (Doc × Doc)} {p : Doc × Doc} {e : E} (hn : (pre ++ p :: post).length < n)
    (hp : ∀ x ∈ pre, (∃ k, ck.de x.1 = .ok (.ok k)) ∧ ∃ v, cv.de x.2 = .ok (.ok v))
    (he : ck.de p.1 = .ok (.error e) ∨ (∃ k, ck.de p.1 = .ok (.ok k)) ∧ cv.de p.2 = .ok (.error e)) :
    (mapCodec hint invalid size build I ck cv).de (.map (pre ++ p :: post)) = .ok (.error e) := by
  have h1 : ∃ l : List (K × V), pre.map (ck.entry cv) = l.map fun a => .ok (.ok a) := by
    clear hn
    induction pre with
    | nil => exact ⟨[], rfl⟩
    | cons x pre ih =>
      obtain ⟨⟨k, hk⟩, v, hv⟩ := hp x (by simp)
      obtain ⟨l, hl⟩ := ih fun y hy => hp y (by simp [hy])
      exact ⟨(k, v) :: l, by rw [List.map_cons, hl, (entry_ok_iff ck cv x k v).2 ⟨hk, hv⟩]; rfl⟩
  have h2 : ck.entry cv p = .ok (.error e) := by
    unfold Codec.entry
    rcases he with h | ⟨⟨k, hk⟩, h⟩
    · rw [h]; rfl
    · simp only [hk, h, bind, Except.bind]
  obtain ⟨l, hl⟩ := h1
  simp only [mapCodec, List.map_append, List.map_cons, hl, h2]
  exact visitNested_error (room hh hn hz)

/-- **C92** A map is read from a document exactly when the document is a map all of whose keys and values can be read (for a
constructor that does not panic). -/
theorem c92_map_accepts_iff [Target] {n : Nat} {hint : Nat → Option Nat} {invalid : E} (hh : ∀ k, (hint k).getD 0 ≤ k)
    {size : Nat} {build : List (K × V) → Res M} {I : MapImpl M Q K V} {ck : Codec E K} {cv : Codec E V}
    (hz : n * size ≤ allocLimit) (hb : ∀ l, l.length < n → ∃ m, build l = .ok m)
    (hk : Reads n (fun _ => True) ck) (hv : Reads n (fun _ => True) cv) {d : Doc} (hd : Small n d) :
    (∃ m, (mapCodec hint invalid size build I ck cv).de d = .ok (.ok m)) ↔
      ∃ es, d = .map es ∧ ∀ p ∈ es, (∃ k, ck.de p.1 = .ok (.ok k)) ∧ ∃ v, cv.de p.2 = .ok (.ok v) := by
  cases hd with
  | leaf => exact ⟨fun ⟨m, h⟩ => (by cases h), fun ⟨es, h, _⟩ => (by cases h)⟩
  | seq => exact ⟨fun ⟨m, h⟩ => (by cases h), fun ⟨es, h, _⟩ => (by cases h)⟩
  | @map es hlen h1 h2 =>
    have hroom := room hh hlen hz
    rcases split_items (es.map (ck.entry cv)) (by
        intro x hx
        obtain ⟨p, hp, rfl⟩ := List.mem_map.1 hx
        obtain ⟨r, hr, -⟩ := entry_total (hk _ (h1 p hp)) (hv _ (h2 p hp))
        exact ⟨r, hr⟩) with ⟨as, has⟩ | ⟨as, e, r, has⟩
    · have hlen' : as.length < n := by
        have := congrArg List.length has
        simp only [List.length_map] at this
        omega
      obtain ⟨m, hm⟩ := hb as hlen'
      refine ⟨fun _ => ⟨es, rfl, fun p hp => ?_⟩, fun _ => ⟨m, ?_⟩⟩
      · have : ck.entry cv p ∈ es.map (ck.entry cv) := List.mem_map.2 ⟨p, hp, rfl⟩
        rw [has] at this
        obtain ⟨⟨k, v⟩, -, h3⟩ := List.mem_map.1 this
        obtain ⟨h4, h5⟩ := (entry_ok_iff ck cv p k v).1 h3.symm
        exact ⟨⟨k, h4⟩, v, h5⟩
      · simp only [mapCodec, has]
        exact visitNested_ok hroom hm
    · constructor
      · rintro ⟨m, h⟩
        simp only [mapCodec, has, visitNested_error hroom] at h
        cases h
      · rintro ⟨es', h, hall⟩
        cases h
        have : (Except.ok (Except.error e) : Res (Except E (K × V))) ∈ es.map (ck.entry cv) := by rw [has]; simp
        obtain ⟨p, hp, h3⟩ := List.mem_map.1 this
        obtain ⟨⟨k, h4⟩, v, h5⟩ := hall p hp
        rw [(entry_ok_iff ck cv p k v).2 ⟨h4, h5⟩] at h3
        cases h3

/-- **C92** A set is read from a document exactly when the document is a sequence all of whose items can be read. -/
theorem c92_set_accepts_iff [Target] {n : Nat} {hint : Nat → Option Nat} {invalid : E} (hh : ∀ k, (hint k).getD 0 ≤ k)
    {size : Nat} {build : List (T × Unit) → Res M} {I : SetImpl M Q T} {c : Codec E T}
    (hz : n * size ≤ allocLimit) (hb : ∀ l, l.length < n → ∃ m, build l = .ok m) (hk : Reads n (fun _ => True) c) {d : Doc}
    (hd : Small n d) :
    (∃ m, (setCodec hint invalid size build I c).de d = .ok (.ok m)) ↔
      ∃ ds, d = .seq ds ∧ ∀ x ∈ ds, ∃ a, c.de x = .ok (.ok a) := by
  cases hd with
  | leaf => exact ⟨fun ⟨m, h⟩ => (by cases h), fun ⟨es, h, _⟩ => (by cases h)⟩
  | map => exact ⟨fun ⟨m, h⟩ => (by cases h), fun ⟨es, h, _⟩ => (by cases h)⟩
  | @seq ds hlen h1 =>
    have hroom := room hh hlen hz
    rcases split_items (ds.map c.element) (by
        intro x hx
        obtain ⟨p, hp, rfl⟩ := List.mem_map.1 hx
        obtain ⟨r, hr, -⟩ := element_total (hk _ (h1 p hp))
        exact ⟨r, hr⟩) with ⟨as, has⟩ | ⟨as, e, r, has⟩
    · have hlen' : as.length < n := by
        have := congrArg List.length has
        simp only [List.length_map] at this
        omega
      obtain ⟨m, hm⟩ := hb as hlen'
      refine ⟨fun _ => ⟨ds, rfl, fun p hp => ?_⟩, fun _ => ⟨m, ?_⟩⟩
      · have : c.element p ∈ ds.map c.element := List.mem_map.2 ⟨p, hp, rfl⟩
        rw [has] at this
        obtain ⟨⟨k, ⟨⟩⟩, -, h3⟩ := List.mem_map.1 this
        exact ⟨k, (element_ok_iff c p k).1 h3.symm⟩
      · simp only [setCodec, has]
        exact visitNested_ok hroom hm
    · constructor
      · rintro ⟨m, h⟩
        simp only [setCodec, has, visitNested_error hroom] at h
        cases h
      · rintro ⟨ds', h, hall⟩
        cases h
        have : (Except.ok (Except.error e) : Res (Except E (T × Unit))) ∈ ds.map c.element := by rw [has]; simp
        obtain ⟨p, hp, h3⟩ := List.mem_map.1 this
        obtain ⟨a, ha⟩ := hall p hp
        rw [(element_ok_iff c p a).2 ha] at h3
        cases h3

/-! ## Agreement with the simpler model of `Model/Serde` -/

/-- A serializer that writes down the calls it gets. -/
def recorder (A E : Type) : Serializer (List (SerCall A)) (List (SerCall A)) E A where
  start n := .ok [.start n]
  item s a := .ok (s ++ [.item a])
  finish s := .ok (s ++ [.finish])

/-- The calls made on a serializer that accepts everything are the ones C34 is about. -/
theorem recorder_serialize (I : MapImpl M Q K V) (m : M) : I.serializeTo (recorder (K × V) E) m = .ok (I.serialize m) := by
  have key : ∀ (l : List (K × V)) s, (recorder (K × V) E).feed s l = .ok (s ++ l.map SerCall.item) := by
    intro l
    induction l with
    | nil => intro s; simp [Serializer.feed]
    | cons e l ih =>
      intro s
      rw [Serializer.feed]
      simp only [bind, Except.bind, recorder] at ih ⊢
      rw [ih]
      simp
  unfold MapImpl.serializeTo
  rw [show (recorder (K × V) E).start (some (I.len m)) = .ok [.start (some (I.len m))] from rfl]
  simp only [bind, Except.bind, key]
  simp [recorder, MapImpl.serialize]

/-- When decoding the items does not panic, reading is as in C34. -/
theorem visitNested_of_items [Target] (size : Nat) (build : List A → Res M) (hint : Option Nat) (items : List (Except E A)) :
    visitNested size build hint (items.map .ok) = visitWith size build ⟨hint, items⟩ := by
  have key : ∀ v, drainNested v (items.map .ok) = .ok (drain v items) := by
    induction items with
    | nil => intro v; rfl
    | cons x items ih =>
      intro v
      cases x with
      | error e => rfl
      | ok a => simp only [List.map_cons, drainNested, drain]; exact ih _
  simp only [visitNested, visitWith, key, bind, Except.bind]
  rfl

/-! ## Examples -/

/-- Numbers as leaves of a document. -/
def numberCodec : Codec String Nat where
  ser n := .ok (.leaf n)
  de
    | .leaf n => .ok (.ok n)
    | _ => .ok (.error "a number")

theorem numberCodec_keeps : Keeps (fun _ => True) (fun a b => (natCmp a b == .eq) = true) numberCodec := by
  intro a _
  exact ⟨_, rfl, a, rfl, trivial, (LawfulCmp'.eqLawful natCmp_lawful).refl a⟩

theorem numberCodec_reads (n : Nat) : Reads n (fun _ => True) numberCodec := by
  intro d _
  cases d <;> exact ⟨_, rfl, fun _ _ => trivial⟩

attribute [local instance] w64

/-- Ordered sets of numbers. -/
abbrev numbersCodec : Codec String (EytzingerMap Nat Unit) := FzOrderedSet.codec some id 8 natCmp natCmp numberCodec

/-- Ordered maps from numbers to ordered sets of numbers. -/
abbrev tableCodec : Codec String (EytzingerMap Nat (EytzingerMap Nat Unit)) :=
  FzOrderedMap.codec some id 32 natCmp natCmp numberCodec numbersCodec

/-- Maps of sets of numbers are storable. -/
theorem tableCodec_storable : Storable 1000 some id
    (GoodMap 1000 (fun _ => True)
      (GoodSet 1000 (fun _ => True) (fun a b => natCmp a b == .eq) (fun q k => natCmp q k == .eq)
        (fzSetImpl (FzOrderedMap.impl natCmp)))
      (fun a b => natCmp a b == .eq) (fun q k => natCmp q k == .eq) (FzOrderedMap.impl natCmp))
    (SameValues (SameMembers (fzSetImpl (FzOrderedMap.impl natCmp))) (FzOrderedMap.impl natCmp)) tableCodec :=
  .orderedMap (by decide) natCmp_lawful natCmp_query (.leaf numberCodec_keeps (numberCodec_reads _))
    (.orderedSet (by decide) natCmp_lawful natCmp_query (.leaf numberCodec_keeps (numberCodec_reads _)))

/-- Maps of sets of numbers survive being written and read back ... -/
example := c92_nested_round_trip (hint := some) (fun k => Nat.le_refl k) tableCodec_storable

/-- ... and no document makes reading them panic. -/
example := c92_any_document (hint := some) (fun k => Nat.le_refl k) tableCodec_storable

/-- A map with the sets `{2, 1}` under 7 and `{}` under 3. -/
def exampleTable : Res (EytzingerMap Nat (EytzingerMap Nat Unit)) := do
  let a ← FzOrderedSet.new natCmp [2, 1, 2]
  let b ← FzOrderedSet.new natCmp []
  FzOrderedMap.new natCmp [(7, a), (3, b)]

/-- Its document, in the order of iteration. -/
example : (do let m ← exampleTable; .ok (tableCodec.ser m) : Res (Except String Doc)) =
    .ok (.ok (.map [(.leaf 7, .seq [.leaf 2, .leaf 1]), (.leaf 3, .seq [])])) := by
  cbv

/-- A document in which a set is written as a map: the error says what was expected there. -/
example : tableCodec.de (.map [(.leaf 1, .seq []), (.leaf 2, .map [])]) =
    .ok (.error "a set with ordered values") := by
  cbv

/-- A serializer with room for one entry: the second entry is refused, and that error is returned. -/
example : (do
    let m ← exampleTable
    .ok ((FzOrderedMap.impl natCmp).serializeTo (S := Nat) (O := Nat) (E := String)
      ⟨fun _ => .ok 0, fun s _ => if s < 1 then .ok (s + 1) else .error "full", fun s => .ok s⟩ m) : Res (Except String Nat)) =
    .ok (.error "full") := by
  cbv

end Frozen.Props
