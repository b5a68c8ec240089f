import Verif.Model.Serde

/-!
# Serialization into a format, and collections inside collections (feature `serde`)

`Model/Serde` gives the calls a serializer sees when it accepts everything, and deserialization from items that are already
decoded.  Here the serializer may refuse any call, and the items of a collection may be collections themselves.
-/

namespace Frozen.Model

variable {M Q K V T E A S O : Type}

/-! ## Serializers -/

/-- A `serde::Serializer` together with its `SerializeMap` / `SerializeSeq`: a state, and for every call the next state or
an error.  The result of `end` is the serializer's `Ok` value.  (The interface belongs to serde, not to /repo.) -/
structure Serializer (S O E A : Type) where
  start : Option Nat → Except E S
  item : S → A → Except E S
  finish : S → Except E O

/-- `for (k, v) in self { map.serialize_entry(k, v)?; }`. -/
def Serializer.feed (z : Serializer S O E A) (s : S) : List A → Except E S
  | [] => .ok s
  | a :: r => do
    let s ← z.item s a
    z.feed s r

/-- `serialize` of all maps (core/maps/decl_macros.rs l.573-584): `serialize_map(Some(self.len()))?`, one `serialize_entry`
for each entry, `end()`. -/
def MapImpl.serializeTo (I : MapImpl M Q K V) (z : Serializer S O E (K × V)) (m : M) : Except E O := do
  let s ← z.start (some (I.len m))
  let s ← z.feed s (I.iter m).rest
  z.finish s

/-- `serialize` of all sets (core/sets/decl_macros.rs l.135-145). -/
def SetImpl.serializeTo (I : SetImpl M Q T) (z : Serializer S O E T) (m : M) : Except E O := do
  let s ← z.start (some (I.len m))
  let s ← z.feed s (I.items m)
  z.finish s

/-! ## A format that keeps values as trees -/

/-- A document of a self-describing format, such as a `serde_json::Value`: the data model of serde as far as collections
are concerned.  Everything that is neither a sequence nor a map is a leaf; which number stands for
which leaf is left to the codecs of the leaf types. -/
inductive Doc
  | leaf (code : Nat)
  | seq (items : List Doc)
  | map (entries : List (Doc × Doc))

/-- `Serialize` and `Deserialize` of a type, for that format.  The outer `Res` of `de` is a panic of the deserializing code, the
inner `Except` an error returned. -/
structure Codec (E A : Type) where
  ser : A → Except E Doc
  de : Doc → Res (Except E A)

/-- The serializer of the format, for maps.  (Not in /repo.) -/
def Codec.mapSerializer (ck : Codec E K) (cv : Codec E V) : Serializer (List (Doc × Doc)) Doc E (K × V) where
  start _ := .ok []
  item s e := do
    let k ← ck.ser e.1
    let v ← cv.ser e.2
    .ok (s ++ [(k, v)])
  finish s := .ok (.map s)

/-- The serializer of the format, for sequences.  (Not in /repo.) -/
def Codec.seqSerializer (c : Codec E T) : Serializer (List Doc) Doc E T where
  start _ := .ok []
  item s x := do
    let d ← c.ser x
    .ok (s ++ [d])
  finish s := .ok (.seq s)

/-- `next_entry`: the key first, then the value (provided method of `serde::de::MapAccess`). -/
def Codec.entry (ck : Codec E K) (cv : Codec E V) (p : Doc × Doc) : Res (Except E (K × V)) := do
  match ← ck.de p.1 with
  | .error e => .ok (.error e)
  | .ok k =>
    match ← cv.de p.2 with
    | .error e => .ok (.error e)
    | .ok v => .ok (.ok (k, v))

/-- `next_element`, and the element made the key of `()` (`v.push((x, ()))`, core/fz_sets/fz_hash_set.rs l.319-321). -/
def Codec.element (c : Codec E T) (d : Doc) : Res (Except E (T × Unit)) := do
  match ← c.de d with
  | .error e => .ok (.error e)
  | .ok x => .ok (.ok (x, ()))

/-- `while let Some(x) = map.next_entry()? { v.push(x); }` where decoding an item may panic. -/
def drainNested (v : List A) : List (Res (Except E A)) → Res (Except E (List A))
  | [] => .ok (.ok v)
  | .error f :: _ => .error f
  | .ok (.error e) :: _ => .ok (.error e)
  | .ok (.ok x) :: r => drainNested (v ++ [x]) r

/-- `visit_map` / `visit_seq` (see `visitWith`) where decoding an item may panic. -/
def visitNested [Target] (size : Nat) (build : List A → Res M) (hint : Option Nat) (items : List (Res (Except E A))) :
    Res (Except E M) := do
  let v ← vecWithCapacity A size (hint.getD 0)
  match ← drainNested v items with
  | .error e => .ok (.error e)
  | .ok v => do
    let m ← build v
    .ok (.ok m)

/-- `Serialize` and `Deserialize` of a map type.  `deserialize` asks for a map (`deserializer.deserialize_map(MapVisitor)`); the
visitor has only `visit_map`, so a document that is not a map gives serde's "invalid type" error.  `hint` is the size hint
the format gives for a map of so many entries. -/
def mapCodec [Target] (hint : Nat → Option Nat) (invalid : E) (size : Nat) (build : List (K × V) → Res M)
    (I : MapImpl M Q K V) (ck : Codec E K) (cv : Codec E V) : Codec E M where
  ser := I.serializeTo (ck.mapSerializer cv)
  de
    | .map es => visitNested size build (hint es.length) (es.map (ck.entry cv))
    | _ => .ok (.error invalid)

/-- `Serialize` and `Deserialize` of a set type (`deserializer.deserialize_seq(SetVisitor)`, visitor with only `visit_seq`). -/
def setCodec [Target] (hint : Nat → Option Nat) (invalid : E) (size : Nat) (build : List (T × Unit) → Res M)
    (I : SetImpl M Q T) (c : Codec E T) : Codec E M where
  ser := I.serializeTo c.seqSerializer
  de
    | .seq ds => visitNested size build (hint ds.length) (ds.map c.element)
    | _ => .ok (.error invalid)

/-! ## The eight types

`invalid` makes serde's "invalid type" error from what the visitor's `expecting` writes. -/

/-- `FzHashMap` (core/fz_maps/fz_hash_map.rs l.374-410). -/
def FzHashMap.codec [Target] (hint : Nat → Option Nat) (invalid : String → E) (size : Nat) (find : HbFind)
    (sort : Sorter (K × V)) (eqK : K → K → Bool) (hK : K → Nat) (hQ : Q → Nat) (mt : Q → K → Bool) (ck : Codec E K)
    (cv : Codec E V) : Codec E (HashMap K V) :=
  mapCodec hint (invalid "a map with hashable keys") size (FzHashMap.withHasher find sort eqK hK) (FzHashMap.impl hQ mt) ck cv

/-- `FzOrderedMap` (core/fz_maps/fz_ordered_map.rs l.312-347). -/
def FzOrderedMap.codec [Target] (hint : Nat → Option Nat) (invalid : String → E) (size : Nat) (cmp : K → K → Ordering)
    (qcmp : Q → K → Ordering) (ck : Codec E K) (cv : Codec E V) : Codec E (EytzingerMap K V) :=
  mapCodec hint (invalid "a map with ordered keys") size (FzOrderedMap.new cmp) (FzOrderedMap.impl qcmp) ck cv

/-- `FzScalarMap` (core/fz_maps/fz_scalar_map.rs l.397-432). -/
def FzScalarMap.codec [Target] (hint : Nat → Option Nat) (invalid : String → E) (size : Nat) (b : Build)
    (sort : Sorter (K × V)) (cmp : K → K → Ordering) (index : K → Nat) (qindex : Q → Nat) (mt : Q → K → Bool)
    (ck : Codec E K) (cv : Codec E V) : Codec E (FzScalarMap K V) :=
  mapCodec hint (invalid "a map with scalar keys") size (FzScalarMap.new b sort cmp index) (FzScalarMap.impl qindex mt) ck cv

/-- `FzStringMap` (core/fz_maps/fz_string_map.rs l.498-533); `ck` is the format's treatment of `&'de str`. -/
def FzStringMap.codec [Target] (hint : Nat → Option Nat) (invalid : String → E) (size : Nat) (sort : Sorter (Str × V))
    (bhStr bhSlice : Str → Nat) (ck : Codec E Str) (cv : Codec E V) : Codec E (FzStringMap V) :=
  mapCodec hint (invalid "a map with string keys") size (FzStringMap.withHasher sort bhStr bhSlice)
    (FzStringMap.impl bhStr bhSlice) ck cv

/-- `FzHashSet` (core/fz_sets/fz_hash_set.rs l.289-324). -/
def FzHashSet.codec [Target] (hint : Nat → Option Nat) (invalid : String → E) (size : Nat) (find : HbFind)
    (sort : Sorter (T × Unit)) (eqT : T → T → Bool) (hT : T → Nat) (hQ : Q → Nat) (mt : Q → T → Bool) (c : Codec E T) :
    Codec E (HashMap T Unit) :=
  setCodec hint (invalid "a set with hashable values") size (FzHashMap.withHasher find sort eqT hT)
    (fzSetImpl (FzHashMap.impl hQ mt)) c

/-- `FzOrderedSet` (core/fz_sets/fz_ordered_set.rs l.236-270). -/
def FzOrderedSet.codec [Target] (hint : Nat → Option Nat) (invalid : String → E) (size : Nat) (cmp : T → T → Ordering)
    (qcmp : Q → T → Ordering) (c : Codec E T) : Codec E (EytzingerMap T Unit) :=
  setCodec hint (invalid "a set with ordered values") size (FzOrderedMap.new cmp) (fzSetImpl (FzOrderedMap.impl qcmp)) c

/-- `FzScalarSet` (core/fz_sets/fz_scalar_set.rs l.230-264). -/
def FzScalarSet.codec [Target] (hint : Nat → Option Nat) (invalid : String → E) (size : Nat) (b : Build)
    (sort : Sorter (T × Unit)) (cmp : T → T → Ordering) (index : T → Nat) (qindex : Q → Nat) (mt : Q → T → Bool)
    (c : Codec E T) : Codec E (FzScalarMap T Unit) :=
  setCodec hint (invalid "a set with scalar values") size (FzScalarMap.new b sort cmp index)
    (fzSetImpl (FzScalarMap.impl qindex mt)) c

/-- `FzStringSet` (core/fz_sets/fz_string_set.rs l.274-308); `c` is the format's treatment of `&'de str`. -/
def FzStringSet.codec [Target] (hint : Nat → Option Nat) (invalid : String → E) (size : Nat) (sort : Sorter (Str × Unit))
    (bhStr bhSlice : Str → Nat) (c : Codec E Str) : Codec E (FzStringMap Unit) :=
  setCodec hint (invalid "a set with string values") size (FzStringMap.withHasher sort bhStr bhSlice)
    (fzSetImpl (FzStringMap.impl bhStr bhSlice)) c

end Frozen.Model
