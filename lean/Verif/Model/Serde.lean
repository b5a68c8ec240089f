import Verif.Model.Sets

/-!
# Construction routes, serialization and deserialization (feature `serde`)
-/

namespace Frozen.Model

variable {M Q K V T E A : Type}

/-! ## Serialization -/

/-- The calls a `Serialize` implementation makes on the serializer, in order. -/
inductive SerCall (A : Type)
  /-- `serializer.serialize_map(Some(n))` / `serialize_seq(Some(n))` -/
  | start (n : Option Nat)
  /-- `map.serialize_entry(k, v)` / `seq.serialize_element(v)` -/
  | item (a : A)
  /-- `map.end()` / `seq.end()` -/
  | finish
deriving DecidableEq

/-- `serialize` of all maps (core/maps/decl_macros.rs l.571-585), as the calls made when the serializer accepts all of
them (at the first error the function returns that error). -/
def MapImpl.serialize (I : MapImpl M Q K V) (m : M) : List (SerCall (K × V)) :=
  .start (some (I.len m)) :: (I.iter m).rest.map SerCall.item ++ [.finish]

/-- `serialize` of all sets (core/sets/decl_macros.rs l.133-146). -/
def SetImpl.serialize (I : SetImpl M Q T) (m : M) : List (SerCall T) :=
  .start (some (I.len m)) :: (I.items m).map SerCall.item ++ [.finish]

/-! ## Deserialization -/

/-- A `MapAccess` / `SeqAccess`: what the deserializer claims about the number of items, and what successive calls of
`next_entry` / `next_element` return (`None` after the last). -/
structure Access (E A : Type) where
  sizeHint : Option Nat
  items : List (Except E A)

/-- `Vec::with_capacity(n)` for elements of `size` bytes: panics when `n * size` exceeds `isize::MAX`.
(Failure of the allocator, which aborts the process, is not modelled.) -/
def vecWithCapacity [Target] (A : Type) (size n : Nat) : Res (List A) :=
  if n * size < allocLimit then .ok [] else .error (.panic "capacity overflow")

/-- `while let Some(x) = map.next_entry()? { v.push(x); }`. -/
def drain (v : List A) : List (Except E A) → Except E (List A)
  | [] => .ok v
  | .ok x :: r => drain (v ++ [x]) r
  | .error e :: _ => .error e

/-- `visit_map` / `visit_seq` of all types (core/fz_maps/fz_hash_map.rs l.400-410, fz_ordered_map.rs l.337-347,
fz_scalar_map.rs l.422-432, fz_string_map.rs l.523-533, core/fz_sets/fz_hash_set.rs l.314-324 and the other sets): allocate
for the claimed number of items, collect the items, and hand them to the constructor.  The outer `Res` is panic, the inner
`Except` the deserializer's error. -/
def visitWith [Target] (size : Nat) (build : List A → Res M) (acc : Access E A) : Res (Except E M) := do
  let v ← vecWithCapacity A size (acc.sizeHint.getD 0)
  match drain v acc.items with
  | .error e => .ok (.error e)
  | .ok v => do
    let m ← build v
    .ok (.ok m)

/-- `FzHashMap`'s `visit_map` (core/fz_maps/fz_hash_map.rs l.400-410). -/
def FzHashMap.visitMap [Target] (size : Nat) (find : HbFind) (sort : Sorter (K × V)) (eqK : K → K → Bool) (bh : K → Nat)
    (acc : Access E (K × V)) : Res (Except E (HashMap K V)) :=
  visitWith size (FzHashMap.withHasher find sort eqK bh) acc

/-- `FzOrderedMap`'s `visit_map` (core/fz_maps/fz_ordered_map.rs l.337-347). -/
def FzOrderedMap.visitMap [Target] (size : Nat) (cmp : K → K → Ordering) (acc : Access E (K × V)) :
    Res (Except E (EytzingerMap K V)) := visitWith size (FzOrderedMap.new cmp) acc

/-- `FzScalarMap`'s `visit_map` (core/fz_maps/fz_scalar_map.rs l.422-432). -/
def FzScalarMap.visitMap [Target] (size : Nat) (b : Build) (sort : Sorter (K × V)) (cmp : K → K → Ordering) (index : K → Nat)
    (acc : Access E (K × V)) : Res (Except E (FzScalarMap K V)) := visitWith size (FzScalarMap.new b sort cmp index) acc

/-- A string as a deserializer provides it: borrowed from the input, or only for the duration of the call (for example
because it had escapes in JSON text, or because the input is read from a stream). -/
inductive DeStr
  | borrowed (s : Str)
  | transient (s : Str)

/-- `<&'de str as Deserialize>::deserialize` (serde): only a string borrowed from the input is accepted, otherwise the
error is "invalid type: string, expected a borrowed string". -/
def DeStr.asBorrowed (err : E) : DeStr → Except E Str
  | .borrowed s => .ok s
  | .transient _ => .error err

/-- Deserialization of one `(&'de str, V)` entry. -/
def borrowEntry (err : E) : Except E (DeStr × V) → Except E (Str × V)
  | .error e => .error e
  | .ok (k, v) =>
    match k.asBorrowed err with
    | .error e => .error e
    | .ok s => .ok (s, v)

/-- `FzStringMap`'s `visit_map` (core/fz_maps/fz_string_map.rs l.523-533): the entries are collected as
`Vec<(&'de str, _)>`. -/
def FzStringMap.visitMap [Target] (size : Nat) (err : E) (sort : Sorter (Str × V)) (bhStr bhSlice : Str → Nat)
    (acc : Access E (DeStr × V)) : Res (Except E (FzStringMap V)) :=
  visitWith size (FzStringMap.withHasher sort bhStr bhSlice) ⟨acc.sizeHint, acc.items.map (borrowEntry err)⟩

/-- `v.push((x, ()))` instead of `v.push(x)`. -/
def withUnit : Except E T → Except E (T × Unit)
  | .error e => .error e
  | .ok x => .ok (x, ())

/-- `FzHashSet`'s `visit_seq` (core/fz_sets/fz_hash_set.rs l.314-324). -/
def FzHashSet.visitSeq [Target] (size : Nat) (find : HbFind) (sort : Sorter (T × Unit)) (eqT : T → T → Bool) (bh : T → Nat)
    (acc : Access E T) : Res (Except E (HashMap T Unit)) :=
  visitWith size (FzHashMap.withHasher find sort eqT bh) ⟨acc.sizeHint, acc.items.map withUnit⟩

/-- `FzOrderedSet`'s `visit_seq` (core/fz_sets/fz_ordered_set.rs l.260-270). -/
def FzOrderedSet.visitSeq [Target] (size : Nat) (cmp : T → T → Ordering) (acc : Access E T) :
    Res (Except E (EytzingerMap T Unit)) :=
  visitWith size (FzOrderedMap.new cmp) ⟨acc.sizeHint, acc.items.map withUnit⟩

/-- `FzScalarSet`'s `visit_seq` (core/fz_sets/fz_scalar_set.rs l.254-264). -/
def FzScalarSet.visitSeq [Target] (size : Nat) (b : Build) (sort : Sorter (T × Unit)) (cmp : T → T → Ordering) (index : T → Nat)
    (acc : Access E T) : Res (Except E (FzScalarMap T Unit)) :=
  visitWith size (FzScalarMap.new b sort cmp index) ⟨acc.sizeHint, acc.items.map withUnit⟩

/-- Deserialization of one `&str` element. -/
def borrowElem (err : E) : Except E DeStr → Except E Str
  | .error e => .error e
  | .ok s => s.asBorrowed err

/-- `FzStringSet`'s `visit_seq` (core/fz_sets/fz_string_set.rs l.298-308): the elements are collected as
`Vec<(&str, ())>`. -/
def FzStringSet.visitSeq [Target] (size : Nat) (err : E) (sort : Sorter (Str × Unit)) (bhStr bhSlice : Str → Nat)
    (acc : Access E DeStr) : Res (Except E (FzStringMap Unit)) :=
  visitWith size (FzStringMap.withHasher sort bhStr bhSlice)
    ⟨acc.sizeHint, (acc.items.map (borrowElem err)).map withUnit⟩

/-! ## `From<[_; N]>` and `FromIterator` -/

/-- `iter.into_iter().collect::<Vec<_>>()`: run the iterator to its end.  `fuel` bounds the number of calls in the model. -/
def collectVec {S : Type} (next : S → Res (Option A × S)) (fuel : Nat) (s : S) : Res (Option (List A)) :=
  collect next fuel s

/-- `FromIterator::from_iter` of the maps: collect, then construct (core/fz_maps/fz_hash_map.rs l.219-227,
fz_ordered_map.rs l.191-198, fz_scalar_map.rs l.276-283, fz_string_map.rs l.311-319). -/
def fromIter {S : Type} (build : List A → Res M) (next : S → Res (Option A × S)) (fuel : Nat) (s : S) :
    Res (Option M) := do
  match ← collectVec next fuel s with
  | none => .ok none
  | some v => do
    let m ← build v
    .ok (some m)

/-- `From<[(K, V); N]>` of the maps: `Vec::from(entries)`, then construct (core/fz_maps/fz_hash_map.rs l.209-217,
fz_ordered_map.rs l.182-189, fz_scalar_map.rs l.267-274, fz_string_map.rs l.301-309). -/
def fromArray (build : List A → Res M) (entries : List A) : Res M := build entries

end Frozen.Model
