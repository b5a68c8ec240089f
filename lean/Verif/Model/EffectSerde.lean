import Verif.Model.EffectMaps
import Verif.Model.Serde

/-!
# Serialization and deserialization with code that panics and has effects

A serializer, a deserializer, and `Serialize`, `Deserialize` and `Default` of the types involved are code outside the crate.  Here they run in the state `W` of
the program, may panic and may return `Err`.
-/

namespace Frozen.Model

variable {W E O A B K V T M Q : Type}

/-- A `Serializer` with the `SerializeMap` or `SerializeSeq` it returns, whose state is part of that of the program. -/
structure SerializerE (W E O A : Type) where
  /-- `serialize_map` / `serialize_seq` -/
  start : Option Nat → Eff W (Except E Unit)
  /-- `serialize_entry` / `serialize_element`, which run `Serialize` of keys, values and elements -/
  item : A → Eff W (Except E Unit)
  /-- `end` -/
  finish : Eff W (Except E O)

/-- The loop `for (k, v) in self { map.serialize_entry(k, v)?; }` (core/maps/decl_macros.rs l.580-582, core/sets/decl_macros.rs l.141-143). -/
def feedE (item : A → Eff W (Except E Unit)) : List A → Eff W (Except E Unit)
  | [] => pure (.ok ())
  | a :: l => do
    let r ← item a
    match r with
    | .error e => pure (.error e)
    | .ok () => feedE item l

/-- The body of `serialize`, for a given length and given items. -/
def serializeAllE (z : SerializerE W E O A) (len : Nat) (items : List A) : Eff W (Except E O) := do
  let r ← z.start (some len)
  match r with
  | .error e => pure (.error e)
  | .ok () =>
    feedE z.item items >>= fun r =>
      match r with
      | .error e => pure (.error e)
      | .ok () => z.finish

/-- `serialize` of all maps (core/maps/decl_macros.rs l.574-585). -/
def MapImpl.serializeE (I : MapImpl M Q K V) (z : SerializerE W E O (K × V)) (m : M) : Eff W (Except E O) :=
  serializeAllE z (I.len m) (I.iter m).rest

/-- `serialize` of all sets (core/sets/decl_macros.rs l.135-146). -/
def SetImpl.serializeE (I : SetImpl M Q T) (z : SerializerE W E O T) (m : M) : Eff W (Except E O) :=
  serializeAllE z (I.len m) (I.items m)

/-- A `MapAccess` or `SeqAccess`, whose state is part of that of the program.  `next` is `next_entry` or `next_element`, which run `Deserialize` of keys, values
and elements; for string keys the type asked for is `&'de str`, and a source that cannot lend a string returns an error. -/
structure AccessE (W E A : Type) where
  sizeHint : Eff W (Option Nat)
  next : Eff W (Except E (Option A))

/-- `while let Some(x) = map.next_entry()? { v.push(x); }`; `f x` is what is pushed.  The fuel is a device of the model (`none` if it did not suffice: the source
may go on for ever). -/
def drainE (f : A → B) (next : Eff W (Except E (Option A))) : Nat → List B → Eff W (Option (Except E (List B)))
  | 0, _ => pure none
  | fuel + 1, v => do
    let r ← next
    match r with
    | .error e => pure (some (.error e))
    | .ok none => pure (some (.ok v))
    | .ok (some x) => drainE f next fuel (v ++ [f x])

/-- `visit_map` / `visit_seq` of all types, see `visitWith`.  `dflt` is `BH::default()`, which comes before the constructor is called. -/
def visitE [Target] (size : Nat) (f : A → B) (dflt : Eff W Unit) (build : List B → Eff W M) (acc : AccessE W E A) (fuel : Nat) :
    Eff W (Option (Except E M)) := do
  let h ← acc.sizeHint
  let v ← Eff.lift (vecWithCapacity B size (h.getD 0))
  let r ← drainE f acc.next fuel v
  match r with
  | none => pure none
  | some (.error e) => pure (some (.error e))
  | some (.ok v) => dflt >>= fun _ => build v >>= fun m => pure (some (.ok m))

/-- `FzHashMap`'s `visit_map` (core/fz_maps/fz_hash_map.rs l.400-410). -/
def FzHashMap.visitMapE [Target] (size : Nat) (find : HbFindDialog) (rehash : HbRehash) (sort : Sorter (K × V)) (eqK : K → K → Eff W Bool)
    (bh : K → Eff W Nat) (dflt : Eff W Unit) (acc : AccessE W E (K × V)) : Nat → Eff W (Option (Except E (HashMap K V))) :=
  visitE size id dflt (FzHashMap.withHasherE find rehash sort eqK bh) acc

/-- `FzOrderedMap`'s `visit_map` (core/fz_maps/fz_ordered_map.rs l.337-347). -/
def FzOrderedMap.visitMapE [Target] (size : Nat) (st : SortBy (K × V)) (cmp : K → K → Eff W Ordering) (acc : AccessE W E (K × V)) :
    Nat → Eff W (Option (Except E (EytzingerMap K V))) :=
  visitE size id (pure ()) (EytzingerMap.newE st cmp) acc

/-- `FzScalarMap`'s `visit_map` (core/fz_maps/fz_scalar_map.rs l.422-432). -/
def FzScalarMap.visitMapE [Target] (size : Nat) (b : Build) (st : SortBy (K × V)) (sort : Sorter (K × V)) (cmp : K → K → Eff W Ordering)
    (index : K → Eff W Nat) (acc : AccessE W E (K × V)) : Nat → Eff W (Option (Except E (FzScalarMap K V))) :=
  visitE size id (pure ()) (FzScalarMap.newE b st sort cmp index) acc

/-- `FzStringMap`'s `visit_map` (core/fz_maps/fz_string_map.rs l.523-533). -/
def FzStringMap.visitMapE [Target] (size : Nat) (sort : Sorter (Str × V)) (bhStr bhSlice : Str → Eff W Nat) (dflt : Eff W Unit)
    (acc : AccessE W E (Str × V)) : Nat → Eff W (Option (Except E (FzStringMap V))) :=
  visitE size id dflt (FzStringMap.withHasherE sort bhStr bhSlice) acc

/-- `FzHashSet`'s `visit_seq` (core/fz_sets/fz_hash_set.rs l.314-324). -/
def FzHashSet.visitSeqE [Target] (size : Nat) (find : HbFindDialog) (rehash : HbRehash) (sort : Sorter (T × Unit)) (eqT : T → T → Eff W Bool)
    (bh : T → Eff W Nat) (dflt : Eff W Unit) (acc : AccessE W E T) : Nat → Eff W (Option (Except E (HashMap T Unit))) :=
  visitE size (fun x => (x, ())) dflt (FzHashMap.withHasherE find rehash sort eqT bh) acc

/-- `FzOrderedSet`'s `visit_seq` (core/fz_sets/fz_ordered_set.rs l.260-270). -/
def FzOrderedSet.visitSeqE [Target] (size : Nat) (st : SortBy (T × Unit)) (cmp : T → T → Eff W Ordering) (acc : AccessE W E T) :
    Nat → Eff W (Option (Except E (EytzingerMap T Unit))) :=
  visitE size (fun x => (x, ())) (pure ()) (EytzingerMap.newE st cmp) acc

/-- `FzScalarSet`'s `visit_seq` (core/fz_sets/fz_scalar_set.rs l.254-264). -/
def FzScalarSet.visitSeqE [Target] (size : Nat) (b : Build) (st : SortBy (T × Unit)) (sort : Sorter (T × Unit)) (cmp : T → T → Eff W Ordering)
    (index : T → Eff W Nat) (acc : AccessE W E T) : Nat → Eff W (Option (Except E (FzScalarMap T Unit))) :=
  visitE size (fun x => (x, ())) (pure ()) (FzScalarMap.newE b st sort cmp index) acc

/-- `FzStringSet`'s `visit_seq` (core/fz_sets/fz_string_set.rs l.298-308). -/
def FzStringSet.visitSeqE [Target] (size : Nat) (sort : Sorter (Str × Unit)) (bhStr bhSlice : Str → Eff W Nat) (dflt : Eff W Unit)
    (acc : AccessE W E Str) : Nat → Eff W (Option (Except E (FzStringMap Unit))) :=
  visitE size (fun x => (x, ())) dflt (FzStringMap.withHasherE sort bhStr bhSlice) acc

end Frozen.Model
