import Verif.Model.EffectSerde

/-!
# `FromIterator` with iterators that panic and have effects

`into_iter`, `next` and `size_hint` of the iterator that a collection is made from are code of the user.  Here they run in the state `W` of the program and may panic.
-/

namespace Frozen.Model

variable {W A B K V T M : Type}

/-- An iterator of the user, whose state is part of that of the program. -/
structure UserIter (W A : Type) where
  /-- `into_iter` -/
  start : Eff W Unit
  /-- the lower bound that `size_hint` gives -/
  sizeHint : Eff W Nat
  next : Eff W (Option A)

/-- When a growing vector asks the iterator for a size hint, and whether it then can have memory: a matter of `Vec` of std and the allocator, and left open here.
`p i` is about the moment when item `i` has come and is to be stored: `none` if there is room, `some g` if the hint is asked for, and
`g n` whether there will be room if it says `n`. -/
abbrev RoomPolicy := Nat → Option (Nat → Bool)

/-- Make room for item `i`. -/
def roomE (p : RoomPolicy) (hint : Eff W Nat) (i : Nat) : Eff W Unit :=
  match p i with
  | none => pure ()
  | some g => hint >>= fun n => if g n then pure () else Eff.lift (.error (.panic "capacity overflow"))

/-- `collect::<Vec<_>>()` (`Vec::from_iter` of std, the case of an arbitrary iterator); `f x` is what is stored, see the sets.  The fuel is a device of the model. -/
def gatherE (p : RoomPolicy) (f : A → B) (it : UserIter W A) : Nat → List B → Eff W (Option (List B))
  | 0, _ => pure none
  | fuel + 1, v => do
    let r ← it.next
    match r with
    | none => pure (some v)
    | some x => roomE p it.sizeHint v.length >>= fun _ => gatherE p f it fuel (v ++ [f x])

/-- `Self::with_hasher(iter.into_iter().collect(), BH::default())`. -/
def fromIterE (p : RoomPolicy) (f : A → B) (dflt : Eff W Unit) (build : List B → Eff W M) (it : UserIter W A) (fuel : Nat) : Eff W (Option M) := do
  it.start
  let r ← gatherE p f it fuel []
  match r with
  | none => pure none
  | some v => dflt >>= fun _ => build v >>= fun m => pure (some m)

/-- `FzHashMap::from_iter` (core/fz_maps/fz_hash_map.rs l.219-227). -/
def FzHashMap.fromIterE [Target] (p : RoomPolicy) (find : HbFindDialog) (rehash : HbRehash) (sort : Sorter (K × V)) (eqK : K → K → Eff W Bool)
    (bh : K → Eff W Nat) (dflt : Eff W Unit) (it : UserIter W (K × V)) : Nat → Eff W (Option (HashMap K V)) :=
  Model.fromIterE p id dflt (FzHashMap.withHasherE find rehash sort eqK bh) it

/-- `FzOrderedMap::from_iter` (core/fz_maps/fz_ordered_map.rs l.191-198). -/
def FzOrderedMap.fromIterE [Target] (p : RoomPolicy) (st : SortBy (K × V)) (cmp : K → K → Eff W Ordering) (it : UserIter W (K × V)) :
    Nat → Eff W (Option (EytzingerMap K V)) :=
  Model.fromIterE p id (pure ()) (EytzingerMap.newE st cmp) it

/-- `FzScalarMap::from_iter` (core/fz_maps/fz_scalar_map.rs l.276-283). -/
def FzScalarMap.fromIterE [Target] (p : RoomPolicy) (b : Build) (st : SortBy (K × V)) (sort : Sorter (K × V)) (cmp : K → K → Eff W Ordering)
    (index : K → Eff W Nat) (it : UserIter W (K × V)) : Nat → Eff W (Option (FzScalarMap K V)) :=
  Model.fromIterE p id (pure ()) (FzScalarMap.newE b st sort cmp index) it

/-- `FzStringMap::from_iter` (core/fz_maps/fz_string_map.rs l.311-319); `asRef` is `AsRef<str>` of the keys. -/
def FzStringMap.fromIterE [Target] {S : Type} (p : RoomPolicy) (sort : Sorter (Str × V)) (asRef : S → Eff W Str) (bhStr bhSlice : Str → Eff W Nat)
    (dflt : Eff W Unit) (it : UserIter W (S × V)) : Nat → Eff W (Option (FzStringMap V)) :=
  Model.fromIterE p id dflt (FzStringMap.withHasherAsE sort asRef bhStr bhSlice) it

/-- `FzHashSet::from_iter` (core/fz_sets/fz_hash_set.rs l.147-155): that of the map, with the iterator `iter.into_iter().map(|x| (x, ()))`. -/
def FzHashSet.fromIterE [Target] (p : RoomPolicy) (find : HbFindDialog) (rehash : HbRehash) (sort : Sorter (T × Unit)) (eqT : T → T → Eff W Bool)
    (bh : T → Eff W Nat) (dflt : Eff W Unit) (it : UserIter W T) : Nat → Eff W (Option (HashMap T Unit)) :=
  Model.fromIterE p (fun x => (x, ())) dflt (FzHashMap.withHasherE find rehash sort eqT bh) it

/-- `FzOrderedSet::from_iter` (core/fz_sets/fz_ordered_set.rs l.128-135). -/
def FzOrderedSet.fromIterE [Target] (p : RoomPolicy) (st : SortBy (T × Unit)) (cmp : T → T → Eff W Ordering) (it : UserIter W T) :
    Nat → Eff W (Option (EytzingerMap T Unit)) :=
  Model.fromIterE p (fun x => (x, ())) (pure ()) (EytzingerMap.newE st cmp) it

/-- `FzScalarSet::from_iter` (core/fz_sets/fz_scalar_set.rs l.122-129). -/
def FzScalarSet.fromIterE [Target] (p : RoomPolicy) (b : Build) (st : SortBy (T × Unit)) (sort : Sorter (T × Unit)) (cmp : T → T → Eff W Ordering)
    (index : T → Eff W Nat) (it : UserIter W T) : Nat → Eff W (Option (FzScalarMap T Unit)) :=
  Model.fromIterE p (fun x => (x, ())) (pure ()) (FzScalarMap.newE b st sort cmp index) it

/-- `FzStringSet::from_iter` (core/fz_sets/fz_string_set.rs l.130-138). -/
def FzStringSet.fromIterE [Target] {S : Type} (p : RoomPolicy) (sort : Sorter (Str × Unit)) (asRef : S → Eff W Str) (bhStr bhSlice : Str → Eff W Nat)
    (dflt : Eff W Unit) (it : UserIter W S) : Nat → Eff W (Option (FzStringMap Unit)) :=
  Model.fromIterE p (fun x => (x, ())) dflt (FzStringMap.withHasherAsE sort asRef bhStr bhSlice) it

end Frozen.Model
