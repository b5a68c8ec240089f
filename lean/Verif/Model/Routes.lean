import Verif.Model.Serde

/-!
# Routes to a set: `From<map>`, `From<[T; N]>`, `FromIterator`

The four kinds of sets come from a map to `()`.  For the maps see `fromIter` and `fromArray` in `Model/Serde`.
-/

namespace Frozen.Model

variable {M T A B S : Type}

/-- `Iterator::map(f)` of the standard library: the state is that of the underlying iterator. -/
def mapNext (f : A → B) (next : S → Res (Option A × S)) (s : S) : Res (Option B × S) := do
  let p ← next s
  .ok (p.1.map f, p.2)

/-- The iterator over a list, as `[T; N]::into_iter` gives it. -/
def arrayNext (l : List A) : Res (Option A × List A) := .ok (l.head?, l.tail)

/-- `From<FzHashMap<T, ()>>` (core/fz_sets/fz_hash_set.rs l.127-135). -/
def FzHashSet.ofMap (map : HashMap T Unit) : HashMap T Unit := map

/-- `From<FzOrderedMap<T, ()>>` (core/fz_sets/fz_ordered_set.rs l.110-117). -/
def FzOrderedSet.ofMap (map : EytzingerMap T Unit) : EytzingerMap T Unit := map

/-- `From<FzScalarMap<T, ()>>` (core/fz_sets/fz_scalar_set.rs l.104-111). -/
def FzScalarSet.ofMap (map : FzScalarMap T Unit) : FzScalarMap T Unit := map

/-- `From<FzStringMap<Box<str>, ()>>` (core/fz_sets/fz_string_set.rs l.114-118). -/
def FzStringSet.ofMap (map : FzStringMap Unit) : FzStringMap Unit := map

/-- `FromIterator<T>` of `FzHashSet` (core/fz_sets/fz_hash_set.rs l.147-155); `bh` stands for `BH::default()`. -/
def FzHashSet.fromIter [Target] (find : HbFind) (sort : Sorter (T × Unit)) (eqT : T → T → Bool) (bh : T → Nat)
    (next : S → Res (Option T × S)) (fuel : Nat) (s : S) : Res (Option (HashMap T Unit)) := do
  let m ← Model.fromIter (FzHashMap.withHasher find sort eqT bh) (mapNext (fun x => (x, ())) next) fuel s
  .ok (m.map FzHashSet.ofMap)

/-- `From<[T; N]>` of `FzHashSet` (core/fz_sets/fz_hash_set.rs l.137-145). -/
def FzHashSet.fromArray [Target] (find : HbFind) (sort : Sorter (T × Unit)) (eqT : T → T → Bool) (bh : T → Nat) (entries : List T) :
    Res (Option (HashMap T Unit)) := do
  let m ← Model.fromIter (FzHashMap.withHasher find sort eqT bh) (mapNext (fun x => (x, ())) arrayNext) (entries.length + 1) entries
  .ok (m.map FzHashSet.ofMap)

/-- `FromIterator<T>` of `FzOrderedSet` (core/fz_sets/fz_ordered_set.rs l.128-135). -/
def FzOrderedSet.fromIter [Target] (cmp : T → T → Ordering) (next : S → Res (Option T × S)) (fuel : Nat) (s : S) :
    Res (Option (EytzingerMap T Unit)) := do
  let m ← Model.fromIter (FzOrderedMap.new cmp) (mapNext (fun x => (x, ())) next) fuel s
  .ok (m.map FzOrderedSet.ofMap)

/-- `From<[T; N]>` of `FzOrderedSet` (core/fz_sets/fz_ordered_set.rs l.119-126). -/
def FzOrderedSet.fromArray [Target] (cmp : T → T → Ordering) (entries : List T) : Res (Option (EytzingerMap T Unit)) := do
  let m ← Model.fromIter (FzOrderedMap.new cmp) (mapNext (fun x => (x, ())) arrayNext) (entries.length + 1) entries
  .ok (m.map FzOrderedSet.ofMap)

/-- `FromIterator<T>` of `FzScalarSet` (core/fz_sets/fz_scalar_set.rs l.122-129). -/
def FzScalarSet.fromIter [Target] (b : Build) (sort : Sorter (T × Unit)) (cmp : T → T → Ordering) (index : T → Nat)
    (next : S → Res (Option T × S)) (fuel : Nat) (s : S) : Res (Option (FzScalarMap T Unit)) := do
  let m ← Model.fromIter (FzScalarMap.new b sort cmp index) (mapNext (fun x => (x, ())) next) fuel s
  .ok (m.map FzScalarSet.ofMap)

/-- `From<[T; N]>` of `FzScalarSet` (core/fz_sets/fz_scalar_set.rs l.113-120). -/
def FzScalarSet.fromArray [Target] (b : Build) (sort : Sorter (T × Unit)) (cmp : T → T → Ordering) (index : T → Nat) (entries : List T) :
    Res (Option (FzScalarMap T Unit)) := do
  let m ← Model.fromIter (FzScalarMap.new b sort cmp index) (mapNext (fun x => (x, ())) arrayNext) (entries.length + 1) entries
  .ok (m.map FzScalarSet.ofMap)

/-- `FromIterator<T>` of `FzStringSet` for `T: AsRef<str>` (core/fz_sets/fz_string_set.rs l.130-138); `with_hasher` of the map copies every key into a
`Box<str>` first (core/fz_maps/fz_string_map.rs l.66-77). -/
def FzStringSet.fromIter [Target] (asRef : T → Str) (sort : Sorter (Str × Unit)) (bhStr bhSlice : Str → Nat) (next : S → Res (Option T × S))
    (fuel : Nat) (s : S) : Res (Option (FzStringMap Unit)) := do
  let m ← Model.fromIter (fun es : List (T × Unit) => FzStringMap.withHasher sort bhStr bhSlice (es.map (fun e => (asRef e.1, e.2))))
    (mapNext (fun x => (x, ())) next) fuel s
  .ok (m.map FzStringSet.ofMap)

/-- `From<[T; N]>` of `FzStringSet` (core/fz_sets/fz_string_set.rs l.120-128). -/
def FzStringSet.fromArray [Target] (asRef : T → Str) (sort : Sorter (Str × Unit)) (bhStr bhSlice : Str → Nat) (entries : List T) :
    Res (Option (FzStringMap Unit)) := do
  let m ← Model.fromIter (fun es : List (T × Unit) => FzStringMap.withHasher sort bhStr bhSlice (es.map (fun e => (asRef e.1, e.2))))
    (mapNext (fun x => (x, ())) arrayNext) (entries.length + 1) entries
  .ok (m.map FzStringSet.ofMap)

end Frozen.Model
