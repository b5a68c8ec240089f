import Verif.Model.Maps
import Verif.Model.ScalarAnalyzer
import Verif.Model.SliceAnalyzer

/-!
# Model of `core/fz_maps/*.rs`: the four public map types

`BH` parameters are the functions they compute.  The forwarding functions of `FzHashMap` and
`FzOrderedMap` (core/fz_maps/fz_hash_map.rs l.77-195, core/fz_maps/fz_ordered_map.rs l.56-171) call the
function of the same name of the wrapped map, so the types are the wrapped types here.
-/

namespace Frozen.Model

variable {Q K V : Type}

/-- `Result::unwrap`. -/
def unwrapR {α : Type} : Except String α → Res α
  | .ok x => .ok x
  | .error _ => .error (.panic "called `Result::unwrap()` on an `Err` value")

/-! ## FzHashMap -/

/-- `FzHashMap::with_hasher` (core/fz_maps/fz_hash_map.rs l.66-75). `new` (l.48-53), `From<[(K, V); N]>` (l.214-216) and
`FromIterator` (l.224-226) call it on the collected entries. -/
def FzHashMap.withHasher [Target] (find : HbFind) (sort : Sorter (K × V)) (eqK : K → K → Bool) (bh : K → Nat)
    (entries : List (K × V)) : Res (HashMap K V) := do
  let entries ← usingHash find entries (fun x => bh x.1) (fun x y => eqK x.1 y.1)
  let r ← HashMap.fromDedupped .large sort (bridgeHash bh) entries
  unwrapR r

/-- `FzHashMap::default` (core/fz_maps/fz_hash_map.rs l.202-206). -/
def FzHashMap.default : HashMap K V := HashMap.default

/-- The trait functions of `FzHashMap` (core/fz_maps/fz_hash_map.rs l.77-195): those of the wrapped
`HashMap<K, V, LargeCollection, BridgeHasher<BH>>`. -/
def FzHashMap.impl (bhQ : Q → Nat) (eqv : Q → K → Bool) : MapImpl (HashMap K V) Q K V :=
  HashMap.impl (bridgeHash bhQ) eqv

/-! ## FzOrderedMap -/

/-- `FzOrderedMap::new` (core/fz_maps/fz_ordered_map.rs l.45-54); also `From<[(K, V); N]>` (l.186-188) and `FromIterator`
(l.195-197). -/
def FzOrderedMap.new [Target] (cmp : K → K → Ordering) (entries : List (K × V)) : Res (EytzingerMap K V) :=
  EytzingerMap.fromSortedAndDedupped (sortedAndDedupped entries (fun x y => cmp x.1 y.1))

/-- `FzOrderedMap::default` (core/fz_maps/fz_ordered_map.rs l.175-179). -/
def FzOrderedMap.default : EytzingerMap K V := EytzingerMap.default

/-- The trait functions of `FzOrderedMap` (core/fz_maps/fz_ordered_map.rs l.56-171): those of the wrapped map. -/
def FzOrderedMap.impl (qcmp : Q → K → Ordering) : MapImpl (EytzingerMap K V) Q K V := EytzingerMap.impl qcmp

/-! ## FzScalarMap -/

/-- `enum MapTypes` and `struct FzScalarMap` (core/fz_maps/fz_scalar_map.rs l.29-33, l.44-46). -/
inductive FzScalarMap (K V : Type) where
  | hash (m : HashMap K V)
  | dense (m : DenseMap K V)
  | sparse (m : SparseMap K V)

/-- The three arms of `FzScalarMap::new` (core/fz_maps/fz_scalar_map.rs l.59-63). -/
def FzScalarMap.build [Target] (b : Build) (sort : Sorter (K × V)) (index : K → Nat) (entries : List (K × V)) :
    ScalarAnalysis → Res (FzScalarMap K V)
  | .denseRange => do
    let m ← DenseMap.fromSortedAndDedupped b index entries
    .ok (.dense m)
  | .sparseRange => do
    let m ← SparseMap.fromSortedAndDedupped b index entries
    .ok (.sparse m)
  | .general => do
    let r ← HashMap.fromDedupped .large sort (scalarHash index) entries
    let m ← unwrapR r
    .ok (.hash m)

/-- `FzScalarMap::new` (core/fz_maps/fz_scalar_map.rs l.52-65); also `From<[(K, V); N]>` (l.271-273) and `FromIterator`
(l.280-282). -/
def FzScalarMap.new [Target] (b : Build) (sort : Sorter (K × V)) (cmp : K → K → Ordering) (index : K → Nat)
    (entries : List (K × V)) : Res (FzScalarMap K V) := do
  let entries := sortedAndDedupped entries (fun x y => cmp x.1 y.1)
  let a ← analyzeScalarKeys b (entries.map (fun x => index x.1))
  FzScalarMap.build b sort index entries a

/-- `FzScalarMap::default` (core/fz_maps/fz_scalar_map.rs l.260-264). -/
def FzScalarMap.default : FzScalarMap K V := .dense DenseMap.default

/-- `get` (core/fz_maps/fz_scalar_map.rs l.69-78). -/
def FzScalarMap.get (qindex : Q → Nat) (eqv : Q → K → Bool) (m : FzScalarMap K V) (key : Q) : Res (Option V) :=
  match m with
  | .hash m => m.get (scalarHash qindex) eqv key
  | .dense m => m.get qindex key
  | .sparse m => m.get qindex key

/-- `get_mut` (core/fz_maps/fz_scalar_map.rs l.82-91). -/
def FzScalarMap.getMut (qindex : Q → Nat) (eqv : Q → K → Bool) (m : FzScalarMap K V) (key : Q) : Res (Option Nat) :=
  match m with
  | .hash m => m.getMut (scalarHash qindex) eqv key
  | .dense m => m.getMut qindex key
  | .sparse m => m.getMut qindex key

/-- `get_key_value` (core/fz_maps/fz_scalar_map.rs l.95-104). -/
def FzScalarMap.getKeyValue (qindex : Q → Nat) (eqv : Q → K → Bool) (m : FzScalarMap K V) (key : Q) :
    Res (Option (K × V)) :=
  match m with
  | .hash m => m.getKeyValue (scalarHash qindex) eqv key
  | .dense m => m.getKeyValue qindex key
  | .sparse m => m.getKeyValue qindex key

/-- `contains_key` (core/fz_maps/fz_scalar_map.rs l.109-118). -/
def FzScalarMap.containsKey (qindex : Q → Nat) (eqv : Q → K → Bool) (m : FzScalarMap K V) (key : Q) : Res Bool :=
  match m with
  | .hash m => m.containsKey (scalarHash qindex) eqv key
  | .dense m => m.containsKey qindex key
  | .sparse m => m.containsKey qindex key

/-- `len` (core/fz_maps/fz_scalar_map.rs l.160-166). -/
def FzScalarMap.len (m : FzScalarMap K V) : Nat :=
  match m with
  | .hash m => m.table.len
  | .dense m => m.entries.length
  | .sparse m => m.entries.length

/-- `iter` (core/fz_maps/fz_scalar_map.rs l.181-187) and the other iterators (l.191-256). -/
def FzScalarMap.entries (m : FzScalarMap K V) : List (K × V) :=
  match m with
  | .hash m => m.table.entries
  | .dense m => m.entries
  | .sparse m => m.entries

/-- A store through a mutable reference into the wrapped map (`get_mut`, `iter_mut`, `values_mut`,
core/fz_maps/fz_scalar_map.rs l.82-91, l.191-197, l.240-246). -/
def FzScalarMap.write (m : FzScalarMap K V) (i : Nat) (v : V) : FzScalarMap K V :=
  match m with
  | .hash m => .hash { m with table := { m.table with entries := writeAt m.table.entries i v } }
  | .dense m => .dense { m with entries := writeAt m.entries i v }
  | .sparse m => .sparse { m with entries := writeAt m.entries i v }

/-- The trait functions of `FzScalarMap` (core/fz_maps/fz_scalar_map.rs l.285-337). -/
def FzScalarMap.impl (qindex : Q → Nat) (eqv : Q → K → Bool) : MapImpl (FzScalarMap K V) Q K V where
  get := FzScalarMap.get qindex eqv
  getMut := FzScalarMap.getMut qindex eqv
  getKeyValue := FzScalarMap.getKeyValue qindex eqv
  containsKey := FzScalarMap.containsKey qindex eqv
  len := FzScalarMap.len
  entries := FzScalarMap.entries
  write := FzScalarMap.write

/-! ## FzStringMap -/

/-- A string is the list of its bytes (`str::as_bytes`); arbitrary byte lists are allowed. -/
abbrev Str := List UInt8

/-- `Ord::cmp` for `str` (core/fz_maps/fz_string_map.rs l.71): lexicographic on bytes. -/
def strCmp : Str → Str → Ordering
  | [], [] => .eq
  | [], _ :: _ => .lt
  | _ :: _, [] => .gt
  | a :: as, b :: bs => if a.toNat < b.toNat then .lt else if b.toNat < a.toNat then .gt else strCmp as bs

/-- `enum MapTypes` and `struct FzStringMap` (core/fz_maps/fz_string_map.rs l.26-30, l.42-45); the range hashers carry
their range. -/
inductive FzStringMap (V : Type) where
  | leftRange (range : Range) (m : HashMap Str V)
  | rightRange (range : Range) (m : HashMap Str V)
  | hash (m : HashMap Str V)

/-- The arms of `with_hasher` (core/fz_maps/fz_string_map.rs l.75-90).  `bhStr` is the build hasher applied to
`str`/`Box<str>`, `bhSlice` the build hasher applied to `[u8]` (the two differ in Rust). -/
def FzStringMap.build [Target] (sort : Sorter (Str × V)) (bhStr bhSlice : Str → Nat) (entries : List (Str × V)) :
    SliceAnalysis → Res (FzStringMap V)
  | .general => do
    let r ← HashMap.fromDedupped .large sort (bridgeHash bhStr) entries
    let m ← unwrapR r
    .ok (.hash m)
  | .length => do
    let r ← HashMap.fromDedupped .large sort (bridgeHash bhStr) entries
    let m ← unwrapR r
    .ok (.hash m)
  | .left range => do
    let r ← HashMap.fromDedupped .large sort (leftRangeHash bhSlice range) entries
    let m ← unwrapR r
    .ok (.leftRange range m)
  | .right range => do
    let r ← HashMap.fromDedupped .large sort (rightRangeHash bhSlice range) entries
    let m ← unwrapR r
    .ok (.rightRange range m)

/-- `FzStringMap::with_hasher` (core/fz_maps/fz_string_map.rs l.62-94), after the conversion of the keys to `Box<str>`
(l.66-69), which keeps the bytes; also `new` (l.50-52), `From<[(K, V); N]>` (l.306-308) and `FromIterator` (l.316-318). -/
def FzStringMap.withHasher [Target] (sort : Sorter (Str × V)) (bhStr bhSlice : Str → Nat) (entries : List (Str × V)) :
    Res (FzStringMap V) := do
  let entries := usingCmp entries (fun x y => strCmp x.1 y.1)
  let a ← analyzeSliceKeys (fun x y => x == y) bhSlice (entries.map (fun x => x.1))
  FzStringMap.build sort bhStr bhSlice entries a

/-- `FzStringMap::default` (core/fz_maps/fz_string_map.rs l.293-298). -/
def FzStringMap.default : FzStringMap V := .hash HashMap.default

/-- The `Equivalent` used by lookups: `str` equality (core/maps/decl_macros.rs l.291 with `Q = str`, `K = Box<str>`). -/
def strEq (a b : Str) : Bool := a == b

/-- `get` (core/fz_maps/fz_string_map.rs l.98-108). -/
def FzStringMap.get (bhStr bhSlice : Str → Nat) (m : FzStringMap V) (key : Str) : Res (Option V) :=
  match m with
  | .leftRange r m => m.get (leftRangeHash bhSlice r) strEq key
  | .rightRange r m => m.get (rightRangeHash bhSlice r) strEq key
  | .hash m => m.get (bridgeHash bhStr) strEq key

/-- `get_mut` (core/fz_maps/fz_string_map.rs l.112-122). -/
def FzStringMap.getMut (bhStr bhSlice : Str → Nat) (m : FzStringMap V) (key : Str) : Res (Option Nat) :=
  match m with
  | .leftRange r m => m.getMut (leftRangeHash bhSlice r) strEq key
  | .rightRange r m => m.getMut (rightRangeHash bhSlice r) strEq key
  | .hash m => m.getMut (bridgeHash bhStr) strEq key

/-- `get_key_value` (core/fz_maps/fz_string_map.rs l.127-137). -/
def FzStringMap.getKeyValue (bhStr bhSlice : Str → Nat) (m : FzStringMap V) (key : Str) : Res (Option (Str × V)) :=
  match m with
  | .leftRange r m => m.getKeyValue (leftRangeHash bhSlice r) strEq key
  | .rightRange r m => m.getKeyValue (rightRangeHash bhSlice r) strEq key
  | .hash m => m.getKeyValue (bridgeHash bhStr) strEq key

/-- `contains_key` (core/fz_maps/fz_string_map.rs l.142-152). -/
def FzStringMap.containsKey (bhStr bhSlice : Str → Nat) (m : FzStringMap V) (key : Str) : Res Bool :=
  match m with
  | .leftRange r m => m.containsKey (leftRangeHash bhSlice r) strEq key
  | .rightRange r m => m.containsKey (rightRangeHash bhSlice r) strEq key
  | .hash m => m.containsKey (bridgeHash bhStr) strEq key

/-- `len` (core/fz_maps/fz_string_map.rs l.190-196). -/
def FzStringMap.len (m : FzStringMap V) : Nat :=
  match m with
  | .leftRange _ m => m.table.len
  | .rightRange _ m => m.table.len
  | .hash m => m.table.len

/-- `iter` (core/fz_maps/fz_string_map.rs l.211-217) and the other iterators (l.221-286). -/
def FzStringMap.entries (m : FzStringMap V) : List (Str × V) :=
  match m with
  | .leftRange _ m => m.table.entries
  | .rightRange _ m => m.table.entries
  | .hash m => m.table.entries

/-- A store through a mutable reference into the wrapped map (core/fz_maps/fz_string_map.rs l.112-122, l.221-227,
l.270-276). -/
def FzStringMap.write (m : FzStringMap V) (i : Nat) (v : V) : FzStringMap V :=
  match m with
  | .leftRange r m => .leftRange r { m with table := { m.table with entries := writeAt m.table.entries i v } }
  | .rightRange r m => .rightRange r { m with table := { m.table with entries := writeAt m.table.entries i v } }
  | .hash m => .hash { m with table := { m.table with entries := writeAt m.table.entries i v } }

/-- The trait functions of `FzStringMap` (core/fz_maps/fz_string_map.rs l.321-425). -/
def FzStringMap.impl (bhStr bhSlice : Str → Nat) : MapImpl (FzStringMap V) Str Str V where
  get := FzStringMap.get bhStr bhSlice
  getMut := FzStringMap.getMut bhStr bhSlice
  getKeyValue := FzStringMap.getKeyValue bhStr bhSlice
  containsKey := FzStringMap.containsKey bhStr bhSlice
  len := FzStringMap.len
  entries := FzStringMap.entries
  write := FzStringMap.write

end Frozen.Model
