import Verif.Model.InlineMaps

/-!
# The calls of user code made by lookups

The lookup functions of `Model/Maps.lean`, `Model/FzMaps.lean` and `Model/InlineMaps.lean` transcribed once more, this time
with the calls of trait functions of the query and key types in the order in which they are made.  The Rust sources
are the same; `Lemmas/Calls.lean` shows that forgetting the calls gives back the functions without them.
-/

namespace Frozen.Model

variable {T Q K V : Type}

/-- A call of a trait function, made while looking up a query. -/
inductive Call (K : Type) where
  /-- `BuildHasher::hash_one` on the query itself (core/hashers/bridge_hasher.rs l.28) -/
  | hash
  /-- `BuildHasher::hash_one` on a part of the bytes of the query (core/hashers/left_range_hasher.rs l.50 and the other
  range hashers) -/
  | hashPart (bytes : List UInt8)
  /-- `Scalar::index` of the query (core/hashers/scalar_hasher.rs l.15, core/maps/decl_macros.rs l.107, l.595) -/
  | index
  /-- `Equivalent::equivalent` of the query and a stored key (core/maps/decl_macros.rs l.291, l.503) -/
  | equivalent (key : K)
  /-- `Comparable::compare` of the query and a stored key (core/maps/decl_macros.rs l.165) -/
  | compare (key : K)
deriving DecidableEq, Repr

/-! ## Hashers -/

/-- `BridgeHasher::hash_one` (core/hashers/bridge_hasher.rs l.26-29). -/
def bridgeHashT (bh : Q → Nat) (value : Q) : Res (Nat × List (Call K)) := .ok (bh value, [.hash])

/-- `ScalarHasher::hash_one` (core/hashers/scalar_hasher.rs l.14-17). -/
def scalarHashT (index : Q → Nat) (value : Q) : Res (Nat × List (Call K)) := .ok (index value, [.index])

/-- `LengthHasher::hash_one` (core/hashers/length_hasher.rs l.14-17): no user code is called (`len` of a `str`). -/
def lengthHashT (value : Str) : Res (Nat × List (Call K)) := .ok (value.length, [])

/-- `LeftRangeHasher::hash_one` on the bytes of a string (core/hashers/left_range_hasher.rs l.43-52); also
`InlineLeftRangeHasher::hash_one` (core/hashers/inline_left_range_hasher.rs l.43-51). -/
def leftRangeHashT (bh : Str → Nat) (range : Range) (value : Str) : Res (Nat × List (Call K)) :=
  if value.length < range.hi then .ok (0, [])
  else do
    let s ← idxRange value range.lo range.hi
    .ok (bh s, [.hashPart s])

/-- `RightRangeHasher::hash_one` on the bytes of a string (core/hashers/right_range_hasher.rs l.46-55); also
`InlineRightRangeHasher::hash_one` (core/hashers/inline_right_range_hasher.rs l.44-53). -/
def rightRangeHashT (bh : Str → Nat) (range : Range) (value : Str) : Res (Nat × List (Call K)) :=
  if value.length < range.hi then .ok (0, [])
  else do
    let lo ← csub value.length range.hi
    let hi ← csub value.length range.lo
    let s ← idxRange value lo hi
    .ok (bh s, [.hashPart s])

/-- `Hasher::hash_one` of an emitted hasher (`InlineHasher.hashOne` in `Model/InlineMaps.lean`). -/
def InlineHasher.hashOneT (t : QueryTraits Q K) : InlineHasher → Q → Res (Nat × List (Call K))
  | .bridge seed, q => bridgeHashT (t.fixedState seed) q
  | .scalar, q => scalarHashT t.index q
  | .length, q => lengthHashT (t.bytes q)
  | .left start stop seed, q => leftRangeHashT (t.fixedStateSlice seed) ⟨start, stop⟩ (t.bytes q)
  | .right start stop seed, q => rightRangeHashT (t.fixedStateSlice seed) ⟨start, stop⟩ (t.bytes q)

/-! ## Scan maps -/

/-- The loop of the four lookup functions (core/maps/decl_macros.rs l.501-508): every entry is compared, a later match
overrides an earlier one. The result is the position of the last match. -/
def scanLoopT (eqv : Q → K → Bool) (key : Q) : List (K × V) → Nat → Option Nat → Option Nat × List (Call K)
  | [], _, result => (result, [])
  | entry :: rest, i, result =>
    let r := scanLoopT eqv key rest (i + 1) (if eqv key entry.1 then some i else result)
    (r.1, .equivalent entry.1 :: r.2)

/-- The search shared by the lookup functions of scan maps (core/maps/decl_macros.rs l.497-541). -/
def ScanMap.searchT (eqv : Q → K → Bool) (m : ScanMap K V) (key : Q) : Res (Option Nat × List (Call K)) :=
  .ok (scanLoopT eqv key m.entries 0 none)

/-! ## Eytzinger search maps -/

/-- The `loop` of `eytzinger_search_by` (core/utils/eytzinger.rs l.47-63) with the elements compared. -/
def searchLoopT (data : List T) (f : T → Ordering) (i : Nat) : Option Nat × List T :=
  if h : i < data.length then
    let order := f data[i]
    if order == .eq then (some i, [data[i]])
    else
      let r := searchLoopT data f (2 * i + 1 + orderBit order)
      (r.1, data[i] :: r.2)
  else (none, [])
termination_by data.length - i

/-- The search shared by the lookup functions (core/maps/decl_macros.rs l.161-202). -/
def EytzingerMap.searchT (qcmp : Q → K → Ordering) (m : EytzingerMap K V) (key : Q) : Res (Option Nat × List (Call K)) :=
  let r := searchLoopT m.entries (fun entry => (qcmp key entry.1).swap) 0
  .ok (r.1, r.2.map (fun e => .compare e.1))

/-! ## Scalar maps -/

/-- The search shared by the lookup functions of dense maps (core/maps/decl_macros.rs l.103-141). -/
def DenseMap.searchT (qindex : Q → Nat) (m : DenseMap K V) (key : Q) : Res (Option Nat × List (Call K)) :=
  if qindex key ≥ m.min ∧ qindex key ≤ m.max then do
    let _entry ← getUnchecked m.entries (qindex key - m.min)
    .ok (some (qindex key - m.min), [.index])
  else .ok (none, [.index])

/-- The search shared by the lookup functions of sparse maps (core/maps/decl_macros.rs l.591-653). -/
def SparseMap.searchT (qindex : Q → Nat) (m : SparseMap K V) (key : Q) : Res (Option Nat × List (Call K)) :=
  if qindex key ≥ m.min ∧ qindex key ≤ m.max then do
    let indexInEntries ← getUnchecked m.lookup (qindex key - m.min)
    if indexInEntries > 0 then do
      let _entry ← getUnchecked m.entries (indexInEntries - 1)
      .ok (some (indexInEntries - 1), [.index])
    else .ok (none, [.index])
  else .ok (none, [.index])

/-! ## Hash maps -/

/-- The `while max > min` loop of `find` (core/hash_tables/decl_macros.rs l.18-28) with the entries handed to `eq`. -/
def scanBucketT (eq : T → Bool) (bucket : List T) : Nat → Nat → Res (Option Nat × List T)
  | 0, _ => .ok (none, [])
  | n + 1, ptr => do
    let e ← getUnchecked bucket ptr
    if eq e then .ok (some ptr, [e])
    else do
      let r ← scanBucketT eq bucket n (ptr + 1)
      .ok (r.1, e :: r.2)

/-- `find` and `find_mut` (core/hash_tables/decl_macros.rs l.4-59). -/
def HashTable.searchT (t : HashTable T) (hashCode : Nat) (eq : T → Bool) : Res (Option Nat × List T) := do
  let slot ← getUnchecked t.slots (hashCode &&& t.mask)
  let bucket ← getUncheckedRange t.entries slot.minIndex slot.maxIndex
  let r ← scanBucketT eq bucket (slot.maxIndex - slot.minIndex) 0
  .ok (r.1.map (fun ptr => slot.minIndex + ptr), r.2)

/-- The search shared by the lookup functions of hash maps (core/maps/decl_macros.rs l.284-316). -/
def HashMap.searchT (hQ : Q → Res (Nat × List (Call K))) (eqv : Q → K → Bool) (m : HashMap K V) (key : Q) :
    Res (Option Nat × List (Call K)) := do
  let h ← hQ key
  let r ← m.table.searchT h.1 (fun entry => eqv key entry.1)
  .ok (r.1, h.2 ++ r.2.map (fun e => .equivalent e.1))

/-- `InlineHashTableNoCollisions::find` and `find_mut` (core/hash_tables/inline_hash_table_no_collisions.rs l.41-78). -/
def HashTableNC.searchT (t : HashTableNC T) (hashCode : Nat) (eq : T → Bool) : Res (Option Nat × List T) := do
  let indexInEntries ← getUnchecked t.slots (hashCode &&& t.mask)
  if indexInEntries > 0 then do
    let entry ← getUnchecked t.entries (indexInEntries - 1)
    if eq entry then .ok (some (indexInEntries - 1), [entry]) else .ok (none, [entry])
  else .ok (none, [])

/-- The search shared by the lookup functions of collision-free hash maps (core/maps/decl_macros.rs l.284-316). -/
def HashMapNC.searchT (hQ : Q → Res (Nat × List (Call K))) (eqv : Q → K → Bool) (m : HashMapNC K V) (key : Q) :
    Res (Option Nat × List (Call K)) := do
  let h ← hQ key
  let r ← m.table.searchT h.1 (fun entry => eqv key entry.1)
  .ok (r.1, h.2 ++ r.2.map (fun e => .equivalent e.1))

/-! ## The public types -/

/-- Lookups in an `FzScalarMap` (core/fz_maps/fz_scalar_map.rs l.69-118). -/
def FzScalarMap.searchT (qindex : Q → Nat) (eqv : Q → K → Bool) (m : FzScalarMap K V) (key : Q) :
    Res (Option Nat × List (Call K)) :=
  match m with
  | .hash m => m.searchT (scalarHashT qindex) eqv key
  | .dense m => m.searchT qindex key
  | .sparse m => m.searchT qindex key

/-- Lookups in an `FzStringMap` (core/fz_maps/fz_string_map.rs l.98-152). -/
def FzStringMap.searchT (bhStr bhSlice : Str → Nat) (m : FzStringMap V) (key : Str) : Res (Option Nat × List (Call Str)) :=
  match m with
  | .leftRange r m => m.searchT (leftRangeHashT bhSlice r) strEq key
  | .rightRange r m => m.searchT (rightRangeHashT bhSlice r) strEq key
  | .hash m => m.searchT (bridgeHashT bhStr) strEq key

/-- Lookups in an inline map (core/inline_maps/*.rs). -/
def InlineMap.searchT (t : QueryTraits Q K) (m : InlineMap K V) (q : Q) : Res (Option Nat × List (Call K)) :=
  match m.repr with
  | .scan m => m.searchT t.equivalent q
  | .eytzinger m => m.searchT t.compare q
  | .dense m => m.searchT t.index q
  | .sparse m => m.searchT t.index q
  | .hash h m => m.searchT (h.hashOneT t) t.equivalent q
  | .hashNC h m => m.searchT (h.hashOneT t) t.equivalent q

end Frozen.Model
