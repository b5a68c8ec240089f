import Verif.Model.MapImpl
import Verif.Model.HashTable
import Verif.Model.Eytzinger
import Verif.Model.Hashers

/-!
# Model of `core/maps/*.rs`: the five general map types

Each map's four query functions are transcribed separately from `core/maps/decl_macros.rs`.
-/

namespace Frozen.Model

variable {Q K V : Type}

/-! ## Scan map -/

/-- `struct ScanMap` (core/maps/scan_map.rs l.30-32); also `InlineScanMap`
(core/inline_maps/inline_scan_map.rs), whose lookups are generated by the same macro. -/
structure ScanMap (K V : Type) where
  entries : List (K × V)

/-- `ScanMap::new` (core/maps/scan_map.rs l.36-41) and `from_dedupped` (l.45-49). -/
def ScanMap.new (eqK : K → K → Bool) (entries : List (K × V)) : ScanMap K V :=
  { entries := usingEq entries (fun x y => eqK x.1 y.1) }

/-- `ScanMap::default` (core/maps/scan_map.rs l.55-59). -/
def ScanMap.default : ScanMap K V := { entries := [] }

/-- `get` (core/maps/decl_macros.rs l.497-509): the loop overwrites `result` on every match. -/
def ScanMap.get (eqv : Q → K → Bool) (m : ScanMap K V) (key : Q) : Res (Option V) :=
  .ok (m.entries.foldl (fun result entry => if eqv key entry.1 then some entry.2 else result) none)

/-- Loop of `get_mut` (core/maps/decl_macros.rs l.517-522) with the position of the current entry. -/
def scanMutLoop (eqv : Q → K → Bool) (key : Q) : List (K × V) → Nat → Option Nat → Option Nat
  | [], _, result => result
  | entry :: rest, i, result => scanMutLoop eqv key rest (i + 1) (if eqv key entry.1 then some i else result)

/-- `get_mut` (core/maps/decl_macros.rs l.513-525). -/
def ScanMap.getMut (eqv : Q → K → Bool) (m : ScanMap K V) (key : Q) : Res (Option Nat) :=
  .ok (scanMutLoop eqv key m.entries 0 none)

/-- `get_key_value` (core/maps/decl_macros.rs l.529-541). -/
def ScanMap.getKeyValue (eqv : Q → K → Bool) (m : ScanMap K V) (key : Q) : Res (Option (K × V)) :=
  .ok (m.entries.foldl (fun result entry => if eqv key entry.1 then some (entry.1, entry.2) else result) none)

/-- `contains_key` (core/maps/decl_macros.rs l.546-551). -/
def ScanMap.containsKey (eqv : Q → K → Bool) (m : ScanMap K V) (key : Q) : Res Bool := do
  let r ← m.get eqv key
  .ok r.isSome

/-- The trait functions of `ScanMap` (core/maps/scan_map.rs l.51-52, l.61-150). -/
def ScanMap.impl (eqv : Q → K → Bool) : MapImpl (ScanMap K V) Q K V where
  get := ScanMap.get eqv
  getMut := ScanMap.getMut eqv
  getKeyValue := ScanMap.getKeyValue eqv
  containsKey := ScanMap.containsKey eqv
  len m := m.entries.length
  entries m := m.entries
  write m i v := { m with entries := writeAt m.entries i v }

/-! ## Eytzinger search map -/

/-- `struct EytzingerSearchMap` (core/maps/eytzinger_search_map.rs l.30-32); also `InlineEytzingerSearchMap`
(core/inline_maps/inline_eytzinger_search_map.rs). -/
structure EytzingerMap (K V : Type) where
  entries : List (K × V)

/-- `from_sorted_and_dedupped` (core/maps/eytzinger_search_map.rs l.47-53). -/
def EytzingerMap.fromSortedAndDedupped [Target] (entries : List (K × V)) : Res (EytzingerMap K V) := do
  let entries ← eytzingerLayout entries
  .ok { entries := entries }

/-- `EytzingerSearchMap::new` (core/maps/eytzinger_search_map.rs l.37-43). -/
def EytzingerMap.new [Target] (cmp : K → K → Ordering) (entries : List (K × V)) : Res (EytzingerMap K V) :=
  EytzingerMap.fromSortedAndDedupped (sortedAndDedupped entries (fun x y => cmp x.1 y.1))

/-- `EytzingerSearchMap::default` (core/maps/eytzinger_search_map.rs l.59-63). -/
def EytzingerMap.default : EytzingerMap K V := { entries := [] }

/-- `get` (core/maps/decl_macros.rs l.161-172). -/
def EytzingerMap.get (qcmp : Q → K → Ordering) (m : EytzingerMap K V) (key : Q) : Res (Option V) :=
  match eytzingerSearchBy m.entries (fun entry => (qcmp key entry.1).swap) with
  | some index => do
    let entry ← getUnchecked m.entries index
    .ok (some entry.2)
  | none => .ok none

/-- `get_mut` (core/maps/decl_macros.rs l.176-187). -/
def EytzingerMap.getMut (qcmp : Q → K → Ordering) (m : EytzingerMap K V) (key : Q) : Res (Option Nat) :=
  match eytzingerSearchBy m.entries (fun entry => (qcmp key entry.1).swap) with
  | some index => do
    let _entry ← getUnchecked m.entries index
    .ok (some index)
  | none => .ok none

/-- `get_key_value` (core/maps/decl_macros.rs l.191-202). -/
def EytzingerMap.getKeyValue (qcmp : Q → K → Ordering) (m : EytzingerMap K V) (key : Q) : Res (Option (K × V)) :=
  match eytzingerSearchBy m.entries (fun entry => (qcmp key entry.1).swap) with
  | some index => do
    let entry ← getUnchecked m.entries index
    .ok (some (entry.1, entry.2))
  | none => .ok none

/-- `contains_key` (core/maps/decl_macros.rs l.207-212). -/
def EytzingerMap.containsKey (qcmp : Q → K → Ordering) (m : EytzingerMap K V) (key : Q) : Res Bool := do
  let r ← m.get qcmp key
  .ok r.isSome

/-- The trait functions of `EytzingerSearchMap` (core/maps/eytzinger_search_map.rs l.55-56, l.65-155). -/
def EytzingerMap.impl (qcmp : Q → K → Ordering) : MapImpl (EytzingerMap K V) Q K V where
  get := EytzingerMap.get qcmp
  getMut := EytzingerMap.getMut qcmp
  getKeyValue := EytzingerMap.getKeyValue qcmp
  containsKey := EytzingerMap.containsKey qcmp
  len m := m.entries.length
  entries m := m.entries
  write m i v := { m with entries := writeAt m.entries i v }

/-! ## Dense scalar lookup map -/

/-- `struct DenseScalarLookupMap` (core/maps/dense_scalar_lookup_map.rs l.29-33); also
`InlineDenseScalarLookupMap` (core/inline_maps/inline_dense_scalar_lookup_map.rs). -/
structure DenseMap (K V : Type) where
  min : Nat
  max : Nat
  entries : List (K × V)

/-- `DenseScalarLookupMap::default` (core/maps/dense_scalar_lookup_map.rs l.81-89). -/
def DenseMap.default : DenseMap K V := { min := 1, max := 0, entries := [] }

/-- `from_sorted_and_dedupped` (core/maps/dense_scalar_lookup_map.rs l.66-75); `entries[0]` and
`entries[entries.len() - 1]` are bounds-checked (and the subtraction overflow-checked). -/
def DenseMap.fromSortedAndDedupped [Target] (b : Build) (index : K → Nat) (entries : List (K × V)) : Res (DenseMap K V) := do
  let first ← idx entries 0
  let lastPos ← subM b entries.length 1
  let last ← idx entries lastPos
  .ok { min := index first.1, max := index last.1, entries := entries }

/-- The error of `DenseScalarLookupMap::new` (core/maps/dense_scalar_lookup_map.rs l.57). -/
def notContiguous : String := "keys must be in a contiguous range <= usize::MAX in size"

/-- `DenseScalarLookupMap::new` (core/maps/dense_scalar_lookup_map.rs l.42-59); `max - min + 1` follows the build
mode. -/
def DenseMap.new [Target] (b : Build) (cmp : K → K → Ordering) (index : K → Nat) (entries : List (K × V)) :
    Res (Except String (DenseMap K V)) :=
  let entries := sortedAndDedupped entries (fun x y => cmp x.1 y.1)
  if entries.isEmpty then .ok (.ok DenseMap.default)
  else do
    let first ← idx entries 0
    let lastPos ← subM b entries.length 1
    let last ← idx entries lastPos
    let d ← subM b (index last.1) (index first.1)
    let count ← addM b d 1
    if entries.length = count then do
      let m ← DenseMap.fromSortedAndDedupped b index entries
      .ok (.ok m)
    else .ok (.error notContiguous)

/-- `get` (core/maps/decl_macros.rs l.103-113). -/
def DenseMap.get (qindex : Q → Nat) (m : DenseMap K V) (key : Q) : Res (Option V) :=
  if qindex key ≥ m.min ∧ qindex key ≤ m.max then do
    let entry ← getUnchecked m.entries (qindex key - m.min)
    .ok (some entry.2)
  else .ok none

/-- `get_mut` (core/maps/decl_macros.rs l.117-127). -/
def DenseMap.getMut (qindex : Q → Nat) (m : DenseMap K V) (key : Q) : Res (Option Nat) :=
  if qindex key ≥ m.min ∧ qindex key ≤ m.max then do
    let _entry ← getUnchecked m.entries (qindex key - m.min)
    .ok (some (qindex key - m.min))
  else .ok none

/-- `get_key_value` (core/maps/decl_macros.rs l.131-141). -/
def DenseMap.getKeyValue (qindex : Q → Nat) (m : DenseMap K V) (key : Q) : Res (Option (K × V)) :=
  if qindex key ≥ m.min ∧ qindex key ≤ m.max then do
    let entry ← getUnchecked m.entries (qindex key - m.min)
    .ok (some (entry.1, entry.2))
  else .ok none

/-- `contains_key` (core/maps/decl_macros.rs l.146-151). -/
def DenseMap.containsKey (qindex : Q → Nat) (m : DenseMap K V) (key : Q) : Res Bool := do
  let r ← m.get qindex key
  .ok r.isSome

/-- The trait functions of `DenseScalarLookupMap` (core/maps/dense_scalar_lookup_map.rs l.77-78, l.91-181). -/
def DenseMap.impl (qindex : Q → Nat) : MapImpl (DenseMap K V) Q K V where
  get := DenseMap.get qindex
  getMut := DenseMap.getMut qindex
  getKeyValue := DenseMap.getKeyValue qindex
  containsKey := DenseMap.containsKey qindex
  len m := m.entries.length
  entries m := m.entries
  write m i v := { m with entries := writeAt m.entries i v }

/-! ## Sparse scalar lookup map -/

/-- `struct SparseScalarLookupMap` (core/maps/sparse_scalar_lookup_map.rs l.30-35); also
`InlineSparseScalarLookupMap` (core/inline_maps/inline_sparse_scalar_lookup_map.rs). -/
structure SparseMap (K V : Type) where
  min : Nat
  max : Nat
  lookup : List Nat
  entries : List (K × V)

/-- `SparseScalarLookupMap::default` (core/maps/sparse_scalar_lookup_map.rs l.82-91). -/
def SparseMap.default : SparseMap K V := { min := 1, max := 0, lookup := [], entries := [] }

/-- The loop that fills `lookup` (core/maps/sparse_scalar_lookup_map.rs l.64-68). -/
def fillLookup [Target] (b : Build) (index : K → Nat) (min : Nat) : List (K × V) → Nat → List Nat → Res (List Nat)
  | [], _, lookup => .ok lookup
  | entry :: rest, i, lookup => do
    let indexInLookup ← subM b (index entry.1) min
    let lookup ← setIdx lookup indexInLookup (i + 1)
    fillLookup b index min rest (i + 1) lookup

/-- `from_sorted_and_dedupped` (core/maps/sparse_scalar_lookup_map.rs l.54-76). -/
def SparseMap.fromSortedAndDedupped [Target] (b : Build) (index : K → Nat) (entries : List (K × V)) : Res (SparseMap K V) := do
  let first ← idx entries 0
  let lastPos ← subM b entries.length 1
  let last ← idx entries lastPos
  let d ← subM b (index last.1) (index first.1)
  let count ← addM b d 1
  let zeros ← vecZeroed count
  let lookup ← fillLookup b index (index first.1) entries 0 zeros
  .ok { min := index first.1, max := index last.1, lookup := lookup, entries := entries }

/-- `SparseScalarLookupMap::new` (core/maps/sparse_scalar_lookup_map.rs l.40-50). -/
def SparseMap.new [Target] (b : Build) (cmp : K → K → Ordering) (index : K → Nat) (entries : List (K × V)) :
    Res (SparseMap K V) :=
  let entries := sortedAndDedupped entries (fun x y => cmp x.1 y.1)
  if entries.isEmpty then .ok SparseMap.default
  else SparseMap.fromSortedAndDedupped b index entries

/-- `get` (core/maps/decl_macros.rs l.591-609). -/
def SparseMap.get (qindex : Q → Nat) (m : SparseMap K V) (key : Q) : Res (Option V) :=
  if qindex key ≥ m.min ∧ qindex key ≤ m.max then do
    let indexInEntries ← getUnchecked m.lookup (qindex key - m.min)
    if indexInEntries > 0 then do
      let entry ← getUnchecked m.entries (indexInEntries - 1)
      .ok (some entry.2)
    else .ok none
  else .ok none

/-- `get_mut` (core/maps/decl_macros.rs l.613-631). -/
def SparseMap.getMut (qindex : Q → Nat) (m : SparseMap K V) (key : Q) : Res (Option Nat) :=
  if qindex key ≥ m.min ∧ qindex key ≤ m.max then do
    let indexInEntries ← getUnchecked m.lookup (qindex key - m.min)
    if indexInEntries > 0 then do
      let _entry ← getUnchecked m.entries (indexInEntries - 1)
      .ok (some (indexInEntries - 1))
    else .ok none
  else .ok none

/-- `get_key_value` (core/maps/decl_macros.rs l.635-653). -/
def SparseMap.getKeyValue (qindex : Q → Nat) (m : SparseMap K V) (key : Q) : Res (Option (K × V)) :=
  if qindex key ≥ m.min ∧ qindex key ≤ m.max then do
    let indexInEntries ← getUnchecked m.lookup (qindex key - m.min)
    if indexInEntries > 0 then do
      let entry ← getUnchecked m.entries (indexInEntries - 1)
      .ok (some (entry.1, entry.2))
    else .ok none
  else .ok none

/-- `contains_key` (core/maps/decl_macros.rs l.658-663). -/
def SparseMap.containsKey (qindex : Q → Nat) (m : SparseMap K V) (key : Q) : Res Bool := do
  let r ← m.get qindex key
  .ok r.isSome

/-- The trait functions of `SparseScalarLookupMap` (core/maps/sparse_scalar_lookup_map.rs l.78-79, l.93-183). -/
def SparseMap.impl (qindex : Q → Nat) : MapImpl (SparseMap K V) Q K V where
  get := SparseMap.get qindex
  getMut := SparseMap.getMut qindex
  getKeyValue := SparseMap.getKeyValue qindex
  containsKey := SparseMap.containsKey qindex
  len m := m.entries.length
  entries m := m.entries
  write m i v := { m with entries := writeAt m.entries i v }

/-! ## Hash map -/

/-- `struct HashMap` (core/maps/hash_map.rs l.32-35) without the hasher, which is a parameter of the functions below;
also `InlineHashMap` (core/inline_maps/inline_hash_map.rs). -/
structure HashMap (K V : Type) where
  table : HashTable (K × V)

/-- Run a (possibly panicking) hasher over all keys, in order; panics if one call panics. -/
def hashAll (hK : K → Res Nat) : List (K × V) → Res Unit
  | [] => .ok ()
  | e :: es => do
    let _ ← hK e.1
    hashAll hK es

/-- The value of a hasher call that does not panic. -/
def hashVal (hK : K → Res Nat) (k : K) : Nat :=
  match hK k with
  | .ok h => h
  | .error _ => 0

/-- `HashMap::from_dedupped` (core/maps/hash_map.rs l.62-72).  A panic of the hasher on some key is raised before the
table is built (in Rust: while it is being built). -/
def HashMap.fromDedupped [Target] (cm : Magnitude) (sort : Sorter (K × V)) (hK : K → Res Nat) (entries : List (K × V)) :
    Res (Except String (HashMap K V)) := do
  let _ ← hashAll hK entries
  let r ← HashTable.new cm sort entries (fun e => hashVal hK e.1)
  match r with
  | .ok t => .ok (.ok { table := t })
  | .error msg => .ok (.error msg)

/-- `HashMap::with_hasher` (core/maps/hash_map.rs l.47-54). -/
def HashMap.withHasher [Target] (cm : Magnitude) (find : HbFind) (sort : Sorter (K × V)) (eqK : K → K → Bool)
    (hK : K → Res Nat) (entries : List (K × V)) : Res (Except String (HashMap K V)) := do
  let _ ← hashAll hK entries
  let entries ← usingHash find entries (fun x => hashVal hK x.1) (fun x y => eqK x.1 y.1)
  HashMap.fromDedupped cm sort hK entries

/-- `HashMap::default` (core/maps/hash_map.rs l.78-89). -/
def HashMap.default : HashMap K V := { table := HashTable.default }

/-- `get` (core/maps/decl_macros.rs l.284-292). -/
def HashMap.get (hQ : Q → Res Nat) (eqv : Q → K → Bool) (m : HashMap K V) (key : Q) : Res (Option V) := do
  let h ← hQ key
  let r ← m.table.find h (fun entry => eqv key entry.1)
  .ok (r.map (fun e => e.2))

/-- `get_mut` (core/maps/decl_macros.rs l.296-304). -/
def HashMap.getMut (hQ : Q → Res Nat) (eqv : Q → K → Bool) (m : HashMap K V) (key : Q) : Res (Option Nat) := do
  let h ← hQ key
  m.table.findMut h (fun entry => eqv key entry.1)

/-- `get_key_value` (core/maps/decl_macros.rs l.308-316). -/
def HashMap.getKeyValue (hQ : Q → Res Nat) (eqv : Q → K → Bool) (m : HashMap K V) (key : Q) :
    Res (Option (K × V)) := do
  let h ← hQ key
  let r ← m.table.find h (fun entry => eqv key entry.1)
  .ok (r.map (fun e => (e.1, e.2)))

/-- `contains_key` (core/maps/decl_macros.rs l.321-327). -/
def HashMap.containsKey (hQ : Q → Res Nat) (eqv : Q → K → Bool) (m : HashMap K V) (key : Q) : Res Bool := do
  let r ← m.get hQ eqv key
  .ok r.isSome

/-- The trait functions of `HashMap` (core/maps/hash_map.rs l.74-75, l.91-200). -/
def HashMap.impl (hQ : Q → Res Nat) (eqv : Q → K → Bool) : MapImpl (HashMap K V) Q K V where
  get := HashMap.get hQ eqv
  getMut := HashMap.getMut hQ eqv
  getKeyValue := HashMap.getKeyValue hQ eqv
  containsKey := HashMap.containsKey hQ eqv
  len m := m.table.len
  entries m := m.table.entries
  write m i v := { m with table := { m.table with entries := writeAt m.table.entries i v } }

end Frozen.Model
