import Verif.Model.InlineMaps
import Verif.Model.History

/-!
# Lookups that run user code with effects

The trait functions of keys and queries are code of the user: besides answering they may read and change state of the program
(interior mutability, globals), give another answer the next time, and panic.  Here the lookup functions are transcribed with
trait functions of that kind.  The Rust sources are those of `Model/Maps`, `Model/FzMaps` and `Model/InlineMaps`.
-/

namespace Frozen.Model

variable {W A B T M Q K V : Type}

/-- A computation that runs user code: `W` is the state of the program, which survives a panic. (Not in the Rust code: the
meaning of a call.) -/
def Eff (W A : Type) := W → Res A × W

/-- Run one computation after the other; a panic ends both. -/
def Eff.bind (x : Eff W A) (f : A → Eff W B) : Eff W B := fun w =>
  match x w with
  | (.ok a, w') => f a w'
  | (.error e, w') => (.error e, w')

instance : Monad (Eff W) where
  pure a := fun w => (.ok a, w)
  bind := Eff.bind

/-- A computation of the library itself: it does not touch the state of the program. -/
def Eff.lift (r : Res A) : Eff W A := fun w => (r, w)

/-! ## Hashers -/

/-- `LeftRangeHasher::hash_one` (core/hashers/left_range_hasher.rs l.29-36) and `InlineLeftRangeHasher::hash_one`
(core/hashers/inline_left_range_hasher.rs l.28-35) with a `BuildHasher` of the user. -/
def leftRangeHashE (bh : Str → Eff W Nat) (range : Range) (value : Str) : Eff W Nat :=
  if value.length < range.hi then Eff.lift (.ok 0)
  else do
    let s ← Eff.lift (idxRange value range.lo range.hi)
    bh s

/-- `RightRangeHasher::hash_one` (core/hashers/right_range_hasher.rs l.30-38) and `InlineRightRangeHasher::hash_one`
(core/hashers/inline_right_range_hasher.rs l.28-36). -/
def rightRangeHashE (bh : Str → Eff W Nat) (range : Range) (value : Str) : Eff W Nat :=
  if value.length < range.hi then Eff.lift (.ok 0)
  else do
    let lo ← Eff.lift (csub value.length range.hi)
    let hi ← Eff.lift (csub value.length range.lo)
    let s ← Eff.lift (idxRange value lo hi)
    bh s

/-- The trait functions that the lookups of an emitted map may call (see `QueryTraits`); the bytes of a string need no user code. -/
structure UserTraits (W Q K : Type) where
  equivalent : Q → K → Eff W Bool
  compare : Q → K → Eff W Ordering
  index : Q → Eff W Nat
  fixedState : Nat → Q → Eff W Nat
  bytes : Q → Str
  fixedStateSlice : Nat → Str → Eff W Nat

/-- `Hasher::hash_one` of an emitted hasher (core/hashers/*.rs, see `InlineHasher.hashOne`). -/
def InlineHasher.hashOneE (t : UserTraits W Q K) : InlineHasher → Q → Eff W Nat
  | .bridge seed, q => t.fixedState seed q
  | .scalar, q => t.index q
  | .length, q => Eff.lift (lengthHash (t.bytes q))
  | .left start stop seed, q => leftRangeHashE (t.fixedStateSlice seed) ⟨start, stop⟩ (t.bytes q)
  | .right start stop seed, q => rightRangeHashE (t.fixedStateSlice seed) ⟨start, stop⟩ (t.bytes q)

/-! ## Searches -/

/-- The loop of the lookups of scan maps (core/maps/decl_macros.rs l.501-508, l.517-522). -/
def scanLoopE (eqv : Q → K → Eff W Bool) (key : Q) : List (K × V) → Nat → Option Nat → Eff W (Option Nat)
  | [], _, result => pure result
  | entry :: rest, i, result => do
    let c ← eqv key entry.1
    scanLoopE eqv key rest (i + 1) (if c then some i else result)

/-- The search of the lookups of scan maps (core/maps/decl_macros.rs l.497-541). -/
def ScanMap.searchE (eqv : Q → K → Eff W Bool) (m : ScanMap K V) (key : Q) : Eff W (Option Nat) :=
  scanLoopE eqv key m.entries 0 none

/-- The `loop` of `eytzinger_search_by` (core/utils/eytzinger.rs l.47-63). -/
def searchLoopE (data : List T) (f : T → Eff W Ordering) (i : Nat) : Eff W (Option Nat) :=
  if h : i < data.length then do
    let order ← f data[i]
    if order == .eq then pure (some i) else searchLoopE data f (2 * i + 1 + orderBit order)
  else pure none
termination_by data.length - i

/-- The search of the lookups of sorted maps (core/maps/decl_macros.rs l.161-202). -/
def EytzingerMap.searchE (qcmp : Q → K → Eff W Ordering) (m : EytzingerMap K V) (key : Q) : Eff W (Option Nat) := do
  let r ← searchLoopE m.entries (fun entry => qcmp key entry.1 >>= fun o => pure o.swap) 0
  match r with
  | some index => do
    let _entry ← Eff.lift (getUnchecked m.entries index)
    pure (some index)
  | none => pure none

/-- The search of the lookups of dense maps (core/maps/decl_macros.rs l.103-141). -/
def DenseMap.searchE (qindex : Q → Eff W Nat) (m : DenseMap K V) (key : Q) : Eff W (Option Nat) := do
  let index ← qindex key
  if index ≥ m.min ∧ index ≤ m.max then do
    let _entry ← Eff.lift (getUnchecked m.entries (index - m.min))
    pure (some (index - m.min))
  else pure none

/-- The search of the lookups of sparse maps (core/maps/decl_macros.rs l.591-653). -/
def SparseMap.searchE (qindex : Q → Eff W Nat) (m : SparseMap K V) (key : Q) : Eff W (Option Nat) := do
  let index ← qindex key
  if index ≥ m.min ∧ index ≤ m.max then do
    let indexInEntries ← Eff.lift (getUnchecked m.lookup (index - m.min))
    if indexInEntries > 0 then do
      let _entry ← Eff.lift (getUnchecked m.entries (indexInEntries - 1))
      pure (some (indexInEntries - 1))
    else pure none
  else pure none

/-- The `while max > min` loop of `find` (core/hash_tables/decl_macros.rs l.18-28). -/
def scanBucketE (eq : T → Eff W Bool) (bucket : List T) : Nat → Nat → Eff W (Option Nat)
  | 0, _ => pure none
  | n + 1, ptr => do
    let e ← Eff.lift (getUnchecked bucket ptr)
    let c ← eq e
    if c then pure (some ptr) else scanBucketE eq bucket n (ptr + 1)

/-- `find` and `find_mut` (core/hash_tables/decl_macros.rs l.4-59). -/
def HashTable.searchE (t : HashTable T) (hashCode : Nat) (eq : T → Eff W Bool) : Eff W (Option Nat) := do
  let slot ← Eff.lift (getUnchecked t.slots (hashCode &&& t.mask))
  let bucket ← Eff.lift (getUncheckedRange t.entries slot.minIndex slot.maxIndex)
  let r ← scanBucketE eq bucket (slot.maxIndex - slot.minIndex) 0
  match r with
  | some ptr => pure (some (slot.minIndex + ptr))
  | none => pure none

/-- The search of the lookups of hash maps (core/maps/decl_macros.rs l.284-316). -/
def HashMap.searchE (hQ : Q → Eff W Nat) (eqv : Q → K → Eff W Bool) (m : HashMap K V) (key : Q) : Eff W (Option Nat) := do
  let h ← hQ key
  m.table.searchE h (fun entry => eqv key entry.1)

/-- `InlineHashTableNoCollisions::find` and `find_mut` (core/hash_tables/inline_hash_table_no_collisions.rs l.41-78). -/
def HashTableNC.searchE (t : HashTableNC T) (hashCode : Nat) (eq : T → Eff W Bool) : Eff W (Option Nat) := do
  let indexInEntries ← Eff.lift (getUnchecked t.slots (hashCode &&& t.mask))
  if indexInEntries > 0 then do
    let entry ← Eff.lift (getUnchecked t.entries (indexInEntries - 1))
    let c ← eq entry
    if c then pure (some (indexInEntries - 1)) else pure none
  else pure none

/-- The search of the lookups of collision-free hash maps (core/maps/decl_macros.rs l.284-316). -/
def HashMapNC.searchE (hQ : Q → Eff W Nat) (eqv : Q → K → Eff W Bool) (m : HashMapNC K V) (key : Q) : Eff W (Option Nat) := do
  let h ← hQ key
  m.table.searchE h (fun entry => eqv key entry.1)

/-- Lookups in an `FzScalarMap` (core/fz_maps/fz_scalar_map.rs l.69-118). -/
def FzScalarMap.searchE (qindex : Q → Eff W Nat) (eqv : Q → K → Eff W Bool) (m : FzScalarMap K V) (key : Q) : Eff W (Option Nat) :=
  match m with
  | .hash m => m.searchE qindex eqv key
  | .dense m => m.searchE qindex key
  | .sparse m => m.searchE qindex key

/-- Lookups in an `FzStringMap` (core/fz_maps/fz_string_map.rs l.98-152); the `BuildHasher` is the user's, comparing strings is not. -/
def FzStringMap.searchE (bhStr bhSlice : Str → Eff W Nat) (m : FzStringMap V) (key : Str) : Eff W (Option Nat) :=
  match m with
  | .leftRange r m => m.searchE (leftRangeHashE bhSlice r) (fun a b => pure (strEq a b)) key
  | .rightRange r m => m.searchE (rightRangeHashE bhSlice r) (fun a b => pure (strEq a b)) key
  | .hash m => m.searchE bhStr (fun a b => pure (strEq a b)) key

/-- Lookups in an inline map (core/inline_maps/*.rs). -/
def InlineMap.searchE (t : UserTraits W Q K) (m : InlineMap K V) (q : Q) : Eff W (Option Nat) :=
  match m.repr with
  | .scan m => m.searchE t.equivalent q
  | .eytzinger m => m.searchE t.compare q
  | .dense m => m.searchE t.index q
  | .sparse m => m.searchE t.index q
  | .hash h m => m.searchE (h.hashOneE t) t.equivalent q
  | .hashNC h m => m.searchE (h.hashOneE t) t.equivalent q

/-! ## Programs -/

/-- Inner loop of `has_duplicates` (core/utils/dedup.rs l.178-182). -/
def hasDupBeforeE (eq : T → T → Eff W Bool) (values : List T) (vi : T) : Nat → Nat → Eff W Bool
  | 0, _ => pure false
  | fuel + 1, j => do
    let vj ← Eff.lift (idx values j)
    let c ← eq vj vi
    if c then pure true else hasDupBeforeE eq values vi fuel (j + 1)

/-- Outer loop of `has_duplicates` (core/utils/dedup.rs l.177-185). -/
def hasDupLoopE (eq : T → T → Eff W Bool) (values : List T) : Nat → Nat → Eff W Bool
  | 0, _ => pure false
  | fuel + 1, i => do
    let vi ← Eff.lift (idx values i)
    let c ← hasDupBeforeE eq values vi i 0
    if c then pure true else hasDupLoopE eq values fuel (i + 1)

/-- `has_duplicates` (core/utils/dedup.rs l.173-186). -/
def hasDuplicatesE (eq : T → T → Eff W Bool) (values : List T) : Eff W Bool := hasDupLoopE eq values values.length 0

/-- `get_disjoint_unchecked_mut` (core/maps/decl_macros.rs l.265-277). -/
def disjointUncheckedE (search : Q → Eff W (Option Nat)) : List Q → Eff W (List (Option Nat))
  | [] => pure []
  | q :: qs => do
    let p ← search q
    let ps ← disjointUncheckedE search qs
    pure (p :: ps)

/-- `get_disjoint_mut` (core/maps/decl_macros.rs l.255-263). -/
def disjointMutE (search : Q → Eff W (Option Nat)) (eqQ : Q → Q → Eff W Bool) (qs : List Q) : Eff W (List (Option Nat)) := do
  let d ← hasDuplicatesE eqQ qs
  if d then Eff.lift (.error (.panic "duplicate keys found")) else disjointUncheckedE search qs

/-- The entry that a search found (the last lines of `get`, `get_key_value`, core/maps/decl_macros.rs l.103-141 and the other map types). -/
def MapImpl.found (I : MapImpl M Q K V) (m : M) (r : Option Nat) : Option (K × V) := r.bind fun i => (I.entries m)[i]?

/-- One operation of a program (see `MapImpl.step`), the lookups being `search`. -/
def MapImpl.stepE (I : MapImpl M Q K V) (search : M → Q → Eff W (Option Nat)) (eqQ : Q → Q → Eff W Bool) (m : M) :
    Op Q K V → Eff W (Out K V × M)
  | .get q => do
    let r ← search m q
    pure (.value ((I.found m r).map Prod.snd), m)
  | .getKeyValue q => do
    let r ← search m q
    pure (.entry (I.found m r), m)
  | .containsKey q => do
    let r ← search m q
    pure (.bool (I.found m r).isSome, m)
  | .index q => do
    let r ← search m q
    match I.found m r with
    | some e => pure (.value (some e.2), m)
    | none => Eff.lift (.error (.panic "index should be valid"))
  | .len => pure (.nat (I.len m), m)
  | .iterate => pure (.entries (I.iter m).rest, m)
  | .update q f => do
    let r ← search m q
    match r with
    | none => pure (.value none, m)
    | some i => pure (.value (I.readRef m i), I.modifyRef m i f)
  | .iterMut f => pure (.unit, I.forMut f 0 (I.iterMut m).rest m)
  | .valuesMut f => pure (.unit, I.forMut (fun n _ => f n) 0 (I.iterMut m).rest m)
  | .disjointMut qs f => do
    let ps ← disjointMutE (search m) eqQ qs
    if (ps.filterMap id).Nodup then pure (.values (ps.map (fun p => p.bind (I.readRef m))), I.storeAll f 0 ps m)
    else Eff.lift (.error (.ub "two mutable references to one value"))

/-- Run a program that catches panics (`std::panic::catch_unwind` around each operation): all the observations, the map and the state
of the program at the end. -/
def MapImpl.runE (I : MapImpl M Q K V) (search : M → Q → Eff W (Option Nat)) (eqQ : Q → Q → Eff W Bool) :
    M → List (Op Q K V) → W → List (Out K V) × M × W
  | m, [], w => ([], m, w)
  | m, op :: ops, w =>
    match I.stepE search eqQ m op w with
    | (.ok (o, m'), w') =>
      let r := I.runE search eqQ m' ops w'
      (o :: r.1, r.2)
    | (.error e, w') =>
      let r := I.runE search eqQ m ops w'
      (Out.ofFault e :: r.1, r.2)

end Frozen.Model
