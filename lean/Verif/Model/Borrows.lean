import Verif.Model.InlineMaps
import Verif.Model.Calls

/-!
# The references created by `get_mut` and `get_disjoint_mut`

Memory that matters here is the slice (or array) of entries of a map.  Each entry is two locations, its key and its
value.  A *tag* names a reference or raw pointer into that memory; tag 0 is the pointer through which the map owns its
entries (the `Box`, or the `&mut self` that `get_disjoint_mut` receives for inline maps).  The functions below are the
functions of the same name in the other models, with the reborrows and accesses of entries they perform.

Simplifications: accesses to other memory (the fields `min`, `max`, `mask`, the slots, the lookup table, the query) are left
out, as the references handed out never point there. A comparison reads (part of) the key it is given; the binary search is
taken to read any key. Reborrows of references that have just been created, such as those at function entry, are left out.
-/

namespace Frozen.Model

variable {Q K V T : Type}

/-- A location in the entries of a map. -/
inductive Loc where
  | key (i : Nat)
  | value (i : Nat)
deriving DecidableEq, Repr

/-- A set of locations. -/
abbrev Footprint := Loc → Bool

/-- `self.entries` as a slice. -/
def wholeFp : Footprint := fun _ => true

/-- All the keys. -/
def keysFp : Footprint
  | .key _ => true
  | .value _ => false

/-- `self.entries[lo..hi]`. -/
def rangeFp (lo hi : Nat) : Footprint
  | .key i => decide (lo ≤ i) && decide (i < hi)
  | .value i => decide (lo ≤ i) && decide (i < hi)

/-- Entry number `i`. -/
def entryFp (i : Nat) : Footprint
  | .key j => j == i
  | .value j => j == i

/-- The key of entry number `i`. -/
def keyFp (i : Nat) : Footprint
  | .key j => j == i
  | .value _ => false

/-- The value of entry number `i`. -/
def valueFp (i : Nat) : Footprint
  | .key _ => false
  | .value j => j == i

/-- `&mut T`, `&T`, `*mut T`. -/
inductive RefKind where
  | mut
  | shr
  | raw
deriving DecidableEq, Repr

/-- What a program does with references: derive a new one from an existing one, read and write. -/
inductive MemOp where
  | retag (parent tag : Nat) (kind : RefKind) (fp : Footprint)
  | read (tag : Nat) (fp : Footprint)
  | write (tag : Nat) (fp : Footprint)

/-- The operations of one call of `get_mut`, the entry and the `&mut V` it returned, and the next unused tag. -/
structure Trace where
  ops : List MemOp
  found : Option (Nat × Nat)
  next : Nat

/-! ## `get_mut`, with entries reached through tag `base` and new tags from `t` on -/

/-- The loop of `get_mut` (core/maps/decl_macros.rs l.519-523); `raw` is the pointer in `slice::IterMut`. -/
def scanMutLoopB (eqv : Q → K → Bool) (key : Q) (raw : Nat) : List (K × V) → Nat → Option (Nat × Nat) → Nat → Trace
  | [], _, result, t => ⟨[], result, t⟩
  | entry :: rest, i, result, t =>
    if eqv key entry.1 then
      let r := scanMutLoopB eqv key raw rest (i + 1) (some (i, t + 1)) (t + 2)
      ⟨.retag raw t .mut (entryFp i) :: .read t (keyFp i) :: .retag t (t + 1) .mut (valueFp i) :: r.ops, r.found, r.next⟩
    else
      let r := scanMutLoopB eqv key raw rest (i + 1) result (t + 1)
      ⟨.retag raw t .mut (entryFp i) :: .read t (keyFp i) :: r.ops, r.found, r.next⟩

/-- `get_mut` of scan maps (core/maps/decl_macros.rs l.513-525). -/
def ScanMap.getMutB (eqv : Q → K → Bool) (m : ScanMap K V) (key : Q) (base t : Nat) : Res Trace :=
  let r := scanMutLoopB eqv key (t + 1) m.entries 0 none (t + 2)
  .ok ⟨.retag base t .mut wholeFp :: .retag t (t + 1) .raw wholeFp :: r.ops, r.found, r.next⟩

/-- `self.entries.get_unchecked_mut(index)` and `&mut entry.1`. -/
def entryMutB (base t i : Nat) : List MemOp :=
  [.retag base t .mut wholeFp, .retag t (t + 1) .mut (entryFp i), .retag (t + 1) (t + 2) .mut (valueFp i)]

/-- `get_mut` of Eytzinger search maps (core/maps/decl_macros.rs l.176-187). -/
def EytzingerMap.getMutB (qcmp : Q → K → Ordering) (m : EytzingerMap K V) (key : Q) (base t : Nat) : Res Trace :=
  match eytzingerSearchBy m.entries (fun entry => (qcmp key entry.1).swap) with
  | some index => do
    let _entry ← getUnchecked m.entries index
    .ok ⟨.retag base t .shr wholeFp :: .read t keysFp :: entryMutB base (t + 1) index, some (index, t + 3), t + 4⟩
  | none => .ok ⟨[.retag base t .shr wholeFp, .read t keysFp], none, t + 1⟩

/-- `get_mut` of dense maps (core/maps/decl_macros.rs l.117-127). -/
def DenseMap.getMutB (qindex : Q → Nat) (m : DenseMap K V) (key : Q) (base t : Nat) : Res Trace :=
  if qindex key ≥ m.min ∧ qindex key ≤ m.max then do
    let _entry ← getUnchecked m.entries (qindex key - m.min)
    .ok ⟨entryMutB base t (qindex key - m.min), some (qindex key - m.min, t + 2), t + 3⟩
  else .ok ⟨[], none, t⟩

/-- `get_mut` of sparse maps (core/maps/decl_macros.rs l.613-631). -/
def SparseMap.getMutB (qindex : Q → Nat) (m : SparseMap K V) (key : Q) (base t : Nat) : Res Trace :=
  if qindex key ≥ m.min ∧ qindex key ≤ m.max then do
    let indexInEntries ← getUnchecked m.lookup (qindex key - m.min)
    if indexInEntries > 0 then do
      let _entry ← getUnchecked m.entries (indexInEntries - 1)
      .ok ⟨entryMutB base t (indexInEntries - 1), some (indexInEntries - 1, t + 2), t + 3⟩
    else .ok ⟨[], none, t⟩
  else .ok ⟨[], none, t⟩

/-- The loop of `find_mut` (core/hash_tables/decl_macros.rs l.47-56) and `.map(|(_, v)| v)` (core/maps/decl_macros.rs l.303).
`raw` is `ptr`; entry number `ptr` of the bucket is entry number `lo + ptr` of the table. -/
def scanBucketB (eq : T → Bool) (bucket : List T) (raw lo : Nat) : Nat → Nat → Nat → Res Trace
  | 0, _, t => .ok ⟨[], none, t⟩
  | n + 1, ptr, t => do
    let e ← getUnchecked bucket ptr
    if eq e then
      .ok ⟨[.retag raw t .shr (entryFp (lo + ptr)), .read t (keyFp (lo + ptr)),
        .retag raw (t + 1) .mut (entryFp (lo + ptr)), .retag (t + 1) (t + 2) .mut (valueFp (lo + ptr))],
        some (lo + ptr, t + 2), t + 3⟩
    else do
      let r ← scanBucketB eq bucket raw lo n (ptr + 1) (t + 1)
      .ok ⟨.retag raw t .shr (entryFp (lo + ptr)) :: .read t (keyFp (lo + ptr)) :: r.ops, r.found, r.next⟩

/-- `find_mut` (core/hash_tables/decl_macros.rs l.33-59). -/
def HashTable.findMutB (tab : HashTable T) (hashCode : Nat) (eq : T → Bool) (base t : Nat) : Res Trace := do
  let slot ← getUnchecked tab.slots (hashCode &&& tab.mask)
  let bucket ← getUncheckedRange tab.entries slot.minIndex slot.maxIndex
  let r ← scanBucketB eq bucket (t + 2) slot.minIndex (slot.maxIndex - slot.minIndex) 0 (t + 3)
  .ok ⟨.retag base t .mut wholeFp :: .retag t (t + 1) .mut (rangeFp slot.minIndex slot.maxIndex) ::
    .retag (t + 1) (t + 2) .raw (rangeFp slot.minIndex slot.maxIndex) :: r.ops, r.found, r.next⟩

/-- `get_mut` of hash maps (core/maps/decl_macros.rs l.296-304). -/
def HashMap.getMutB (hQ : Q → Res Nat) (eqv : Q → K → Bool) (m : HashMap K V) (key : Q) (base t : Nat) : Res Trace := do
  let h ← hQ key
  m.table.findMutB h (fun entry => eqv key entry.1) base t

/-- `InlineHashTableNoCollisions::find_mut` (core/hash_tables/inline_hash_table_no_collisions.rs l.61-78) and
`.map(|(_, v)| v)`. -/
def HashTableNC.findMutB (tab : HashTableNC T) (hashCode : Nat) (eq : T → Bool) (base t : Nat) : Res Trace := do
  let indexInEntries ← getUnchecked tab.slots (hashCode &&& tab.mask)
  if indexInEntries > 0 then do
    let entry ← getUnchecked tab.entries (indexInEntries - 1)
    if eq entry then
      .ok ⟨[.retag base t .mut wholeFp, .retag t (t + 1) .mut (entryFp (indexInEntries - 1)),
        .retag (t + 1) (t + 2) .shr (entryFp (indexInEntries - 1)), .read (t + 2) (keyFp (indexInEntries - 1)),
        .retag (t + 1) (t + 3) .mut (valueFp (indexInEntries - 1))], some (indexInEntries - 1, t + 3), t + 4⟩
    else
      .ok ⟨[.retag base t .mut wholeFp, .retag t (t + 1) .mut (entryFp (indexInEntries - 1)),
        .retag (t + 1) (t + 2) .shr (entryFp (indexInEntries - 1)), .read (t + 2) (keyFp (indexInEntries - 1))], none, t + 3⟩
  else .ok ⟨[], none, t⟩

/-- `get_mut` of collision-free hash maps (core/maps/decl_macros.rs l.296-304). -/
def HashMapNC.getMutB (hQ : Q → Res Nat) (eqv : Q → K → Bool) (m : HashMapNC K V) (key : Q) (base t : Nat) :
    Res Trace := do
  let h ← hQ key
  m.table.findMutB h (fun entry => eqv key entry.1) base t

/-- `get_mut` (core/fz_maps/fz_scalar_map.rs l.82-91). -/
def FzScalarMap.getMutB (qindex : Q → Nat) (eqv : Q → K → Bool) (m : FzScalarMap K V) (key : Q) (base t : Nat) :
    Res Trace :=
  match m with
  | .hash m => m.getMutB (scalarHash qindex) eqv key base t
  | .dense m => m.getMutB qindex key base t
  | .sparse m => m.getMutB qindex key base t

/-- `get_mut` (core/fz_maps/fz_string_map.rs l.112-122). -/
def FzStringMap.getMutB (bhStr bhSlice : Str → Nat) (m : FzStringMap V) (key : Str) (base t : Nat) : Res Trace :=
  match m with
  | .leftRange r m => m.getMutB (leftRangeHash bhSlice r) strEq key base t
  | .rightRange r m => m.getMutB (rightRangeHash bhSlice r) strEq key base t
  | .hash m => m.getMutB (bridgeHash bhStr) strEq key base t

/-- `get_mut` of the inline map types (core/inline_maps/*.rs): the macros of core/maps/decl_macros.rs again. -/
def InlineMap.getMutB (t : QueryTraits Q K) (m : InlineMap K V) (q : Q) (base tag : Nat) : Res Trace :=
  match m.repr with
  | .scan m => m.getMutB t.equivalent q base tag
  | .eytzinger m => m.getMutB t.compare q base tag
  | .dense m => m.getMutB t.index q base tag
  | .sparse m => m.getMutB t.index q base tag
  | .hash h m => m.getMutB (h.hashOne t) t.equivalent q base tag
  | .hashNC h m => m.getMutB (h.hashOne t) t.equivalent q base tag

/-! ## `get_disjoint_unchecked_mut` -/

/-- `$self.get_mut($keys[i])` for each key in turn, and `value as *mut V` (core/maps/decl_macros.rs l.266-271). For an inline map
the entries are part of `self`, so the reborrow `&mut *self` covers them. The result has a raw pointer for each key found. -/
def getMutsB (inline : Bool) (getMut : Q → Nat → Nat → Res Trace) :
    List Q → Nat → Res (List MemOp × List (Option (Nat × Nat)) × Nat)
  | [], t => .ok ([], [], t)
  | q :: qs, t => do
    let r ← getMut q (if inline then t else 0) (if inline then t + 1 else t)
    match r.found with
    | some (p, v) => do
      let rs ← getMutsB inline getMut qs (r.next + 1)
      .ok ((if inline then [.retag 0 t .mut wholeFp] else []) ++ r.ops ++ .retag v r.next .raw (valueFp p) :: rs.1,
        some (p, r.next) :: rs.2.1, rs.2.2)
    | none => do
      let rs ← getMutsB inline getMut qs r.next
      .ok ((if inline then [.retag 0 t .mut wholeFp] else []) ++ r.ops ++ rs.1, none :: rs.2.1, rs.2.2)

/-- `ptrs.map(|ptr| ptr.map(|mut ptr| unsafe { ptr.as_mut() }))` (core/maps/decl_macros.rs l.273-276). -/
def asMutsB : List (Option (Nat × Nat)) → Nat → List MemOp × List (Option (Nat × Nat))
  | [], _ => ([], [])
  | some (p, raw) :: ptrs, t =>
    let r := asMutsB ptrs (t + 1)
    (.retag raw t .mut (valueFp p) :: r.1, some (p, t) :: r.2)
  | none :: ptrs, t =>
    let r := asMutsB ptrs t
    (r.1, none :: r.2)

/-- `get_disjoint_unchecked_mut` (core/maps/decl_macros.rs l.265-277): what it does with references, and the references it
returns. -/
def disjointB (inline : Bool) (getMut : Q → Nat → Nat → Res Trace) (qs : List Q) :
    Res (List MemOp × List (Option (Nat × Nat))) := do
  let r ← getMutsB inline getMut qs 1
  let s := asMutsB r.2.1 r.2.2
  .ok (r.1 ++ s.1, s.2)

end Frozen.Model
