import Verif.Model.InlineMaps
import Verif.Model.FzMaps

/-!
# Model of `Clone` for collections

All collections derive `Clone`: a clone clones every field.  The user's `Clone` implementations for keys and values are arbitrary functions that may
panic.  Numbers, slots and ranges are copied.  The hasher is cloned too; as in `Model/Maps` it is not part of the modelled map but a parameter of its lookup
functions, so the clone's lookup functions take the clone's hasher.
-/

namespace Frozen.Model

variable {K V : Type}

/-- `Clone` of a boxed slice or an array: the elements are cloned in order. -/
def cloneList {α : Type} (c : α → Res α) : List α → Res (List α)
  | [] => .ok []
  | x :: xs => do
    let y ← c x
    let ys ← cloneList c xs
    .ok (y :: ys)

/-- `Clone` of a pair. -/
def cloneEntry (ck : K → Res K) (cv : V → Res V) (e : K × V) : Res (K × V) := do
  let k ← ck e.1
  let v ← cv e.2
  .ok (k, v)

/-- The derived `Clone` of `ScanMap` (core/maps/scan_map.rs l.28-31); also `InlineScanMap` (core/inline_maps/inline_scan_map.rs l.33-36). -/
def ScanMap.clone (ck : K → Res K) (cv : V → Res V) (m : ScanMap K V) : Res (ScanMap K V) := do
  let es ← cloneList (cloneEntry ck cv) m.entries
  .ok { entries := es }

/-- The derived `Clone` of `EytzingerSearchMap` (core/maps/eytzinger_search_map.rs l.29-32); also `InlineEytzingerSearchMap`
(core/inline_maps/inline_eytzinger_search_map.rs l.34-37) and `FzOrderedMap` (core/fz_maps/fz_ordered_map.rs l.37-40). -/
def EytzingerMap.clone (ck : K → Res K) (cv : V → Res V) (m : EytzingerMap K V) : Res (EytzingerMap K V) := do
  let es ← cloneList (cloneEntry ck cv) m.entries
  .ok { entries := es }

/-- The derived `Clone` of `DenseScalarLookupMap` (core/maps/dense_scalar_lookup_map.rs l.28-33); also `InlineDenseScalarLookupMap`
(core/inline_maps/inline_dense_scalar_lookup_map.rs l.29-34). -/
def DenseMap.clone (ck : K → Res K) (cv : V → Res V) (m : DenseMap K V) : Res (DenseMap K V) := do
  let es ← cloneList (cloneEntry ck cv) m.entries
  .ok { min := m.min, max := m.max, entries := es }

/-- The derived `Clone` of `SparseScalarLookupMap` (core/maps/sparse_scalar_lookup_map.rs l.29-35); also `InlineSparseScalarLookupMap`
(core/inline_maps/inline_sparse_scalar_lookup_map.rs l.31-37). -/
def SparseMap.clone (ck : K → Res K) (cv : V → Res V) (m : SparseMap K V) : Res (SparseMap K V) := do
  let es ← cloneList (cloneEntry ck cv) m.entries
  .ok { min := m.min, max := m.max, lookup := m.lookup, entries := es }

/-- The derived `Clone` of `HashTable` (core/hash_tables/hash_table.rs l.21-26), `HashTableSlot` (core/hash_tables/hash_table_slot.rs l.9-13) and
`InlineHashTable` (core/hash_tables/inline_hash_table.rs l.18-23). -/
def HashTable.clone {T : Type} (c : T → Res T) (t : HashTable T) : Res (HashTable T) := do
  let es ← cloneList c t.entries
  .ok { slots := t.slots, entries := es, mask := t.mask }

/-- The derived `Clone` of `HashMap` (core/maps/hash_map.rs l.31-35); also `InlineHashMap` (core/inline_maps/inline_hash_map.rs l.35-39) and `FzHashMap`
(core/fz_maps/fz_hash_map.rs l.40-43). -/
def HashMap.clone (ck : K → Res K) (cv : V → Res V) (m : HashMap K V) : Res (HashMap K V) := do
  let t ← m.table.clone (cloneEntry ck cv)
  .ok { table := t }

/-- The derived `Clone` of `InlineHashTableNoCollisions` (core/hash_tables/inline_hash_table_no_collisions.rs l.16-21). -/
def HashTableNC.clone {T : Type} (c : T → Res T) (t : HashTableNC T) : Res (HashTableNC T) := do
  let es ← cloneList c t.entries
  .ok { slots := t.slots, entries := es, mask := t.mask }

/-- The derived `Clone` of `InlineHashMapNoCollisions` (core/inline_maps/inline_hash_map_no_collisions.rs l.35-39). -/
def HashMapNC.clone (ck : K → Res K) (cv : V → Res V) (m : HashMapNC K V) : Res (HashMapNC K V) := do
  let t ← m.table.clone (cloneEntry ck cv)
  .ok { table := t }

/-- The derived `Clone` of `MapTypes` and `FzScalarMap` (core/fz_maps/fz_scalar_map.rs l.28-33, l.43-46). -/
def FzScalarMap.clone (ck : K → Res K) (cv : V → Res V) : FzScalarMap K V → Res (FzScalarMap K V)
  | .hash m => do
    let m ← m.clone ck cv
    .ok (.hash m)
  | .dense m => do
    let m ← m.clone ck cv
    .ok (.dense m)
  | .sparse m => do
    let m ← m.clone ck cv
    .ok (.sparse m)

/-- The derived `Clone` of `MapTypes` and `FzStringMap` (core/fz_maps/fz_string_map.rs l.25-30, l.41-45); the keys are `Box<str>`, whose clone has the same
text. -/
def FzStringMap.clone (cv : V → Res V) : FzStringMap V → Res (FzStringMap V)
  | .leftRange r m => do
    let m ← m.clone (fun k => .ok k) cv
    .ok (.leftRange r m)
  | .rightRange r m => do
    let m ← m.clone (fun k => .ok k) cv
    .ok (.rightRange r m)
  | .hash m => do
    let m ← m.clone (fun k => .ok k) cv
    .ok (.hash m)

/-- The derived `Clone` of the six inline map types (see the functions above). -/
def InlineRepr.clone (ck : K → Res K) (cv : V → Res V) : InlineRepr K V → Res (InlineRepr K V)
  | .scan m => do
    let m ← m.clone ck cv
    .ok (.scan m)
  | .eytzinger m => do
    let m ← m.clone ck cv
    .ok (.eytzinger m)
  | .dense m => do
    let m ← m.clone ck cv
    .ok (.dense m)
  | .sparse m => do
    let m ← m.clone ck cv
    .ok (.sparse m)
  | .hash h m => do
    let m ← m.clone ck cv
    .ok (.hash h m)
  | .hashNC h m => do
    let m ← m.clone ck cv
    .ok (.hashNC h m)

/-- The derived `Clone` of an inline map; its size is part of its type. -/
def InlineMap.clone (ck : K → Res K) (cv : V → Res V) (m : InlineMap K V) : Res (InlineMap K V) := do
  let r ← m.repr.clone ck cv
  .ok { sz := m.sz, repr := r }

end Frozen.Model
