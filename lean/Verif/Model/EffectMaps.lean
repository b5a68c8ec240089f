import Verif.Model.EffectBuild
import Verif.Model.Clones

/-!
# Comparing and cloning maps with user code that has effects

`==` of maps looks keys up, which runs trait functions of the keys, and compares values, which runs their `PartialEq`; `Clone` of maps runs `Clone` of keys and
values.  All this is code of the user that may change the state of the program and panic.  The Rust sources are those of `MapImpl.eq` and of `Model/Clones`.
-/

namespace Frozen.Model

variable {W M M' Q K V V' : Type}

/-- `self.iter().all(|(key, value)| other.get(key).map_or(false, |v| *value == *v))` (core/maps/decl_macros.rs l.488), see `allEntriesIn`.  `get` is a search for
a position and reading there. -/
def allEntriesInE (J : MapImpl M' K K V') (search : M' → K → Eff W (Option Nat)) (eqV : V → V' → Eff W Bool) (other : M') : List (K × V) → Eff W Bool
  | [] => pure true
  | e :: es => do
    let r ← search other e.1
    match J.found other r with
    | some e' => eqV e.2 e'.2 >>= fun c => if c then allEntriesInE J search eqV other es else pure false
    | none => pure false

/-- `PartialEq::eq` between two map types (core/maps/decl_macros.rs l.481-491), see `MapImpl.eq`. -/
def MapImpl.eqE (I : MapImpl M Q K V) (J : MapImpl M' K K V') (search : M' → K → Eff W (Option Nat)) (eqV : V → V' → Eff W Bool) (self : M) (other : M') :
    Eff W Bool :=
  if I.len self != J.len other then pure false else allEntriesInE J search eqV other (I.iter self).rest

/-- `Clone` of a pair (see `cloneEntry`). -/
def cloneEntryE (ck : K → Eff W K) (cv : V → Eff W V) (e : K × V) : Eff W (K × V) := do
  let k ← ck e.1
  let v ← cv e.2
  pure (k, v)

/-- The derived `Clone` of `ScanMap` (core/maps/scan_map.rs l.28-31), see `ScanMap.clone`. -/
def ScanMap.cloneE (ck : K → Eff W K) (cv : V → Eff W V) (m : ScanMap K V) : Eff W (ScanMap K V) := do
  let es ← mapE (cloneEntryE ck cv) m.entries
  pure { entries := es }

/-- The derived `Clone` of `EytzingerSearchMap` (core/maps/eytzinger_search_map.rs l.29-32), see `EytzingerMap.clone`. -/
def EytzingerMap.cloneE (ck : K → Eff W K) (cv : V → Eff W V) (m : EytzingerMap K V) : Eff W (EytzingerMap K V) := do
  let es ← mapE (cloneEntryE ck cv) m.entries
  pure { entries := es }

/-- The derived `Clone` of `DenseScalarLookupMap` (core/maps/dense_scalar_lookup_map.rs l.28-33), see `DenseMap.clone`. -/
def DenseMap.cloneE (ck : K → Eff W K) (cv : V → Eff W V) (m : DenseMap K V) : Eff W (DenseMap K V) := do
  let es ← mapE (cloneEntryE ck cv) m.entries
  pure { min := m.min, max := m.max, entries := es }

/-- The derived `Clone` of `SparseScalarLookupMap` (core/maps/sparse_scalar_lookup_map.rs l.29-35), see `SparseMap.clone`. -/
def SparseMap.cloneE (ck : K → Eff W K) (cv : V → Eff W V) (m : SparseMap K V) : Eff W (SparseMap K V) := do
  let es ← mapE (cloneEntryE ck cv) m.entries
  pure { min := m.min, max := m.max, lookup := m.lookup, entries := es }

/-- The derived `Clone` of `HashMap` and `HashTable` (core/maps/hash_map.rs l.31-35, core/hash_tables/hash_table.rs l.21-26), see `HashMap.clone`.  `Clone` of
the hasher has no effects here. -/
def HashMap.cloneE (ck : K → Eff W K) (cv : V → Eff W V) (m : HashMap K V) : Eff W (HashMap K V) := do
  let es ← mapE (cloneEntryE ck cv) m.table.entries
  pure { table := { slots := m.table.slots, entries := es, mask := m.table.mask } }

/-- The derived `Clone` of `InlineHashMapNoCollisions` (core/inline_maps/inline_hash_map_no_collisions.rs l.35-39), see `HashMapNC.clone`. -/
def HashMapNC.cloneE (ck : K → Eff W K) (cv : V → Eff W V) (m : HashMapNC K V) : Eff W (HashMapNC K V) := do
  let es ← mapE (cloneEntryE ck cv) m.table.entries
  pure { table := { slots := m.table.slots, entries := es, mask := m.table.mask } }

/-- The derived `Clone` of `MapTypes` and `FzScalarMap` (core/fz_maps/fz_scalar_map.rs l.28-33, l.43-46), see `FzScalarMap.clone`. -/
def FzScalarMap.cloneE (ck : K → Eff W K) (cv : V → Eff W V) : FzScalarMap K V → Eff W (FzScalarMap K V)
  | .hash m => m.cloneE ck cv >>= fun m => pure (.hash m)
  | .dense m => m.cloneE ck cv >>= fun m => pure (.dense m)
  | .sparse m => m.cloneE ck cv >>= fun m => pure (.sparse m)

/-- The derived `Clone` of `MapTypes` and `FzStringMap` (core/fz_maps/fz_string_map.rs l.25-30, l.41-45), see `FzStringMap.clone`. -/
def FzStringMap.cloneE (cv : V → Eff W V) : FzStringMap V → Eff W (FzStringMap V)
  | .leftRange r m => m.cloneE (fun k => pure k) cv >>= fun m => pure (.leftRange r m)
  | .rightRange r m => m.cloneE (fun k => pure k) cv >>= fun m => pure (.rightRange r m)
  | .hash m => m.cloneE (fun k => pure k) cv >>= fun m => pure (.hash m)

/-- The derived `Clone` of the six inline map types, see `InlineRepr.clone`. -/
def InlineRepr.cloneE (ck : K → Eff W K) (cv : V → Eff W V) : InlineRepr K V → Eff W (InlineRepr K V)
  | .scan m => m.cloneE ck cv >>= fun m => pure (.scan m)
  | .eytzinger m => m.cloneE ck cv >>= fun m => pure (.eytzinger m)
  | .dense m => m.cloneE ck cv >>= fun m => pure (.dense m)
  | .sparse m => m.cloneE ck cv >>= fun m => pure (.sparse m)
  | .hash h m => m.cloneE ck cv >>= fun m => pure (.hash h m)
  | .hashNC h m => m.cloneE ck cv >>= fun m => pure (.hashNC h m)

/-- The derived `Clone` of an inline map, see `InlineMap.clone`. -/
def InlineMap.cloneE (ck : K → Eff W K) (cv : V → Eff W V) (m : InlineMap K V) : Eff W (InlineMap K V) := do
  let r ← m.repr.cloneE ck cv
  pure { sz := m.sz, repr := r }

end Frozen.Model
