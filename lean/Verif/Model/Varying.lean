import Verif.Model.InlineMaps

/-!
# Constructors under trait implementations that answer differently from call to call

A safe implementation of `Scalar::index` or `Hash` may use interior mutability or global state and give another answer at every
call.  The functions below are the constructors of `Model/Maps.lean` with one function parameter per *call* of the trait
function; with all of them equal they are the constructors themselves (`*_eq` below).
-/

namespace Frozen.Model

variable {T K V : Type}

/-- `DenseScalarLookupMap::new` after sorting and deduplication (core/maps/dense_scalar_lookup_map.rs l.47-58, with l.66-75
inlined).  `i1`, `i2` answer the calls of `index` in `new` (l.51, l.52), `i3`, `i4` those in `from_sorted_and_dedupped`
(l.71, l.72). -/
def DenseMap.newSorted [Target] (b : Build) (i1 i2 i3 i4 : K → Nat) (entries : List (K × V)) :
    Res (Except String (DenseMap K V)) :=
  if entries.isEmpty then .ok (.ok DenseMap.default)
  else do
    let first ← idx entries 0
    let lastPos ← subM b entries.length 1
    let last ← idx entries lastPos
    let d ← subM b (i2 last.1) (i1 first.1)
    let count ← addM b d 1
    if entries.length = count then do
      let first ← idx entries 0
      let lastPos ← subM b entries.length 1
      let last ← idx entries lastPos
      .ok (.ok { min := i3 first.1, max := i4 last.1, entries := entries })
    else .ok (.error notContiguous)

/-- With a deterministic `index`, this is `DenseScalarLookupMap::new`. -/
theorem DenseMap.new_eq_newSorted [Target] (b : Build) (cmp : K → K → Ordering) (index : K → Nat) (entries : List (K × V)) :
    DenseMap.new b cmp index entries =
      DenseMap.newSorted b index index index index (sortedAndDedupped entries (fun x y => cmp x.1 y.1)) := by
  unfold DenseMap.new DenseMap.newSorted DenseMap.fromSortedAndDedupped
  simp only [bind, Except.bind]
  repeat' split
  all_goals (try rfl)
  all_goals simp_all

/-- The loop that fills `lookup` (core/maps/sparse_scalar_lookup_map.rs l.64-68); `index i` answers the call for
entry number `i`. -/
def fillLookupVarying [Target] (b : Build) (index : Nat → K → Nat) (min : Nat) : List (K × V) → Nat → List Nat → Res (List Nat)
  | [], _, lookup => .ok lookup
  | entry :: rest, i, lookup => do
    let indexInLookup ← subM b (index i entry.1) min
    let lookup ← setIdx lookup indexInLookup (i + 1)
    fillLookupVarying b index min rest (i + 1) lookup

/-- `SparseScalarLookupMap::new` after sorting and deduplication (core/maps/sparse_scalar_lookup_map.rs l.45-76).  `i1`, `i2`
answer the calls of `index` at l.58 and l.59, `i3 i` the one for entry `i` at l.65. -/
def SparseMap.newSorted [Target] (b : Build) (i1 i2 : K → Nat) (i3 : Nat → K → Nat) (entries : List (K × V)) :
    Res (SparseMap K V) :=
  if entries.isEmpty then .ok SparseMap.default
  else do
    let first ← idx entries 0
    let lastPos ← subM b entries.length 1
    let last ← idx entries lastPos
    let d ← subM b (i2 last.1) (i1 first.1)
    let count ← addM b d 1
    let zeros ← vecZeroed count
    let lookup ← fillLookupVarying b i3 (i1 first.1) entries 0 zeros
    .ok { min := i1 first.1, max := i2 last.1, lookup := lookup, entries := entries }

theorem fillLookup_eq_varying [Target] (b : Build) (index : K → Nat) (min : Nat) :
    ∀ (es : List (K × V)) (i : Nat) (L : List Nat),
      fillLookup b index min es i L = fillLookupVarying b (fun _ => index) min es i L
  | [], _, _ => rfl
  | e :: es, i, L => by
    simp only [fillLookup, fillLookupVarying, fillLookup_eq_varying b index min es]

/-- With a deterministic `index`, this is `SparseScalarLookupMap::new`. -/
theorem SparseMap.new_eq_newSorted [Target] (b : Build) (cmp : K → K → Ordering) (index : K → Nat) (entries : List (K × V)) :
    SparseMap.new b cmp index entries =
      SparseMap.newSorted b index index (fun _ => index) (sortedAndDedupped entries (fun x y => cmp x.1 y.1)) := by
  simp only [SparseMap.new, SparseMap.newSorted, SparseMap.fromSortedAndDedupped, fillLookup_eq_varying]

/-- `HashTable::new` (core/hash_tables/hash_table.rs l.41-101); `h1` answers the calls of `hasher` for the analysis
(l.48), `h2` those that choose the slots (l.53). -/
def HashTable.newVarying [Target] (cm : Magnitude) (sort : Sorter T) (entries : List T) (h1 h2 : T → Nat) :
    Res (Except String (HashTable T)) :=
  if entries.isEmpty then .ok (.ok HashTable.default)
  else if entries.length > cm.maxCapacity then .ok (.error tooManyEntries)
  else do
    let (numSlots, _) ← analyzeHashCodes (entries.map h1)
    let prep ← prepItems h2 numSlots entries.reverse
    let prep := sort prep
    let (slots, final) ← fillSlots cm prep.reverse (List.replicate numSlots ⟨0, 0⟩) 0 []
    let mask ← csub slots.length 1
    .ok (.ok { slots := slots, entries := final, mask := mask })

/-- With a deterministic hasher, this is `HashTable::new`. -/
theorem HashTable.new_eq_newVarying [Target] (cm : Magnitude) (sort : Sorter T) (entries : List T) (hash : T → Nat) :
    HashTable.new cm sort entries hash = HashTable.newVarying cm sort entries hash hash := rfl

/-- `FzScalarMap::new` after sorting and deduplication (core/fz_maps/fz_scalar_map.rs l.53-64) when the analysis sees the
indices `i0` (calls at core/analyzers/scalar_key_analyzer.rs l.26) and a dense map is then built with the answers `i3`, `i4`
(core/maps/dense_scalar_lookup_map.rs l.71, l.72); the other two arms are as in `FzScalarMap.build` with `i3`. -/
def FzScalarMap.newSorted [Target] (b : Build) (sort : Sorter (K × V)) (i0 i3 i4 : K → Nat) (entries : List (K × V)) :
    Res (FzScalarMap K V) := do
  let a ← analyzeScalarKeys b (entries.map (fun x => i0 x.1))
  match a with
  | .denseRange => do
    let first ← idx entries 0
    let lastPos ← subM b entries.length 1
    let last ← idx entries lastPos
    .ok (.dense { min := i3 first.1, max := i4 last.1, entries := entries })
  | .sparseRange => FzScalarMap.build b sort i3 entries .sparseRange
  | .general => FzScalarMap.build b sort i3 entries .general

/-- With a deterministic `index`, this is `FzScalarMap::new`. -/
theorem FzScalarMap.new_eq_newSorted [Target] (b : Build) (sort : Sorter (K × V)) (cmp : K → K → Ordering) (index : K → Nat)
    (entries : List (K × V)) :
    FzScalarMap.new b sort cmp index entries =
      FzScalarMap.newSorted b sort index index index (sortedAndDedupped entries (fun x y => cmp x.1 y.1)) := by
  simp only [FzScalarMap.new, FzScalarMap.newSorted, bind, Except.bind]
  cases analyzeScalarKeys b ((sortedAndDedupped entries (fun x y => cmp x.1 y.1)).map (fun x => index x.1)) with
  | error e => rfl
  | ok a =>
    cases a with
    | general => rfl
    | sparseRange => rfl
    | denseRange =>
      simp only [FzScalarMap.build, DenseMap.fromSortedAndDedupped, bind, Except.bind]
      repeat' split
      all_goals simp_all

end Frozen.Model
