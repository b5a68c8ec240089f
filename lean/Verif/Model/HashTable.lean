import Verif.Model.HashAnalyzer

/-!
# Model of `core/hash_tables/*.rs`
-/

namespace Frozen.Model

/-- `CollectionMagnitude` (core/traits/collection_magnitude.rs l.5-35): the three magnitudes are the
integer types `u8`, `u16`, `usize`. -/
inductive Magnitude where
  | small | medium | large
deriving DecidableEq, Repr

/-- `CollectionMagnitude::MAX_CAPACITY` (core/traits/collection_magnitude.rs l.17, l.25, l.33). -/
def Magnitude.maxCapacity [Target] : Magnitude → Nat
  | .small => 2 ^ 8 - 1
  | .medium => 2 ^ 16 - 1
  | .large => usizeMax

/-- `CM::try_from(n).unwrap_or(CM::ZERO)` (core/hash_tables/hash_table.rs l.89-90). -/
def Magnitude.ofNatOrZero [Target] (cm : Magnitude) (n : Nat) : Nat := if n ≤ cm.maxCapacity then n else 0

variable {T : Type _}

/-- `struct HashTableSlot` (core/hash_tables/hash_table_slot.rs l.10-23) : `min_index`, `max_index`. -/
structure Slot where
  minIndex : Nat
  maxIndex : Nat
deriving DecidableEq, Repr

/-- `struct HashTable` (core/hash_tables/hash_table.rs l.22-26); also `InlineHashTable`
(core/hash_tables/inline_hash_table.rs l.12-20), which has the same three fields. -/
structure HashTable (T : Type _) where
  slots : List Slot
  entries : List T
  mask : Nat
deriving DecidableEq, Repr

/-- `Default for HashTable` (core/hash_tables/hash_table.rs l.124-130). -/
def HashTable.default : HashTable T := { slots := [⟨0, 0⟩], entries := [], mask := 0 }

/-- The inner `loop` of `HashTable::new` (core/hash_tables/hash_table.rs l.74-86): push `item.entry`, then keep
popping while the new last item has the same slot.  `items` are the remaining `prep_items` in popping
order.  Returns the extended `final_entries`, the count, and the remaining items. -/
def drainGroup (slot : Nat) : T → List (Nat × T) → List T → Nat → List T × Nat × List (Nat × T)
  | entry, [], final, count => (final ++ [entry], count + 1, [])
  | entry, item :: items, final, count =>
    if item.1 == slot then drainGroup slot item.2 items (final ++ [entry]) (count + 1)
    else (final ++ [entry], count + 1, item :: items)

theorem drainGroup_length (slot : Nat) (e : T) (items : List (Nat × T)) (final : List T) (c : Nat) :
    (drainGroup slot e items final c).2.2.length ≤ items.length := by
  induction items generalizing e final c with
  | nil => simp [drainGroup]
  | cons i is ih =>
    unfold drainGroup
    split
    · have := ih i.2 (final ++ [e]) (c + 1)
      simp only [List.length_cons]; omega
    · simp

/-- The outer `while let Some(item) = prep_items.pop()` loop (core/hash_tables/hash_table.rs l.70-94). -/
def fillSlots [Target] (cm : Magnitude) : List (Nat × T) → List Slot → Nat → List T → Res (List Slot × List T)
  | [], slots, _, final => .ok (slots, final)
  | item :: items, slots, entryIndex, final =>
    let g := drainGroup item.1 item.2 items final 0
    do
      let slots ← setIdx slots item.1 ⟨cm.ofNatOrZero entryIndex, cm.ofNatOrZero (entryIndex + g.2.1)⟩
      fillSlots cm g.2.2 slots (entryIndex + g.2.1) g.1
termination_by items => items.length
decreasing_by
  have := drainGroup_length item.1 item.2 items final 0
  simp only [List.length_cons]; omega

/-- The loop that pops all entries and computes their slots (core/hash_tables/hash_table.rs l.52-59); the entries
are visited from last to first. -/
def prepItems (hash : T → Nat) (numSlots : Nat) : List T → Res (List (Nat × T))
  | [] => .ok []
  | e :: es => do
    let s ← cmod (hash e) numSlots
    let rest ← prepItems hash numSlots es
    .ok ((s, e) :: rest)

/-- `sort_unstable_by` on the prepared items as an arbitrary function
(core/hash_tables/hash_table.rs l.62). -/
abbrev Sorter (T : Type _) := List (Nat × T) → List (Nat × T)

/-- The contract of `sort_unstable_by(|x, y| x.hash_slot_index.cmp(&y.hash_slot_index))`: the result is a
permutation in ascending slot order; nothing is said on the order of items with equal slots. -/
structure SorterOk (sort : Sorter T) : Prop where
  perm : ∀ l, (sort l).Perm l
  sorted : ∀ l, (sort l).Pairwise (fun a b => a.1 ≤ b.1)

/-- The message of the capacity error (core/hash_tables/hash_table.rs l.45). -/
def tooManyEntries : String := "too many entries for the selected collection magnitude"

/-- `HashTable::new` (core/hash_tables/hash_table.rs l.41-101).  The outer `Res` is for panics, the inner `Except`
is the function's own `Result<Self, String>`. -/
def HashTable.new [Target] (cm : Magnitude) (sort : Sorter T) (entries : List T) (hash : T → Nat) :
    Res (Except String (HashTable T)) :=
  if entries.isEmpty then .ok (.ok HashTable.default)
  else if entries.length > cm.maxCapacity then .ok (.error tooManyEntries)
  else do
    let (numSlots, _) ← analyzeHashCodes (entries.map hash)
    let prep ← prepItems hash numSlots entries.reverse
    let prep := sort prep
    let (slots, final) ← fillSlots cm prep.reverse (List.replicate numSlots ⟨0, 0⟩) 0 []
    let mask ← csub slots.length 1
    .ok (.ok { slots := slots, entries := final, mask := mask })

/-- The `while max > min` pointer loop of `find` (core/hash_tables/decl_macros.rs l.15-29).  `n = max - min` is the
number of remaining iterations and `ptr` the current offset into the slice `entries[min..max]`;
dereferencing outside that slice is undefined behaviour. Returns the offset of the hit. -/
def scanBucket (eq : T → Bool) (bucket : List T) : Nat → Nat → Res (Option Nat)
  | 0, _ => .ok none
  | n + 1, ptr => do
    let e ← getUnchecked bucket ptr
    if eq e then .ok (some ptr) else scanBucket eq bucket n (ptr + 1)

/-- `HashTable::find` (core/hash_tables/decl_macros.rs l.4-30). -/
def HashTable.find (t : HashTable T) (hashCode : Nat) (eq : T → Bool) : Res (Option T) := do
  let slot ← getUnchecked t.slots (hashCode &&& t.mask)
  let bucket ← getUncheckedRange t.entries slot.minIndex slot.maxIndex
  match ← scanBucket eq bucket (slot.maxIndex - slot.minIndex) 0 with
  | some ptr => do
    let e ← getUnchecked bucket ptr
    .ok (some e)
  | none => .ok none

/-- `HashTable::find_mut` (core/hash_tables/decl_macros.rs l.33-59).  The returned `&mut T` is represented by the
position of the entry in `entries`. -/
def HashTable.findMut (t : HashTable T) (hashCode : Nat) (eq : T → Bool) : Res (Option Nat) := do
  let slot ← getUnchecked t.slots (hashCode &&& t.mask)
  let bucket ← getUncheckedRange t.entries slot.minIndex slot.maxIndex
  match ← scanBucket eq bucket (slot.maxIndex - slot.minIndex) 0 with
  | some ptr => .ok (some (slot.minIndex + ptr))
  | none => .ok none

/-- `HashTable::len` (core/hash_tables/hash_table.rs l.106-108). -/
def HashTable.len (t : HashTable T) : Nat := t.entries.length

/-- `HashTable::has_collisions` (core/hash_tables/hash_table.rs l.111-117); `max - min` is overflow-checked. -/
def HashTable.hasCollisions (t : HashTable T) : Res Bool :=
  let rec go : List Slot → Res Bool
    | [] => .ok false
    | s :: ss => do
      let d ← csub s.maxIndex s.minIndex
      if d > 1 then .ok true else go ss
  go t.slots

end Frozen.Model
