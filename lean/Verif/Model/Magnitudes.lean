import Verif.Model.Maps

/-!
# Model of hash maps with a magnitude written by a user

`CollectionMagnitude` is a public, safe trait, and `HashMap::with_hasher` takes any type that implements it.  `Model/HashTable` has the three
magnitudes of the crate, with indices as numbers; here the indices are values of the user's type and every conversion is a call of the
user's functions.
-/

namespace Frozen.Model

variable {C T K V Q : Type}

/-- An implementation of `CollectionMagnitude` (core/traits/collection_magnitude.rs l.5-11): `MAX_CAPACITY`, `ZERO`, and the supertraits
`TryFrom<usize>` and `Into<usize>`.  That the functions are functions of their arguments is assumed. -/
structure MagImpl (C : Type) where
  maxCapacity : Nat
  zero : C
  tryFrom : Nat → Option C
  into : C → Nat

/-- `CM::try_from(n).unwrap_or(CM::ZERO)` (core/hash_tables/hash_table.rs l.89-90). -/
def MagImpl.conv (mg : MagImpl C) (n : Nat) : C := (mg.tryFrom n).getD mg.zero

/-- `struct HashTableSlot<CM>` (core/hash_tables/hash_table_slot.rs l.10-13). -/
structure SlotOf (C : Type) where
  minIndex : C
  maxIndex : C

/-- `struct HashTable<T, CM>` (core/hash_tables/hash_table.rs l.22-26). -/
structure TableOf (C T : Type) where
  slots : List (SlotOf C)
  entries : List T
  mask : Nat

/-- `Default for HashTable` (core/hash_tables/hash_table.rs l.124-130). -/
def TableOf.default (mg : MagImpl C) : TableOf C T := { slots := [⟨mg.zero, mg.zero⟩], entries := [], mask := 0 }

/-- The outer `while let Some(item) = prep_items.pop()` loop (core/hash_tables/hash_table.rs l.70-94). -/
def fillSlotsOf (mg : MagImpl C) : List (Nat × T) → List (SlotOf C) → Nat → List T → Res (List (SlotOf C) × List T)
  | [], slots, _, final => .ok (slots, final)
  | item :: items, slots, entryIndex, final =>
    let g := drainGroup item.1 item.2 items final 0
    do
      let slots ← setIdx slots item.1 ⟨mg.conv entryIndex, mg.conv (entryIndex + g.2.1)⟩
      fillSlotsOf mg g.2.2 slots (entryIndex + g.2.1) g.1
termination_by items => items.length
decreasing_by
  have := drainGroup_length item.1 item.2 items final 0
  simp only [List.length_cons]; omega

/-- `HashTable::new` (core/hash_tables/hash_table.rs l.41-101). -/
def TableOf.new [Target] (mg : MagImpl C) (sort : Sorter T) (entries : List T) (hash : T → Nat) :
    Res (Except String (TableOf C T)) :=
  if entries.isEmpty then .ok (.ok (TableOf.default mg))
  else if entries.length > mg.maxCapacity then .ok (.error tooManyEntries)
  else do
    let (numSlots, _) ← analyzeHashCodes (entries.map hash)
    let prep ← prepItems hash numSlots entries.reverse
    let prep := sort prep
    let (slots, final) ← fillSlotsOf mg prep.reverse (List.replicate numSlots ⟨mg.zero, mg.zero⟩) 0 []
    let mask ← csub slots.length 1
    .ok (.ok { slots := slots, entries := final, mask := mask })

/-- `HashTable::find` (core/hash_tables/decl_macros.rs l.4-30). -/
def TableOf.find (mg : MagImpl C) (t : TableOf C T) (hashCode : Nat) (eq : T → Bool) : Res (Option T) := do
  let slot ← getUnchecked t.slots (hashCode &&& t.mask)
  let min := mg.into slot.minIndex
  let max := mg.into slot.maxIndex
  let bucket ← getUncheckedRange t.entries min max
  match ← scanBucket eq bucket (max - min) 0 with
  | some ptr => do
    let e ← getUnchecked bucket ptr
    .ok (some e)
  | none => .ok none

/-- `HashTable::find_mut` (core/hash_tables/decl_macros.rs l.33-59). -/
def TableOf.findMut (mg : MagImpl C) (t : TableOf C T) (hashCode : Nat) (eq : T → Bool) : Res (Option Nat) := do
  let slot ← getUnchecked t.slots (hashCode &&& t.mask)
  let min := mg.into slot.minIndex
  let max := mg.into slot.maxIndex
  let bucket ← getUncheckedRange t.entries min max
  match ← scanBucket eq bucket (max - min) 0 with
  | some ptr => .ok (some (min + ptr))
  | none => .ok none

/-- `struct HashMap<K, V, CM, H>` (core/maps/hash_map.rs l.32-35). -/
structure HashMapOf (C K V : Type) where
  table : TableOf C (K × V)

/-- `HashMap::from_dedupped` (core/maps/hash_map.rs l.62-72). -/
def HashMapOf.fromDedupped [Target] (mg : MagImpl C) (sort : Sorter (K × V)) (hK : K → Res Nat) (entries : List (K × V)) :
    Res (Except String (HashMapOf C K V)) := do
  let _ ← hashAll hK entries
  let r ← TableOf.new mg sort entries (fun e => hashVal hK e.1)
  match r with
  | .ok t => .ok (.ok { table := t })
  | .error msg => .ok (.error msg)

/-- `HashMap::with_hasher` (core/maps/hash_map.rs l.47-54). -/
def HashMapOf.withHasher [Target] (mg : MagImpl C) (find : HbFind) (sort : Sorter (K × V)) (eqK : K → K → Bool)
    (hK : K → Res Nat) (entries : List (K × V)) : Res (Except String (HashMapOf C K V)) := do
  let _ ← hashAll hK entries
  let entries ← usingHash find entries (fun x => hashVal hK x.1) (fun x y => eqK x.1 y.1)
  HashMapOf.fromDedupped mg sort hK entries

/-- `get` (core/maps/decl_macros.rs l.284-292). -/
def HashMapOf.get (mg : MagImpl C) (hQ : Q → Res Nat) (eqv : Q → K → Bool) (m : HashMapOf C K V) (key : Q) : Res (Option V) := do
  let h ← hQ key
  let r ← m.table.find mg h (fun entry => eqv key entry.1)
  .ok (r.map (fun e => e.2))

/-- `get_mut` (core/maps/decl_macros.rs l.296-304). -/
def HashMapOf.getMut (mg : MagImpl C) (hQ : Q → Res Nat) (eqv : Q → K → Bool) (m : HashMapOf C K V) (key : Q) : Res (Option Nat) := do
  let h ← hQ key
  m.table.findMut mg h (fun entry => eqv key entry.1)

/-- `get_key_value` (core/maps/decl_macros.rs l.308-316). -/
def HashMapOf.getKeyValue (mg : MagImpl C) (hQ : Q → Res Nat) (eqv : Q → K → Bool) (m : HashMapOf C K V) (key : Q) :
    Res (Option (K × V)) := do
  let h ← hQ key
  let r ← m.table.find mg h (fun entry => eqv key entry.1)
  .ok (r.map (fun e => (e.1, e.2)))

/-- `contains_key` (core/maps/decl_macros.rs l.321-327). -/
def HashMapOf.containsKey (mg : MagImpl C) (hQ : Q → Res Nat) (eqv : Q → K → Bool) (m : HashMapOf C K V) (key : Q) : Res Bool := do
  let r ← m.get mg hQ eqv key
  .ok r.isSome

/-- The trait functions of `HashMap` (core/maps/hash_map.rs l.74-75, l.91-200). -/
def HashMapOf.impl (mg : MagImpl C) (hQ : Q → Res Nat) (eqv : Q → K → Bool) : MapImpl (HashMapOf C K V) Q K V where
  get := HashMapOf.get mg hQ eqv
  getMut := HashMapOf.getMut mg hQ eqv
  getKeyValue := HashMapOf.getKeyValue mg hQ eqv
  containsKey := HashMapOf.containsKey mg hQ eqv
  len m := m.table.entries.length
  entries m := m.table.entries
  write m i v := { m with table := { m.table with entries := writeAt m.table.entries i v } }

/-- `u8` as a magnitude (core/traits/collection_magnitude.rs l.16-19). -/
def u8Mag : MagImpl UInt8 := ⟨255, 0, fun n => if n < 256 then some (UInt8.ofNat n) else none, fun c => c.toNat⟩

end Frozen.Model
