import Verif.Basic

/-!
# Model of `core/utils/dedup.rs`

Removal of duplicate entries, keeping the last one.  `DeduppedVec<T>` and
`SortedAndDeduppedVec<T>` (l.11-13, l.113-115) are plain lists here.
-/

namespace Frozen.Model

variable {T : Type _}

/-- `entries.retain(|_| { let r = !dupes.contains(&index); index += 1; r })`
(core/utils/dedup.rs l.30-35, l.66-71, l.131-136).  `index` is the running counter. -/
def retainNotIn (dupes : List Nat) : List T → Nat → List T
  | [], _ => []
  | x :: xs, index =>
    if dupes.contains index then retainNotIn dupes xs (index + 1)
    else x :: retainNotIn dupes xs (index + 1)

/-- The nested loops of `using_eq` (core/utils/dedup.rs l.19-27): for each `i`, look for the first
later `j` with `cmp(entries[i], entries[j])` and then record `i`.  Simplified: the suffix starting at
`i` is passed instead of indices, so the in-range accesses `s0[i]`, `s1[0]` are list heads. -/
def usingEqDupes (cmp : T → T → Bool) : List T → Nat → List Nat
  | [], _ => []
  | x :: xs, i => if xs.any (cmp x) then i :: usingEqDupes cmp xs (i + 1) else usingEqDupes cmp xs (i + 1)

/-- `DeduppedVec::using_eq` (core/utils/dedup.rs l.16-40). The `HashbrownSet` of indices is a list. -/
def usingEq (entries : List T) (cmp : T → T → Bool) : List T :=
  if entries.length ≥ 2 then
    let dupes := usingEqDupes cmp entries 0
    if dupes.isEmpty then entries else retainNotIn dupes entries 0
  else entries

/-- The loop of `SortedAndDeduppedVec::new` over adjacent pairs
(core/utils/dedup.rs l.123-128), recording `i` when `entries[i]` and `entries[i+1]` compare equal.
Simplified: the suffix starting at `i` is passed instead of indices. -/
def adjacentDupes (cmp : T → T → Ordering) : List T → Nat → List Nat
  | x :: y :: xs, i =>
    if cmp x y == .eq then i :: adjacentDupes cmp (y :: xs) (i + 1) else adjacentDupes cmp (y :: xs) (i + 1)
  | _, _ => []

/-- `SortedAndDeduppedVec::new` (core/utils/dedup.rs l.118-141).  `sort_by` is a stable sort and is
modelled by core Lean's stable `List.mergeSort`. -/
def sortedAndDedupped (entries : List T) (cmp : T → T → Ordering) : List T :=
  let entries := entries.mergeSort (fun x y => cmp x y != .gt)
  if entries.length ≥ 2 then
    let dupes := adjacentDupes cmp entries 0
    if dupes.isEmpty then entries else retainNotIn dupes entries 0
  else entries

/-- `DeduppedVec::using_cmp` (core/utils/dedup.rs l.42-45). -/
def usingCmp (entries : List T) (cmp : T → T → Ordering) : List T := sortedAndDedupped entries cmp

/-- `hashbrown::HashTable::find_entry` as an arbitrary function of the step number (so that it may depend on
the whole history of the table), the current contents as `(hash, value)` pairs, the hash searched
for and the predicate (used at core/utils/dedup.rs l.54). -/
abbrev HbFind := Nat → List (Nat × Nat) → Nat → (Nat → Bool) → Option Nat

/-- The documented contract of `hashbrown::HashTable::find_entry`: a hit is a stored value satisfying the
predicate; a miss means that no value stored under this very hash satisfies the predicate.  (Values
stored under other hashes may or may not be offered to the predicate.) -/
structure HbFindOk (find : HbFind) : Prop where
  hit : ∀ step tbl h p v, find step tbl h p = some v → (∃ h', (h', v) ∈ tbl) ∧ p v = true
  miss : ∀ step tbl h p, find step tbl h p = none → ∀ v, (h, v) ∈ tbl → p v = false

/-- The loop of `using_hash` (core/utils/dedup.rs l.51-61).  `rest` are the values not yet visited,
`index` the enumeration counter, `keep` the contents of the `HashbrownTable`, `dupes` the vector of
positions to drop.  `find_entry`'s predicate and `insert_unique`'s rehash closure evaluate `entries[*other]` on stored
positions of hashbrown's choice, so the model panics as soon as *any* stored position is out of range. -/
def usingHashLoop (find : HbFind) (hasher : T → Nat) (eq : T → T → Bool) (entries : List T) :
    List T → Nat → List (Nat × Nat) → List Nat → Res (List Nat)
  | [], _, _, dupes => .ok dupes
  | value :: rest, index, keep, dupes =>
    if keep.all (fun e => e.2 < entries.length) then
      match find index keep (hasher value) (fun other => (entries[other]?).any (eq value)) with
      | some other =>
        usingHashLoop find hasher eq entries rest (index + 1)
          ((hasher value, index) :: keep.filter (fun e => e.2 != other)) (dupes ++ [other])
      | none =>
        usingHashLoop find hasher eq entries rest (index + 1) ((hasher value, index) :: keep) dupes
    else .error (.panic "index out of bounds")

/-- `DeduppedVec::using_hash` (core/utils/dedup.rs l.47-76). -/
def usingHash (find : HbFind) (entries : List T) (hasher : T → Nat) (eq : T → T → Bool) : Res (List T) :=
  if entries.length ≥ 2 then do
    let dupes ← usingHashLoop find hasher eq entries entries 0 [] []
    .ok (if dupes.isEmpty then entries else retainNotIn dupes entries 0)
  else .ok entries

/-- `DeduppedVec::into_array` (core/utils/dedup.rs l.86-90): panics unless the length is `n`. -/
def intoArray (entries : List T) (n : Nat) : Res (List T) :=
  if entries.length = n then .ok entries
  else .error (.panic s!"Cannot convert to array of size {n}: length mismatch")

/-- Inner loop of `has_duplicates` (core/utils/dedup.rs l.178-182): compare `values[j]`, `j` in `0..i`,
with `values[i]`. -/
def hasDupBefore (eq : T → T → Bool) (values : List T) (vi : T) : Nat → Nat → Res Bool
  | 0, _ => .ok false
  | fuel + 1, j => do
    let vj ← idx values j
    if eq vj vi then .ok true else hasDupBefore eq values vi fuel (j + 1)

/-- Outer loop of `has_duplicates` (core/utils/dedup.rs l.177-185); `fuel` is the number of
remaining iterations of the `for i in 0..len` loop. -/
def hasDupLoop (eq : T → T → Bool) (values : List T) : Nat → Nat → Res Bool
  | 0, _ => .ok false
  | fuel + 1, i => do
    let vi ← idx values i
    if ← hasDupBefore eq values vi i 0 then .ok true else hasDupLoop eq values fuel (i + 1)

/-- `has_duplicates` (core/utils/dedup.rs l.173-186). -/
def hasDuplicates (eq : T → T → Bool) (values : List T) : Res Bool :=
  hasDupLoop eq values values.length 0

end Frozen.Model
