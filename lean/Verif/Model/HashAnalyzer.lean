import Verif.Basic

/-!
# Model of `core/utils/bitvec.rs` and `core/analyzers/hash_code_analyzer.rs`
-/

namespace Frozen.Model

/-- `struct BitVec` (core/utils/bitvec.rs l.6-9). -/
structure BitSet where
  bits : List (BitVec 64)
  len : Nat
deriving DecidableEq, Repr

/-- `BitVec::with_capacity` (core/utils/bitvec.rs l.12-17).  Note that the words are initialised with
`0, 1, 2, ...`, not with zero. -/
def BitSet.withCapacity (capacity : Nat) : BitSet :=
  { bits := (List.range ((capacity + 63) / 64)).map (BitVec.ofNat 64), len := capacity }

/-- `BitVec::clear_all` (core/utils/bitvec.rs l.19-21). -/
def BitSet.clearAll (b : BitSet) : BitSet := { b with bits := List.replicate b.bits.length 0#64 }

/-- `BitVec::set` (core/utils/bitvec.rs l.23-27), with the debug assertion and the bounds check. -/
def BitSet.set (b : BitSet) (index : Nat) : Res BitSet := do
  if index < b.len then
    let w ← idx b.bits (index / 64)
    let bits ← setIdx b.bits (index / 64) (w ||| (1#64 <<< (index % 64)))
    .ok { b with bits := bits }
  else .error (.panic "Out of bounds")

/-- `BitVec::get` (core/utils/bitvec.rs l.29-33), with the debug assertion and the bounds check. -/
def BitSet.get (b : BitSet) (index : Nat) : Res Bool := do
  if index < b.len then
    let w ← idx b.bits (index / 64)
    .ok ((w &&& (1#64 <<< (index % 64))) != 0#64)
  else .error (.panic "Out of bounds")

/-- `code % (num_slots as u64)`: panics when the divisor is zero
(core/analyzers/hash_code_analyzer.rs l.73, core/hash_tables/hash_table.rs l.56). -/
def cmod (a b : Nat) : Res Nat :=
  if b = 0 then .error (.panic "attempt to calculate the remainder with a divisor of zero") else .ok (a % b)

/-- The inner loop over the hash codes (core/analyzers/hash_code_analyzer.rs l.71-83): count
collisions, giving up once `best` is reached. -/
def countCollisions (numSlots best : Nat) : List Nat → BitSet → Nat → Res (BitSet × Nat)
  | [], tbl, coll => .ok (tbl, coll)
  | code :: rest, tbl, coll => do
    let slot ← cmod code numSlots
    if ← tbl.get slot then
      if coll + 1 ≥ best then .ok (tbl, coll + 1)
      else countCollisions numSlots best rest tbl (coll + 1)
    else
      let tbl ← tbl.set slot
      countCollisions numSlots best rest tbl coll

theorem lt_nextPow2_succ (n : Nat) : n < nextPow2 (n + 1) := by
  unfold nextPow2
  split
  · omega
  · rename_i h
    have : n ≠ 0 := by omega
    simpa using Nat.lt_log2_self (n := n)

/-- The search loop over table sizes (core/analyzers/hash_code_analyzer.rs l.67-105).  The loop state is
`(use_table, best_num_slots, best_num_collisions, acceptable_collisions, num_slots)`. -/
def analyzeLoop (codes : List Nat) (maxSize : Nat) (tbl : BitSet)
    (bestSlots bestColl acceptable numSlots : Nat) : Res (Nat × Nat) :=
  if numSlots ≤ maxSize then do
    let (tbl, coll) ← countCollisions numSlots bestColl codes tbl.clearAll 0
    if coll < bestColl then
      let take := bestSlots = 0 ∨ coll ≤ acceptable
      let bestColl' := if take then coll else bestColl
      let bestSlots' := if take then numSlots else bestSlots
      if coll ≤ acceptable then .ok (bestSlots', bestColl')
      else
        analyzeLoop codes maxSize tbl bestSlots' bestColl'
          (if acceptable > 0 then acceptable / 100 * 20 else acceptable) (nextPow2 (numSlots + 1))
    else
      analyzeLoop codes maxSize tbl bestSlots bestColl
        (if acceptable > 0 then acceptable / 100 * 20 else acceptable) (nextPow2 (numSlots + 1))
  else .ok (bestSlots, bestColl)
termination_by maxSize + 1 - numSlots
decreasing_by
  all_goals
    have := lt_nextPow2_succ numSlots
    omega

/-- Rounding to a power of two (core/analyzers/hash_code_analyzer.rs l.44-46, l.57-59). -/
def roundPow2 (n : Nat) : Nat := if isPow2 n then n else nextPow2 n

/-- `analyze_hash_codes` (core/analyzers/hash_code_analyzer.rs l.18-111); the result pair is
`(num_hash_slots, num_hash_collisions)`. Arithmetic is overflow-checked. -/
def analyzeHashCodes [Target] (codes : List Nat) : Res (Nat × Nat) := do
  let n := codes.length
  let acceptable := if n < 128 then 0 else n / 100 * 5
  let minSize ← csub n acceptable
  let minSize := roundPow2 minSize
  let maxSize ← cmul n (if n < 128 then 10 else if n < 1000 then 7 else 3)
  let maxSize := roundPow2 maxSize
  analyzeLoop codes maxSize (BitSet.withCapacity maxSize) 0 n acceptable minSize

end Frozen.Model
