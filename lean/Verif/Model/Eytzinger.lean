import Verif.Basic

/-!
# Model of `core/utils/eytzinger.rs`
-/

namespace Frozen.Model

variable {T : Type _}

/-- `get_eytzinger_index` (core/utils/eytzinger.rs l.10-20), with overflow-checked subtractions
(including the shift amount `ipk - 1`). -/
def eytzingerIndex [Target] (originalIndex sliceLen : Nat) : Res Nat := do
  let ipk := trailingZeros (nextPow2 (originalIndex + 2))
  let sh ← csub ipk 1
  let li ← csub (originalIndex + 1) (1 <<< sh)
  let zk := li * 2 + 1
  let lastPowerOfTwo := nextPow2 (sliceLen + 2) / 2
  let y := (lastPowerOfTwo >>> sh) * zk
  let kp := y >>> 1
  let x := kp + lastPowerOfTwo
  let x := x - (sliceLen + 1) -- `saturating_sub`
  let r ← csub y x
  csub r 1

/-- `sorted_entries.swap(a, b)` (core/utils/eytzinger.rs l.29): panics out of range. -/
def swap (xs : List T) (a b : Nat) : Res (List T) := do
  let x ← idx xs a
  let y ← idx xs b
  .ok ((xs.set a y).set b x)

/-- The auxiliary `hashbrown::HashMap<usize, usize>` (core/utils/eytzinger.rs l.22) as an association list;
`remove` returns the value and the map without the key. -/
def auxRemove (m : List (Nat × Nat)) (k : Nat) : Option Nat × List (Nat × Nat) :=
  (m.lookup k, m.filter (fun e => e.1 != k))

/-- `map.insert(k, v)` (core/utils/eytzinger.rs l.36-37). -/
def auxInsert (m : List (Nat × Nat)) (k v : Nat) : List (Nat × Nat) :=
  (k, v) :: m.filter (fun e => e.1 != k)

/-- `if target < i { target = map.remove(&target).unwrap() }` (core/utils/eytzinger.rs l.25-27). -/
def relocate (target i0 : Nat) (map : List (Nat × Nat)) : Res (Nat × List (Nat × Nat)) :=
  if target < i0 then
    match auxRemove map target with
    | (some t, map) => .ok (t, map)
    | (none, _) => .error (.panic "called `Option::unwrap()` on a `None` value")
  else .ok (target, map)

/-- `if let Some(x) = map.remove(&i) { i = x }` (core/utils/eytzinger.rs l.31-33). -/
def displacedBy (i0 : Nat) (map : List (Nat × Nat)) : Nat × List (Nat × Nat) :=
  match auxRemove map i0 with
  | (some x, map) => (x, map)
  | (none, map) => (i0, map)

/-- `if target != i { map.insert(target, i); map.insert(i, target); }` (core/utils/eytzinger.rs l.35-38). -/
def recordSwap (target i : Nat) (map : List (Nat × Nat)) : List (Nat × Nat) :=
  if target ≠ i then auxInsert (auxInsert map target i) i target else map

/-- One iteration of the loop of `eytzinger_layout` (core/utils/eytzinger.rs l.23-39). -/
def layoutStep [Target] (i0 : Nat) (xs : List T) (map : List (Nat × Nat)) : Res (List T × List (Nat × Nat)) := do
  let target ← eytzingerIndex i0 xs.length
  let located ← relocate target i0 map
  let xs ← swap xs i0 located.1
  let hole := displacedBy i0 located.2
  .ok (xs, recordSwap located.1 hole.1 hole.2)

/-- The `for mut i in 0..len` loop (core/utils/eytzinger.rs l.23): `fuel` iterations remain, the next is `i`. -/
def layoutLoop [Target] : Nat → Nat → List T → List (Nat × Nat) → Res (List T)
  | 0, _, xs, _ => .ok xs
  | fuel + 1, i, xs, map => do
    let (xs, map) ← layoutStep i xs map
    layoutLoop fuel (i + 1) xs map

/-- `eytzinger_layout` (core/utils/eytzinger.rs l.9-40). -/
def eytzingerLayout [Target] (xs : List T) : Res (List T) := layoutLoop xs.length 0 xs []

/-- `order as usize` for `Ordering` with discriminants -1/0/1, followed by `(o >> 1) & 1`
(core/utils/eytzinger.rs l.57-58). The cast of -1 sign-extends to `usize::MAX`.  Written for 64 bits; by `orderBit_width` the result is the same on
every target. -/
def orderBit (o : Ordering) : Nat :=
  let asUsize : BitVec 64 := match o with
    | .lt => BitVec.ofInt 64 (-1)
    | .eq => 0#64
    | .gt => 1#64
  ((asUsize >>> 1) &&& 1#64).toNat

/-- The `loop` of `eytzinger_search_by` (core/utils/eytzinger.rs l.47-63).  The second component of the result counts
the comparisons made (not in the Rust code; used to state the cost bound). -/
def searchLoop (data : List T) (f : T → Ordering) (i : Nat) (steps : Nat) : Option Nat × Nat :=
  if h : i < data.length then
    let order := f data[i]
    if order == .eq then (some i, steps + 1)
    else searchLoop data f (2 * i + 1 + orderBit order) (steps + 1)
  else (none, steps)
termination_by data.length - i

/-- `eytzinger_search_by` (core/utils/eytzinger.rs l.46-64). -/
def eytzingerSearchBy (data : List T) (f : T → Ordering) : Option Nat := (searchLoop data f 0 0).1

/-- Number of calls of the comparison closure made by `eytzinger_search_by` (core/utils/eytzinger.rs l.51). -/
def eytzingerSearchCost (data : List T) (f : T → Ordering) : Nat := (searchLoop data f 0 0).2

end Frozen.Model
