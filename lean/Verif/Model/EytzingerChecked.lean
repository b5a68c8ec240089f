import Verif.Model.Eytzinger

/-!
# Model of the arithmetic of `core/utils/eytzinger.rs`

`Model/Eytzinger` checks the subtractions of the layout and takes its sums, products, shifts and powers of two over the natural numbers.  Here the
same functions are written with every operation on `usize` as the machine does it, in both build modes.
-/

namespace Frozen.Model

variable {T : Type _}

/-- `a * b` on `usize` under the given build mode (the products of core/utils/eytzinger.rs l.13, 15). -/
def mulM [Target] (b : Build) (x y : Nat) : Res Nat :=
  if x * y ≤ usizeMax then .ok (x * y)
  else match b with
    | .debug => .error (.panic "attempt to multiply with overflow")
    | .release => .ok (x * y % 2 ^ Target.width)

/-- `a << s` on `usize` under the given build mode: shifts by the width or more panic or are masked (core/utils/eytzinger.rs l.12). -/
def shlM [Target] (b : Build) (x s : Nat) : Res Nat :=
  if s < Target.width then .ok ((x <<< s) % 2 ^ Target.width)
  else match b with
    | .debug => .error (.panic "attempt to shift left with overflow")
    | .release => .ok ((x <<< (s % Target.width)) % 2 ^ Target.width)

/-- `a >> s` on `usize` under the given build mode (core/utils/eytzinger.rs l.15). -/
def shrM [Target] (b : Build) (x s : Nat) : Res Nat :=
  if s < Target.width then .ok (x >>> s)
  else match b with
    | .debug => .error (.panic "attempt to shift right with overflow")
    | .release => .ok (x >>> (s % Target.width))

/-- `usize::next_power_of_two` under the given build mode: panics or gives 0 when the power does not fit (core/utils/eytzinger.rs l.11, 14). -/
def nextPow2M [Target] (b : Build) (n : Nat) : Res Nat :=
  if nextPow2 n ≤ usizeMax then .ok (nextPow2 n)
  else match b with
    | .debug => .error (.panic "attempt to add with overflow")
    | .release => .ok 0

/-- `get_eytzinger_index` (core/utils/eytzinger.rs l.10-20), operation by operation.  The divisor 2, the shift by 1 and `saturating_sub` cannot
overflow. -/
def eytzingerIndexM [Target] (b : Build) (originalIndex sliceLen : Nat) : Res Nat := do
  let i2 ← addM b originalIndex 2
  let p ← nextPow2M b i2
  let ipk := trailingZeros p
  let i1 ← addM b originalIndex 1
  let s1 ← subM b ipk 1
  let first ← shlM b 1 s1
  let li ← subM b i1 first
  let li2 ← mulM b li 2
  let zk ← addM b li2 1
  let n2 ← addM b sliceLen 2
  let q ← nextPow2M b n2
  let lastPowerOfTwo := q / 2
  let s2 ← subM b ipk 1
  let w ← shrM b lastPowerOfTwo s2
  let y ← mulM b w zk
  let kp := y >>> 1
  let x ← addM b kp lastPowerOfTwo
  let n1 ← addM b sliceLen 1
  let x := x - n1 -- `saturating_sub`
  let r ← subM b y x
  subM b r 1

/-- One iteration of the loop of `eytzinger_layout` (core/utils/eytzinger.rs l.23-39). -/
def layoutStepM [Target] (b : Build) (i0 : Nat) (xs : List T) (map : List (Nat × Nat)) : Res (List T × List (Nat × Nat)) := do
  let target ← eytzingerIndexM b i0 xs.length
  let located ← relocate target i0 map
  let xs ← swap xs i0 located.1
  let hole := displacedBy i0 located.2
  .ok (xs, recordSwap located.1 hole.1 hole.2)

/-- The `for mut i in 0..len` loop (core/utils/eytzinger.rs l.23): `fuel` iterations remain, the next is `i`. -/
def layoutLoopM [Target] (b : Build) : Nat → Nat → List T → List (Nat × Nat) → Res (List T)
  | 0, _, xs, _ => .ok xs
  | fuel + 1, i, xs, map => do
    let (xs, map) ← layoutStepM b i xs map
    layoutLoopM b fuel (i + 1) xs map

/-- `eytzinger_layout` (core/utils/eytzinger.rs l.9-40). -/
def eytzingerLayoutM [Target] (b : Build) (xs : List T) : Res (List T) := layoutLoopM b xs.length 0 xs []

/-- The `loop` of `eytzinger_search_by` (core/utils/eytzinger.rs l.47-63) in a build with overflow checks.  The check is on the whole sum
`2 * i + 1 + o`: the product and the first sum are smaller. -/
def searchLoopChecked [Target] (data : List T) (f : T → Ordering) (i : Nat) : Res (Option Nat) :=
  if h : i < data.length then
    let order := f data[i]
    if order == .eq then .ok (some i)
    else if 2 * i + 1 + orderBit order ≤ usizeMax then searchLoopChecked data f (2 * i + 1 + orderBit order)
    else .error (.panic "attempt to add with overflow")
  else .ok none
termination_by data.length - i

end Frozen.Model
