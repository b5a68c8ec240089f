/-!
# Faults and checked primitives

The vocabulary every model file uses: a fault type separating Rust panics from undefined
behaviour, and the checked / unchecked element accesses and arithmetic of Rust as functions
that return a fault instead of being totalised.
-/

namespace Frozen

/-- What can go wrong in the modelled Rust code.  `panic` is a Rust panic; `ub` is undefined
behaviour (an unchecked access outside its bounds).  (No single source line: this is the
outcome space of Rust execution.) -/
inductive Fault where
  | panic (msg : String)
  | ub (what : String)
deriving DecidableEq, Repr

/-- Outcome of a Rust computation: a value, a panic or undefined behaviour. -/
abbrev Res (α : Type _) := Except Fault α

instance {α : Type _} [DecidableEq α] : DecidableEq (Res α) := fun a b =>
  match a, b with
  | .ok x, .ok y => if h : x = y then isTrue (by rw [h]) else isFalse (by intro e; cases e; exact h rfl)
  | .error x, .error y => if h : x = y then isTrue (by rw [h]) else isFalse (by intro e; cases e; exact h rfl)
  | .ok _, .error _ => isFalse (by intro e; cases e)
  | .error _, .ok _ => isFalse (by intro e; cases e)

/-- The machine that the code is compiled for: the number of bits of a pointer and of `usize`.  The targets whose scalar types the crate knows are those
with 32 and with 64 bits (core/traits/scalar.rs l.71-87). -/
class Target where
  width : Nat
  ok : width = 32 ∨ width = 64

/-- The targets with 64 bits.  Not an instance: what holds on all targets is stated for all. -/
@[reducible] def w64 : Target := ⟨64, .inr rfl⟩

/-- The targets with 32 bits. -/
@[reducible] def w32 : Target := ⟨32, .inl rfl⟩

/-- `usize::MAX`. -/
def usizeMax [Target] : Nat := 2 ^ Target.width - 1

/-- The number of entries below which nothing overflows: `2^60` on targets with 64 bits, `2^28` on targets with 32 bits.  (There is no such limit in
/repo; it is the hypothesis about sizes of many theorems.) -/
def sizeLimit [Target] : Nat := 2 ^ (Target.width - 4)

/-- The number of entries below which the lookup tables of scalar maps can be allocated: `2^56` on targets with 64 bits, `2^24` on targets with 32
bits. -/
def tableLimit [Target] : Nat := 2 ^ (Target.width - 8)

/-- The number of bytes from which an allocation is refused: `isize::MAX + 1`. -/
def allocLimit [Target] : Nat := 2 ^ (Target.width - 1)

/-- The number of elements of type `usize` from which an allocation is refused. -/
def wordLimit [Target] : Nat := allocLimit / (Target.width / 8)

theorem target_cases [Target] :
    Target.width = 32 ∧ usizeMax = 4294967295 ∧ sizeLimit = 268435456 ∧ tableLimit = 16777216 ∧ allocLimit = 2147483648 ∧
      wordLimit = 536870912 ∨
    Target.width = 64 ∧ usizeMax = 18446744073709551615 ∧ sizeLimit = 1152921504606846976 ∧ tableLimit = 72057594037927936 ∧
      allocLimit = 9223372036854775808 ∧ wordLimit = 1152921504606846976 := by
  rcases Target.ok with h | h <;> simp [usizeMax, sizeLimit, tableLimit, allocLimit, wordLimit, h]

@[simp] theorem sizeLimit_pos [Target] : 0 < sizeLimit := by have := target_cases; omega
@[simp] theorem tableLimit_pos [Target] : 0 < tableLimit := by have := target_cases; omega
@[simp] theorem wordLimit_pos [Target] : 0 < wordLimit := by have := target_cases; omega
@[simp] theorem allocLimit_pos [Target] : 0 < allocLimit := by have := target_cases; omega

theorem limits_w64 : @usizeMax w64 = 18446744073709551615 ∧ @sizeLimit w64 = 1152921504606846976 ∧ @tableLimit w64 = 72057594037927936 ∧
    @allocLimit w64 = 9223372036854775808 ∧ @wordLimit w64 = 1152921504606846976 := ⟨rfl, rfl, rfl, rfl, rfl⟩

theorem usizeMax_succ [Target] : usizeMax + 1 = 2 ^ Target.width := Nat.sub_add_cancel Nat.one_le_two_pow

@[simp] theorem sizeLimit_w64 : @sizeLimit w64 = 2 ^ 60 := rfl
@[simp] theorem tableLimit_w64 : @tableLimit w64 = 2 ^ 56 := rfl
@[simp] theorem width_w64 : @Target.width w64 = 64 := rfl

/-- Bounds-checked indexing `xs[i]`: panics when out of range. -/
def idx {α : Type _} (xs : List α) (i : Nat) : Res α :=
  match xs[i]? with
  | some x => .ok x
  | none => .error (.panic "index out of bounds")

/-- Unchecked indexing `xs.get_unchecked(i)`: undefined behaviour when out of range. -/
def getUnchecked {α : Type _} (xs : List α) (i : Nat) : Res α :=
  match xs[i]? with
  | some x => .ok x
  | none => .error (.ub "get_unchecked out of bounds")

/-- Unchecked range `xs.get_unchecked(lo..hi)`: undefined behaviour unless `lo <= hi <= len`. -/
def getUncheckedRange {α : Type _} (xs : List α) (lo hi : Nat) : Res (List α) :=
  if lo ≤ hi ∧ hi ≤ xs.length then .ok ((xs.drop lo).take (hi - lo))
  else .error (.ub "get_unchecked range out of bounds")

/-- Checked range `&xs[lo..hi]`: panics unless `lo <= hi <= len`. -/
def idxRange {α : Type _} (xs : List α) (lo hi : Nat) : Res (List α) :=
  if lo ≤ hi ∧ hi ≤ xs.length then .ok ((xs.drop lo).take (hi - lo))
  else .error (.panic "range out of bounds")

/-- Bounds-checked store `xs[i] = v`: panics when out of range. -/
def setIdx {α : Type _} (xs : List α) (i : Nat) (v : α) : Res (List α) :=
  if i < xs.length then .ok (xs.set i v) else .error (.panic "index out of bounds")

/-- `a - b` on `usize` with overflow checks: panics on underflow. -/
def csub (a b : Nat) : Res Nat :=
  if b ≤ a then .ok (a - b) else .error (.panic "attempt to subtract with overflow")

/-- `a + b` on `usize` with overflow checks: panics on overflow. -/
def cadd [Target] (a b : Nat) : Res Nat :=
  if a + b ≤ usizeMax then .ok (a + b) else .error (.panic "attempt to add with overflow")

/-- `a * b` on `usize` with overflow checks: panics on overflow. -/
def cmul [Target] (a b : Nat) : Res Nat :=
  if a * b ≤ usizeMax then .ok (a * b) else .error (.panic "attempt to multiply with overflow")

/-- The two overflow behaviours of Rust integer arithmetic: `debug` (and `overflow-checks = on`) panics, `release`
wraps around. -/
inductive Build where
  | debug | release
deriving DecidableEq, Repr

/-- `a + b` on `usize` under the given build mode. -/
def addM [Target] (b : Build) (x y : Nat) : Res Nat :=
  if x + y ≤ usizeMax then .ok (x + y)
  else match b with
    | .debug => .error (.panic "attempt to add with overflow")
    | .release => .ok ((x + y) % 2 ^ Target.width)

/-- `a - b` on `usize` under the given build mode. -/
def subM [Target] (b : Build) (x y : Nat) : Res Nat :=
  if y ≤ x then .ok (x - y)
  else match b with
    | .debug => .error (.panic "attempt to subtract with overflow")
    | .release => .ok ((x + 2 ^ Target.width - y) % 2 ^ Target.width)

/-- `vec![0usize; n]`: panics when the allocation would exceed `isize::MAX` bytes (allocation failure below that
limit is not modelled). -/
def vecZeroed [Target] (n : Nat) : Res (List Nat) :=
  if n * (Target.width / 8) < allocLimit then .ok (List.replicate n 0) else .error (.panic "capacity overflow")

theorem vecZeroed_eq [Target] (n : Nat) :
    vecZeroed n = if n < wordLimit then .ok (List.replicate n 0) else .error (.panic "capacity overflow") := by
  unfold vecZeroed
  have h : n * (Target.width / 8) < allocLimit ↔ n < wordLimit := by
    rcases target_cases with ⟨hw, _, _, _, ha, hl⟩ | ⟨hw, _, _, _, ha, hl⟩ <;> rw [hw, ha, hl] <;> omega
  simp only [h]

/-- `usize::next_power_of_two`, following core's implementation
`if self <= 1 { 0 } else { MAX >> (self - 1).leading_zeros() } + 1`, i.e.
`2^(floor(log2 (self-1)) + 1)`; without the overflow for arguments above half of `usize::MAX` (the callers'
arguments are bounded by the length of a `Vec`). -/
def nextPow2 (n : Nat) : Nat := if n ≤ 1 then 1 else 2 ^ (Nat.log2 (n - 1) + 1)

/-- `usize::is_power_of_two`: exactly one bit set. -/
def isPow2 (n : Nat) : Bool := n != 0 && n &&& (n - 1) == 0

/-- `usize::trailing_zeros` (the number of bits for zero). -/
def trailingZeros [Target] (n : Nat) : Nat :=
  if n = 0 then Target.width else if n % 2 = 1 then 0 else 1 + trailingZeros (n / 2)
termination_by n
decreasing_by omega

end Frozen
