import Verif.Basic

/-!
# Model of `core/hashers/*.rs`

A `BuildHasher` is the function it computes: `bh : List T → Nat` on slices, any function on other types.
Hash codes are natural numbers (below `2^64` in Rust; nothing depends on the bound).
-/

namespace Frozen.Model

variable {T : Type}

/-- `struct Range<usize>` as used by the range hashers and the slice analyzer. -/
structure Range where
  lo : Nat
  hi : Nat
deriving DecidableEq, Repr

/-- `BridgeHasher::hash_one` (core/hashers/bridge_hasher.rs l.26-29). -/
def bridgeHash {K : Type} (bh : K → Nat) (value : K) : Res Nat := .ok (bh value)

/-- `LeftRangeHasher::hash_one` on slices (core/hashers/left_range_hasher.rs l.29-36); the `str` and `AsRef<str>`
impls (l.43-52, l.60-69) do the same on the bytes of the string. -/
def leftRangeHash (bh : List T → Nat) (range : Range) (value : List T) : Res Nat :=
  if value.length < range.hi then .ok 0
  else do
    let s ← idxRange value range.lo range.hi
    .ok (bh s)

/-- `RightRangeHasher::hash_one` on slices (core/hashers/right_range_hasher.rs l.30-38); the `str` and
`AsRef<str>` impls (l.46-55, l.64-74) do the same on the bytes of the string. -/
def rightRangeHash (bh : List T → Nat) (range : Range) (value : List T) : Res Nat :=
  if value.length < range.hi then .ok 0
  else do
    let lo ← csub value.length range.hi
    let hi ← csub value.length range.lo
    let s ← idxRange value lo hi
    .ok (bh s)

/-- `InlineLeftRangeHasher::hash_one` (core/hashers/inline_left_range_hasher.rs l.28-35, l.43-51, l.60-68), with the
const generics as arguments. -/
def inlineLeftRangeHash (rangeStart rangeEnd : Nat) (bh : List T → Nat) (value : List T) : Res Nat :=
  if value.length < rangeEnd then .ok 0
  else do
    let s ← idxRange value rangeStart rangeEnd
    .ok (bh s)

/-- `InlineRightRangeHasher::hash_one` (core/hashers/inline_right_range_hasher.rs l.28-36, l.44-53, l.62-71). -/
def inlineRightRangeHash (rangeStart rangeEnd : Nat) (bh : List T → Nat) (value : List T) : Res Nat :=
  if value.length < rangeEnd then .ok 0
  else do
    let lo ← csub value.length rangeEnd
    let hi ← csub value.length rangeStart
    let s ← idxRange value lo hi
    .ok (bh s)

/-- `LengthHasher::hash_one` (core/hashers/length_hasher.rs l.14-17). -/
def lengthHash (value : List T) : Res Nat := .ok value.length

/-- `ScalarHasher::hash_one` (core/hashers/scalar_hasher.rs l.14-17); `index` is `Scalar::index`. -/
def scalarHash {K : Type} (index : K → Nat) (value : K) : Res Nat := .ok (index value)

end Frozen.Model
