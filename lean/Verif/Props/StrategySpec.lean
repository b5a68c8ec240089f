import Verif.Props.MacroSpec
import Mathlib.Data.Finset.Card
import Mathlib.Data.Finset.Image

/-!
# Specification of the choice of the implementation strategy

The strategies are those listed in the documentation of the crate (frozen-collections/src/lib.rs l.195-229).  The choice is
described by the set of keys only: no function of the analysers is mentioned.
-/

namespace Frozen.Props

open Frozen.Model

variable {K V T : Type}

/-- An implementation strategy. -/
inductive Strategy where
  | linearScan | orderedScan | denseLookup | sparseLookup | scalarAsHash | lengthAsHash
  /-- hashing the bytes at positions `lo..hi`, counted from the left -/
  | leftSubstring (lo hi : Nat)
  /-- hashing the bytes at positions `lo..hi`, counted from the right end -/
  | rightSubstring (lo hi : Nat)
  | classicHashing | binarySearch | eytzinger
  /-- the code calls the constructor of a run-time type, which chooses when the program runs -/
  | atRunTime (kind : FzKind)

/-- The strategy of a hash table is determined by its hasher. -/
def HasherUses [Target] : HasherTok → Strategy → Prop
  | .bridge _, s => s = .classicHashing
  | .scalar, s => s = .scalarAsHash
  | .length, s => s = .lengthAsHash
  | .left start stop _, s => ∃ lo hi, UsizeLit start lo ∧ UsizeLit stop hi ∧ s = .leftSubstring lo hi
  | .right start stop _, s => ∃ lo hi, UsizeLit start lo ∧ UsizeLit stop hi ∧ s = .rightSubstring lo hi

/-- The strategy of an emitted collection. -/
def Uses [Target] : Emitted K V → Strategy → Prop
  | .scanRaw _ _, s => s = .linearScan
  | .scanNew _ _, s => s = .linearScan
  | .eytzingerRaw _ _, s => s = .eytzinger
  | .eytzingerNew _ _, s => s = .eytzinger
  | .dense _ _ _ _, s => s = .denseLookup
  | .sparse _ _ _ _ _ _ _, s => s = .sparseLookup
  | .hash _ _ _ _ _ h, s => HasherUses h s
  | .hashNC _ _ _ _ _ h, s => HasherUses h s
  | .fz kind _, s => s = .atRunTime kind

/-! ## Integers and enums -/

/-- The numbers form a contiguous range. -/
def Filled (D : Finset Nat) : Prop := ∀ x ∈ D, ∀ y ∈ D, ∀ c, x ≤ c → c ≤ y → c ∈ D

/-- The range of the numbers has at most 128 elements, or fewer than ten times as many elements as there are numbers. -/
def Narrow (D : Finset Nat) : Prop :=
  (∀ x ∈ D, ∀ y ∈ D, y - x + 1 ≤ 128) ∨ ∀ x ∈ D, ∀ y ∈ D, y - x + 1 < 10 * D.card

/-- The strategy for distinct scalar keys `D`; collections with fewer than `small` keys are scanned rather than hashed. -/
inductive ScalarStrategy (small : Nat) (D : Finset Nat) : Strategy → Prop where
  | dense (h : Filled D) : ScalarStrategy small D .denseLookup
  | sparse (h : ¬ Filled D) (hn : Narrow D) : ScalarStrategy small D .sparseLookup
  | scan (h : ¬ Filled D) (hn : ¬ Narrow D) (hs : D.card < small) : ScalarStrategy small D .linearScan
  | hash (h : ¬ Filled D) (hn : ¬ Narrow D) (hs : small ≤ D.card) : ScalarStrategy small D .scalarAsHash

/-! ## Strings -/

/-- The bytes at positions `lo..hi`, counted from the left or from the right end. -/
def bytesAt (left : Bool) (lo hi : Nat) (s : List T) : List T :=
  if left then (s.take hi).drop lo else ((s.reverse.take hi).drop lo).reverse

/-- The lengths of the keys are good hash codes: every length occurs once, or for at most 5% of the keys. -/
def LengthsTell [DecidableEq T] (D : Finset (List T)) : Prop :=
  ∀ n, (D.filter (fun k => k.length = n)).card ≤ max 1 (D.card / 20)

/-- The bytes at `lo..hi` exist in all keys and are different, except for 5% of the keys. -/
def PartTells [DecidableEq T] (D : Finset (List T)) (left : Bool) (lo hi : Nat) : Prop :=
  lo < hi ∧ (∀ k ∈ D, hi ≤ k.length) ∧ D.card ≤ (D.image (bytesAt left lo hi)).card + D.card / 20

/-- A part of at most 16 bytes such that no shorter part, counted from either end, would do. -/
def ShortestPart [DecidableEq T] (D : Finset (List T)) (left : Bool) (lo hi : Nat) : Prop :=
  PartTells D left lo hi ∧ hi - lo ≤ 16 ∧ ∀ left' lo' hi', PartTells D left' lo' hi' → hi - lo ≤ hi' - lo'

/-- The strategy for distinct string keys `D`; collections with fewer than `small` keys are scanned. -/
inductive StringStrategy [DecidableEq T] (small : Nat) (D : Finset (List T)) : Strategy → Prop where
  | scan (h : D.card < small) : StringStrategy small D .linearScan
  | length (h : small ≤ D.card) (hl : LengthsTell D) : StringStrategy small D .lengthAsHash
  | left {lo hi : Nat} (h : small ≤ D.card) (hl : ¬ LengthsTell D) (hp : ShortestPart D true lo hi)
      (hw : ¬ ∀ k ∈ D, k.length = hi - lo) : StringStrategy small D (.leftSubstring lo hi)
  | right {lo hi : Nat} (h : small ≤ D.card) (hl : ¬ LengthsTell D) (hp : ShortestPart D false lo hi)
      (hn : ∀ lo' hi', ¬ ShortestPart D true lo' hi') : StringStrategy small D (.rightSubstring lo hi)
  | classic (h : small ≤ D.card) (hl : ¬ LengthsTell D)
      (hw : ∀ left lo hi, ShortestPart D left lo hi → ∀ k ∈ D, k.length = hi - lo) : StringStrategy small D .classicHashing

/-- The hash function does not collide on corresponding parts of the keys. -/
def PartsHashApart (bh : List T → Nat) (D : Finset (List T)) : Prop :=
  ∀ left lo hi, (∀ k ∈ D, hi ≤ k.length) → ∀ s ∈ D, ∀ t ∈ D,
    bh (bytesAt left lo hi s) = bh (bytesAt left lo hi t) → bytesAt left lo hi s = bytesAt left lo hi t

/-! ## The run-time types -/

/-- The strategy of a run-time scalar map. -/
def ScalarMapUses : FzScalarMap K V → Strategy → Prop
  | .hash _, s => s = .scalarAsHash
  | .dense _, s => s = .denseLookup
  | .sparse _, s => s = .sparseLookup

/-- The strategy of a run-time string map. -/
def StringMapUses : FzStringMap V → Strategy → Prop
  | .leftRange r _, s => s = .leftSubstring r.lo r.hi
  | .rightRange r _, s => s = .rightSubstring r.lo r.hi
  | .hash _, s => s = .classicHashing

end Frozen.Props
