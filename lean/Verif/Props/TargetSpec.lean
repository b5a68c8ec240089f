import Verif.Props.MacroSpec

/-! # Vocabulary for C57: code generated on one machine and run on another -/

namespace Frozen.Props

open Frozen.Spec Frozen.Model

variable {Q K V : Type}

/-- The hasher and the number of slots of a map that hashes. -/
def hasherOf (m : InlineMap K V) : Option (InlineHasher × Nat) :=
  match m.repr with
  | .hash h s => some (h, s.table.slots.length)
  | .hashNC h s => some (h, s.table.slots.length)
  | _ => none

/-- The query traits with other `FixedState` hash functions. -/
def withHash (t : QueryTraits Q K) (fs : Nat → Q → Nat) (fsl : Nat → Str → Nat) : QueryTraits Q K :=
  { t with fixedState := fs, fixedStateSlice := fsl }

/-- The emitted item compiles to a map that, on a target where `FixedState` hashes with `fs` and `fsl` instead of the host's
functions (those of `t`): if the map does not hash, answers as it should; if it does, finds the entry of a query exactly if host and target
hashes of the query select the same slot. -/
def EmitsOnTarget [Target] (t : QueryTraits Q K) (es : List (K × V)) (r : Res (Except String (Item (Emitted K V)))) : Prop :=
  ∃ item m, r = .ok (.ok item) ∧
    (∀ (F : Type) eq' cmp' (fz : FzKind → List (K × V) → Option (Res F)), item.ctor.compile eq' cmp' fz = some (.ok (.inl m))) ∧
    ∀ fs fsl,
      (hasherOf m = none → Lookups (InlineMap.impl (withHash t fs fsl)) m t.equivalent es) ∧
      ∀ h n, hasherOf m = some (h, n) → (∃ k, n = 2 ^ k) ∧
        ∀ q, ∃ a, h.hashOne t q = .ok a ∧ ∀ b, h.hashOne (withHash t fs fsl) q = .ok b →
          (InlineMap.impl (withHash t fs fsl)).get m q =
            .ok (if a % n = b % n then (lastMatch t.equivalent es q).map (fun e => e.2) else none)

/-- The literals of type `usize` in the types and in the constructor call: array lengths, bounds of the lookup range, and the
sub-range of a hasher.  (Those inside the tables are not greater than the number of entries.) -/
def usizeToks : Emitted K V → List Tok
  | .scanRaw len _ => [len]
  | .scanNew len _ => [len]
  | .eytzingerRaw len _ => [len]
  | .eytzingerNew len _ => [len]
  | .dense len _ min max => [len, min, max]
  | .sparse len numSlots _ _ _ min max => [len, numSlots, min, max]
  | .hash len numSlots _ _ _ hasher => [len, numSlots] ++ hasherToks hasher
  | .hashNC len numSlots _ _ _ hasher => [len, numSlots] ++ hasherToks hasher
  | .fz _ _ => []
where
  /-- The literals in the type of the hasher. -/
  hasherToks : HasherTok → List Tok
    | .left start stop _ => [start, stop]
    | .right start stop _ => [start, stop]
    | _ => []

/-- All `usize` literals fit a `usize` of `p` bits. -/
def FitsTarget (p : Nat) (e : Emitted K V) : Prop := ∀ tok ∈ usizeToks e, ∃ n, NumLit "usize" (2 ^ p - 1) tok n

/-- The map is one that `emit_scalar_collection` gives and that does not use the indices of the keys as positions: a map to scan, or one of the hash
maps, where the indices serve as hash codes. -/
def ScansOrHashes : Emitted K V → Prop
  | .scanRaw .. => True
  | .hash _ _ _ _ _ .scalar => True
  | .hashNC _ _ _ _ _ .scalar => True
  | _ => False

/-- The map is one of the two that use the indices of the keys as positions. -/
def IsLookup : Emitted K V → Prop
  | .dense .. => True
  | .sparse .. => True
  | _ => False

end Frozen.Props
