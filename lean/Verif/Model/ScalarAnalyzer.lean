import Verif.Basic

/-!
# Model of `core/analyzers/scalar_key_analyzer.rs`
-/

namespace Frozen.Model

/-- `enum ScalarKeyAnalysisResult` (core/analyzers/scalar_key_analyzer.rs l.5-14). -/
inductive ScalarAnalysis where
  | general | denseRange | sparseRange
deriving DecidableEq, Repr

/-- `MAX_SPARSE_MULTIPLIER` (core/analyzers/scalar_key_analyzer.rs l.19). -/
def maxSparseMultiplier : Nat := 10

/-- `ALWAYS_SPARSE_THRESHOLD` (core/analyzers/scalar_key_analyzer.rs l.20). -/
def alwaysSparseThreshold : Nat := 128

/-- `usize::saturating_mul`. -/
def satMul [Target] (a b : Nat) : Nat := min (a * b) usizeMax

/-- The loop computing `min`, `max` and `count` (core/analyzers/scalar_key_analyzer.rs l.22-29).  `count` cannot
overflow because the keys come from a `Vec`. -/
def scalarScan [Target] (indices : List Nat) : Nat × Nat × Nat :=
  indices.foldl (fun (mn, mx, c) i => (min mn i, max mx i, c + 1)) (usizeMax, 0, 0)

/-- The decision on `needed_count` and `count` (core/analyzers/scalar_key_analyzer.rs l.36-42). -/
def scalarDecide [Target] (needed count : Nat) : ScalarAnalysis :=
  if needed = count then .denseRange
  else if needed ≤ alwaysSparseThreshold ∨ needed < satMul count maxSparseMultiplier then .sparseRange
  else .general

/-- `analyze_scalar_keys` (core/analyzers/scalar_key_analyzer.rs l.18-43), on the indices of the keys; the
arithmetic of `max - min + 1` follows the build mode. -/
def analyzeScalarKeys [Target] (b : Build) (indices : List Nat) : Res ScalarAnalysis :=
  let s := scalarScan indices
  if s.2.2 = 0 then .ok .general
  else do
    let d ← subM b s.2.1 s.1
    let needed ← addM b d 1
    .ok (scalarDecide needed s.2.2)

end Frozen.Model
