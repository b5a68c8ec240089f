import Verif.Model.Hashers

/-!
# Model of `core/analyzers/slice_key_analyzer.rs`

Slices are lists; `eqT` is the `Eq` of the element type and `bh` the `BuildHasher` applied to slices.
-/

namespace Frozen.Model

variable {T : Type}

/-- `enum SliceKeyAnalysisResult` (core/analyzers/slice_key_analyzer.rs l.12-24). -/
inductive SliceAnalysis where
  | general
  | left (range : Range)
  | right (range : Range)
  | length
deriving DecidableEq, Repr

/-- `ACCEPTABLE_DUPLICATE_RATIO` (core/analyzers/slice_key_analyzer.rs l.59, l.88). -/
def acceptableDuplicateRatio : Nat := 20

/-- `MAX_SUBSLICE_LENGTH_LIMIT` (core/analyzers/slice_key_analyzer.rs l.87). -/
def maxSubsliceLengthLimit : Nat := 16

/-- The loop of `analyze_lengths` (core/analyzers/slice_key_analyzer.rs l.63-76).  The `HashbrownMap<usize, usize>`
is an association list in which a newer binding shadows an older one. -/
def lengthsLoop (maxIdentical : Nat) : List (List T) → List (Nat × Nat) → SliceAnalysis
  | [], _ => .length
  | s :: rest, lengths =>
    match lengths.lookup s.length with
    | some count =>
      if count ≥ maxIdentical then .general
      else lengthsLoop maxIdentical rest ((s.length, count + 1) :: lengths)
    | none => lengthsLoop maxIdentical rest ((s.length, 1) :: lengths)

/-- `analyze_lengths` (core/analyzers/slice_key_analyzer.rs l.58-77). -/
def analyzeLengths (keys : List (List T)) : SliceAnalysis :=
  lengthsLoop (keys.length / acceptableDuplicateRatio) keys []

/-- `for i in 0..prefix_len { if s[i] != keys[0][i] { prefix_len = i; break; } }`
(core/analyzers/slice_key_analyzer.rs l.109-114); `fuel` iterations remain, the next one is `i`; the result is the new
`prefix_len`. -/
def prefixLoop (eqT : T → T → Bool) (s k0 : List T) (prefixLen : Nat) : Nat → Nat → Res Nat
  | 0, _ => .ok prefixLen
  | fuel + 1, i => do
    let a ← idx s i
    let c ← idx k0 i
    if eqT a c then prefixLoop eqT s k0 prefixLen fuel (i + 1) else .ok i

/-- `xs[xs.len() - i - 1]` (core/analyzers/slice_key_analyzer.rs l.117). -/
def idxFromEnd (xs : List T) (i : Nat) : Res T := do
  let a ← csub xs.length i
  let b ← csub a 1
  idx xs b

/-- The suffix loop (core/analyzers/slice_key_analyzer.rs l.116-121). -/
def suffixLoop (eqT : T → T → Bool) (s k0 : List T) (suffixLen : Nat) : Nat → Nat → Res Nat
  | 0, _ => .ok suffixLen
  | fuel + 1, i => do
    let a ← idxFromEnd s i
    let c ← idxFromEnd k0 i
    if eqT a c then suffixLoop eqT s k0 suffixLen fuel (i + 1) else .ok i

/-- The four measurements of `analyze_subslices` (core/analyzers/slice_key_analyzer.rs l.90-93). -/
structure SliceStats where
  minLen : Nat
  maxLen : Nat
  prefixLen : Nat
  suffixLen : Nat
deriving DecidableEq, Repr

/-- The loop that measures the keys (core/analyzers/slice_key_analyzer.rs l.95-122); `k0` is `keys[0]`. -/
def statsLoop (eqT : T → T → Bool) (k0 : List T) : List (List T) → SliceStats → Res SliceStats
  | [], st => .ok st
  | s :: rest, st => do
    let p := if s.length < st.prefixLen then s.length else st.prefixLen
    let u := if s.length < st.suffixLen then s.length else st.suffixLen
    let p' ← prefixLoop eqT s k0 p p 0
    let u' ← suffixLoop eqT s k0 u u 0
    statsLoop eqT k0 rest
      { minLen := min st.minLen s.length, maxLen := max st.maxLen s.length, prefixLen := p', suffixLen := u' }

/-- The sub-slice that `is_sufficiently_unique` hashes (core/analyzers/slice_key_analyzer.rs l.190-195). -/
def subslice (leftJustified : Bool) (subIndex subLen : Nat) (s : List T) : Res (List T) :=
  if leftJustified then idxRange s subIndex (subIndex + subLen)
  else do
    let a ← csub s.length subIndex
    let start ← csub a subLen
    idxRange s start (start + subLen)

/-- The loop of `is_sufficiently_unique` (core/analyzers/slice_key_analyzer.rs l.189-206).  `set` is the
`HashbrownSet<u64>` as a list. -/
def uniqueLoop (bh : List T → Nat) (leftJustified : Bool) (subIndex subLen : Nat) :
    List (List T) → List Nat → Nat → Res Bool
  | [], _, _ => .ok true
  | s :: rest, set, acceptable => do
    let sub ← subslice leftJustified subIndex subLen s
    if set.contains (bh sub) then
      if acceptable = 0 then .ok false
      else uniqueLoop bh leftJustified subIndex subLen rest set (acceptable - 1)
    else uniqueLoop bh leftJustified subIndex subLen rest (bh sub :: set) acceptable

/-- `is_sufficiently_unique` (core/analyzers/slice_key_analyzer.rs l.174-207). -/
def isSufficientlyUnique (bh : List T → Nat) (keys : List (List T)) (subIndex subLen : Nat) (leftJustified : Bool)
    (acceptable : Nat) : Res Bool :=
  uniqueLoop bh leftJustified subIndex subLen keys [] acceptable

/-- `while subslice_index <= min_len - subslice_len { .. subslice_index += 1 }`
(core/analyzers/slice_key_analyzer.rs l.138-148 and l.158-164): the first index that is sufficiently unique.
`limit` is `min_len - subslice_len`. -/
def searchIndex (bh : List T → Nat) (keys : List (List T)) (subLen : Nat) (leftJustified : Bool) (acceptable limit : Nat)
    (subIndex : Nat) : Res (Option Nat) :=
  if subIndex ≤ limit then do
    if ← isSufficientlyUnique bh keys subIndex subLen leftJustified acceptable then .ok (some subIndex)
    else searchIndex bh keys subLen leftJustified acceptable limit (subIndex + 1)
  else .ok none
termination_by limit + 1 - subIndex

/-- The right-justified search, done only if the lengths differ (core/analyzers/slice_key_analyzer.rs l.154-165). -/
def searchRight (bh : List T → Nat) (keys : List (List T)) (st : SliceStats) (acceptable subLen limit : Nat) :
    Res (Option Nat) :=
  if st.minLen ≠ st.maxLen then searchIndex bh keys subLen false acceptable limit st.suffixLen
  else .ok none

/-- The loop over sub-slice lengths (core/analyzers/slice_key_analyzer.rs l.133-171); `maxSubLen` is
`max_subslice_len`. -/
def subLenLoop (bh : List T → Nat) (keys : List (List T)) (st : SliceStats) (acceptable maxSubLen : Nat)
    (subLen : Nat) : Res SliceAnalysis :=
  if subLen ≤ maxSubLen then do
    let limit ← csub st.minLen subLen
    match ← searchIndex bh keys subLen true acceptable limit st.prefixLen with
    | some i => .ok (if subLen = st.maxLen then .general else .left ⟨i, i + subLen⟩)
    | none =>
      match ← searchRight bh keys st acceptable subLen limit with
      | some i => .ok (.right ⟨i, i + subLen⟩)
      | none => subLenLoop bh keys st acceptable maxSubLen (subLen + 1)
  else .ok .general
termination_by maxSubLen + 1 - subLen

/-- `analyze_subslices` (core/analyzers/slice_key_analyzer.rs l.81-172).  `keys[0]` is only evaluated inside the loop
over the keys, so for an empty `keys` the default given to `headD` is never used. -/
def analyzeSubslices [Target] (eqT : T → T → Bool) (bh : List T → Nat) (keys : List (List T)) : Res SliceAnalysis := do
  let st ← statsLoop eqT (keys.headD []) keys
    { minLen := usizeMax, maxLen := 0, prefixLen := usizeMax, suffixLen := usizeMax }
  subLenLoop bh keys st (keys.length / acceptableDuplicateRatio) (min st.minLen maxSubsliceLengthLimit) 1

/-- `analyze_slice_keys` (core/analyzers/slice_key_analyzer.rs l.38-55). -/
def analyzeSliceKeys [Target] (eqT : T → T → Bool) (bh : List T → Nat) (keys : List (List T)) : Res SliceAnalysis :=
  match analyzeLengths keys with
  | .general => analyzeSubslices eqT bh keys
  | r => .ok r

end Frozen.Model
