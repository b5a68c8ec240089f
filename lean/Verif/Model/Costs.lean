import Verif.Model.FzMaps

/-!
# The work done while building collections

The loops of the key analyzers and of duplicate removal transcribed once more, this time recording the work they do: the
pairs of elements compared, the sub-slices hashed, the hash codes looked at and the positions compared.  The Rust
sources are those of `Model/SliceAnalyzer.lean`, `Model/HashAnalyzer.lean` and `Model/Dedup.lean`; `Lemmas/Costs.lean` shows
that forgetting the record gives back the functions defined there.
-/

namespace Frozen.Model

variable {T : Type}

/-! ## Analysis of slice keys -/

/-- The prefix loop (core/analyzers/slice_key_analyzer.rs l.109-114) with the pairs of elements compared in l.110. -/
def prefixLoopT (eqT : T → T → Bool) (s k0 : List T) (prefixLen : Nat) : Nat → Nat → Res (Nat × List (T × T))
  | 0, _ => .ok (prefixLen, [])
  | fuel + 1, i => do
    let a ← idx s i
    let c ← idx k0 i
    if eqT a c then do
      let r ← prefixLoopT eqT s k0 prefixLen fuel (i + 1)
      .ok (r.1, (a, c) :: r.2)
    else .ok (i, [(a, c)])

/-- The suffix loop (core/analyzers/slice_key_analyzer.rs l.116-121) with the pairs of elements compared in l.117. -/
def suffixLoopT (eqT : T → T → Bool) (s k0 : List T) (suffixLen : Nat) : Nat → Nat → Res (Nat × List (T × T))
  | 0, _ => .ok (suffixLen, [])
  | fuel + 1, i => do
    let a ← idxFromEnd s i
    let c ← idxFromEnd k0 i
    if eqT a c then do
      let r ← suffixLoopT eqT s k0 suffixLen fuel (i + 1)
      .ok (r.1, (a, c) :: r.2)
    else .ok (i, [(a, c)])

/-- The loop that measures the keys (core/analyzers/slice_key_analyzer.rs l.95-122) with the pairs of elements
compared. -/
def statsLoopT (eqT : T → T → Bool) (k0 : List T) : List (List T) → SliceStats → Res (SliceStats × List (T × T))
  | [], st => .ok (st, [])
  | s :: rest, st => do
    let p := if s.length < st.prefixLen then s.length else st.prefixLen
    let u := if s.length < st.suffixLen then s.length else st.suffixLen
    let p' ← prefixLoopT eqT s k0 p p 0
    let u' ← suffixLoopT eqT s k0 u u 0
    let r ← statsLoopT eqT k0 rest
      { minLen := min st.minLen s.length, maxLen := max st.maxLen s.length, prefixLen := p'.1, suffixLen := u'.1 }
    .ok (r.1, p'.2 ++ u'.2 ++ r.2)

/-- The loop of `is_sufficiently_unique` (core/analyzers/slice_key_analyzer.rs l.189-206) with the sub-slices hashed in
l.197. -/
def uniqueLoopT (bh : List T → Nat) (leftJustified : Bool) (subIndex subLen : Nat) :
    List (List T) → List Nat → Nat → Res (Bool × List (List T))
  | [], _, _ => .ok (true, [])
  | s :: rest, set, acceptable => do
    let sub ← subslice leftJustified subIndex subLen s
    if set.contains (bh sub) then
      if acceptable = 0 then .ok (false, [sub])
      else do
        let r ← uniqueLoopT bh leftJustified subIndex subLen rest set (acceptable - 1)
        .ok (r.1, sub :: r.2)
    else do
      let r ← uniqueLoopT bh leftJustified subIndex subLen rest (bh sub :: set) acceptable
      .ok (r.1, sub :: r.2)

/-- The search for an index (core/analyzers/slice_key_analyzer.rs l.138-148 and l.158-164) with the sub-slices hashed. -/
def searchIndexT (bh : List T → Nat) (keys : List (List T)) (subLen : Nat) (leftJustified : Bool) (acceptable limit : Nat)
    (subIndex : Nat) : Res (Option Nat × List (List T)) :=
  if subIndex ≤ limit then do
    let u ← uniqueLoopT bh leftJustified subIndex subLen keys [] acceptable
    if u.1 then .ok (some subIndex, u.2)
    else do
      let r ← searchIndexT bh keys subLen leftJustified acceptable limit (subIndex + 1)
      .ok (r.1, u.2 ++ r.2)
  else .ok (none, [])
termination_by limit + 1 - subIndex

/-- The right-justified search (core/analyzers/slice_key_analyzer.rs l.154-165) with the sub-slices hashed. -/
def searchRightT (bh : List T → Nat) (keys : List (List T)) (st : SliceStats) (acceptable subLen limit : Nat) :
    Res (Option Nat × List (List T)) :=
  if st.minLen ≠ st.maxLen then searchIndexT bh keys subLen false acceptable limit st.suffixLen
  else .ok (none, [])

/-- The loop over sub-slice lengths (core/analyzers/slice_key_analyzer.rs l.133-171) with the sub-slices hashed. -/
def subLenLoopT (bh : List T → Nat) (keys : List (List T)) (st : SliceStats) (acceptable maxSubLen : Nat)
    (subLen : Nat) : Res (SliceAnalysis × List (List T)) :=
  if subLen ≤ maxSubLen then do
    let limit ← csub st.minLen subLen
    let l ← searchIndexT bh keys subLen true acceptable limit st.prefixLen
    match l.1 with
    | some i => .ok (if subLen = st.maxLen then .general else .left ⟨i, i + subLen⟩, l.2)
    | none => do
      let r ← searchRightT bh keys st acceptable subLen limit
      match r.1 with
      | some i => .ok (.right ⟨i, i + subLen⟩, l.2 ++ r.2)
      | none => do
        let n ← subLenLoopT bh keys st acceptable maxSubLen (subLen + 1)
        .ok (n.1, l.2 ++ r.2 ++ n.2)
  else .ok (.general, [])
termination_by maxSubLen + 1 - subLen

/-- The work of `analyze_slice_keys`: the pairs of elements compared and the sub-slices hashed. -/
structure SliceWork (T : Type) where
  compared : List (T × T)
  hashed : List (List T)
deriving DecidableEq, Repr

/-- `analyze_slice_keys` (core/analyzers/slice_key_analyzer.rs l.38-55, l.81-172) with its work.  `analyze_lengths` only
asks each slice for its length, once. -/
def analyzeSliceKeysT [Target] (eqT : T → T → Bool) (bh : List T → Nat) (keys : List (List T)) :
    Res (SliceAnalysis × SliceWork T) :=
  match analyzeLengths keys with
  | .general => do
    let st ← statsLoopT eqT (keys.headD []) keys
      { minLen := usizeMax, maxLen := 0, prefixLen := usizeMax, suffixLen := usizeMax }
    let r ← subLenLoopT bh keys st.1 (keys.length / acceptableDuplicateRatio) (min st.1.minLen maxSubsliceLengthLimit) 1
    .ok (r.1, { compared := st.2, hashed := r.2 })
  | r => .ok (r, { compared := [], hashed := [] })

/-! ## Analysis of hash codes -/

/-- The inner loop over the hash codes (core/analyzers/hash_code_analyzer.rs l.71-83) with the number of codes looked
at. -/
def countCollisionsT (numSlots best : Nat) : List Nat → BitSet → Nat → Res ((BitSet × Nat) × Nat)
  | [], tbl, coll => .ok ((tbl, coll), 0)
  | code :: rest, tbl, coll => do
    let slot ← cmod code numSlots
    if ← tbl.get slot then
      if coll + 1 ≥ best then .ok ((tbl, coll + 1), 1)
      else do
        let r ← countCollisionsT numSlots best rest tbl (coll + 1)
        .ok (r.1, r.2 + 1)
    else do
      let tbl ← tbl.set slot
      let r ← countCollisionsT numSlots best rest tbl coll
      .ok (r.1, r.2 + 1)

/-- The search loop over table sizes (core/analyzers/hash_code_analyzer.rs l.67-105) with each size tried and the number
of codes looked at for it. -/
def analyzeLoopT (codes : List Nat) (maxSize : Nat) (tbl : BitSet)
    (bestSlots bestColl acceptable numSlots : Nat) : Res ((Nat × Nat) × List (Nat × Nat)) :=
  if numSlots ≤ maxSize then do
    let c ← countCollisionsT numSlots bestColl codes tbl.clearAll 0
    if c.1.2 < bestColl then
      let take := bestSlots = 0 ∨ c.1.2 ≤ acceptable
      let bestColl' := if take then c.1.2 else bestColl
      let bestSlots' := if take then numSlots else bestSlots
      if c.1.2 ≤ acceptable then .ok ((bestSlots', bestColl'), [(numSlots, c.2)])
      else do
        let r ← analyzeLoopT codes maxSize c.1.1 bestSlots' bestColl'
          (if acceptable > 0 then acceptable / 100 * 20 else acceptable) (nextPow2 (numSlots + 1))
        .ok (r.1, (numSlots, c.2) :: r.2)
    else do
      let r ← analyzeLoopT codes maxSize c.1.1 bestSlots bestColl
        (if acceptable > 0 then acceptable / 100 * 20 else acceptable) (nextPow2 (numSlots + 1))
      .ok (r.1, (numSlots, c.2) :: r.2)
  else .ok ((bestSlots, bestColl), [])
termination_by maxSize + 1 - numSlots
decreasing_by
  all_goals
    have := lt_nextPow2_succ numSlots
    omega

/-- `analyze_hash_codes` (core/analyzers/hash_code_analyzer.rs l.18-111) with each size tried and the number of codes looked
at for it. -/
def analyzeHashCodesT [Target] (codes : List Nat) : Res ((Nat × Nat) × List (Nat × Nat)) := do
  let n := codes.length
  let acceptable := if n < 128 then 0 else n / 100 * 5
  let minSize ← csub n acceptable
  let minSize := roundPow2 minSize
  let maxSize ← cmul n (if n < 128 then 10 else if n < 1000 then 7 else 3)
  let maxSize := roundPow2 maxSize
  analyzeLoopT codes maxSize (BitSet.withCapacity maxSize) 0 n acceptable minSize

/-! ## Removal of duplicates -/

/-- `dupes.contains(&index)` on a `Vec` (core/utils/dedup.rs l.68): positions are compared one after the other until one
matches.  The answer with the number of comparisons. -/
def vecContainsT (index : Nat) : List Nat → Bool × Nat
  | [] => (false, 0)
  | x :: xs =>
    if x == index then (true, 1)
    else
      let r := vecContainsT index xs
      (r.1, r.2 + 1)

/-- The `retain` of `using_hash` (core/utils/dedup.rs l.66-71) with the number of comparisons of positions. -/
def retainNotInT {T : Type _} (dupes : List Nat) : List T → Nat → List T × Nat
  | [], _ => ([], 0)
  | x :: xs, index =>
    let c := vecContainsT index dupes
    let r := retainNotInT dupes xs (index + 1)
    (if c.1 then r.1 else x :: r.1, c.2 + r.2)

/-- `DeduppedVec::using_hash` (core/utils/dedup.rs l.47-76) with the number of comparisons of positions made by
`dupes.contains`.  The work of the hash table is not counted. -/
def usingHashT {T : Type _} (find : HbFind) (entries : List T) (hasher : T → Nat) (eq : T → T → Bool) :
    Res (List T × Nat) :=
  if entries.length ≥ 2 then do
    let dupes ← usingHashLoop find hasher eq entries entries 0 [] []
    .ok (if dupes.isEmpty then (entries, 0) else retainNotInT dupes entries 0)
  else .ok (entries, 0)

/-- The inner loop of `using_eq` (core/utils/dedup.rs l.20-26): later entries are compared until one is equal.  The answer
with the number of calls of `cmp`. -/
def anyT {T : Type _} (p : T → Bool) : List T → Bool × Nat
  | [] => (false, 0)
  | x :: xs =>
    if p x then (true, 1)
    else
      let r := anyT p xs
      (r.1, r.2 + 1)

/-- The nested loops of `using_eq` (core/utils/dedup.rs l.19-27) with the number of calls of `cmp`. -/
def usingEqDupesT {T : Type _} (cmp : T → T → Bool) : List T → Nat → List Nat × Nat
  | [], _ => ([], 0)
  | x :: xs, i =>
    let a := anyT (cmp x) xs
    let r := usingEqDupesT cmp xs (i + 1)
    (if a.1 then i :: r.1 else r.1, a.2 + r.2)

/-- `DeduppedVec::using_eq` (core/utils/dedup.rs l.16-40) with the number of calls of `cmp`. -/
def usingEqT {T : Type _} (entries : List T) (cmp : T → T → Bool) : List T × Nat :=
  if entries.length ≥ 2 then
    let d := usingEqDupesT cmp entries 0
    (if d.1.isEmpty then entries else retainNotIn d.1 entries 0, d.2)
  else (entries, 0)

/-! ## The constructors -/

variable {K V : Type}

/-- `FzHashMap::with_hasher` (core/fz_maps/fz_hash_map.rs l.66-75) with the number of comparisons of positions. -/
def FzHashMap.withHasherT [Target] (find : HbFind) (sort : Sorter (K × V)) (eqK : K → K → Bool) (bh : K → Nat)
    (entries : List (K × V)) : Res (HashMap K V × Nat) := do
  let entries ← usingHashT find entries (fun x => bh x.1) (fun x y => eqK x.1 y.1)
  let r ← HashMap.fromDedupped .large sort (bridgeHash bh) entries.1
  let m ← unwrapR r
  .ok (m, entries.2)

/-- `FzStringMap::with_hasher` (core/fz_maps/fz_string_map.rs l.62-94) with the work of the analysis of the keys. -/
def FzStringMap.withHasherT [Target] (sort : Sorter (Str × V)) (bhStr bhSlice : Str → Nat) (entries : List (Str × V)) :
    Res (FzStringMap V × SliceWork UInt8) := do
  let entries := usingCmp entries (fun x y => strCmp x.1 y.1)
  let a ← analyzeSliceKeysT (fun x y => x == y) bhSlice (entries.map (fun x => x.1))
  let m ← FzStringMap.build sort bhStr bhSlice entries a.1
  .ok (m, a.2)

end Frozen.Model
