import Verif.Model.Effects
import Verif.Model.FzMaps

/-!
# Constructors that run user code with effects

The constructors of `Model/Maps`, `Model/FzMaps` and `Model/InlineMaps` with trait functions of the user that may change state of the
program, and may panic (see `Model/Effects`).  Every call of a trait function is made where the Rust code makes it.  Two functions
outside of the crate call back into user code: the stable sort of the standard library and the hash table of hashbrown.  What they
do is unknown, except that they find out about the elements only by calling the closure they are given.
-/

namespace Frozen.Model

variable {W A B R T K V : Type}

/-- A computation of a library that calls a closure of type `A → B` whenever it likes and continues according to the answers. (Not
in the Rust code: the meaning of a call of such a library.) -/
inductive Dialog (A B R : Type) where
  | done (r : R)
  | ask (a : A) (next : B → Dialog A B R)

/-- The result with a pure closure. -/
def Dialog.answer (f : A → B) : Dialog A B R → R
  | .done r => r
  | .ask a next => (next (f a)).answer f

/-- The result with a closure that runs user code. -/
def Dialog.answerE (f : A → Eff W B) : Dialog A B R → Eff W R
  | .done r => pure r
  | .ask a next => f a >>= fun b => (next b).answerE f

/-- `[T]::sort_by` of the standard library (used at core/utils/dedup.rs l.119); it may panic of its own accord when the answers are
inconsistent. -/
abbrev SortBy (T : Type) := List T → Dialog (T × T) Ordering (Res (List T))

/-- `hashbrown::HashTable::find_entry` (used at core/utils/dedup.rs l.54), with the parameters of `HbFind`. -/
abbrev HbFindDialog := Nat → List (Nat × Nat) → Nat → Dialog Nat Bool (Option Nat)

/-- `find_entry` with a pure predicate. -/
def HbFindDialog.find (f : HbFindDialog) : HbFind := fun step tbl h p => (f step tbl h).answer p

/-- The stored positions for which `hashbrown::HashTable::insert_unique` calls the closure that hashes again (used at
core/utils/dedup.rs l.60), in order. -/
abbrev HbRehash := Nat → List (Nat × Nat) → List Nat

/-- Call `f` on all elements in order and collect the answers (`iter().map(f).collect()`). -/
def mapE (f : A → Eff W B) : List A → Eff W (List B)
  | [] => pure []
  | x :: xs => do
    let y ← f x
    let ys ← mapE f xs
    pure (y :: ys)

/-! ## Deduplication -/

/-- The inner loop of `using_eq` (core/utils/dedup.rs l.20-26): stop at the first later element equal to `x`. -/
def anyEqE (cmp : T → T → Eff W Bool) (x : T) : List T → Eff W Bool
  | [] => pure false
  | y :: ys => do
    let c ← cmp x y
    if c then pure true else anyEqE cmp x ys

/-- The loops of `using_eq` (core/utils/dedup.rs l.19-27), see `usingEqDupes`. -/
def usingEqDupesE (cmp : T → T → Eff W Bool) : List T → Nat → Eff W (List Nat)
  | [], _ => pure []
  | x :: xs, i => do
    let c ← anyEqE cmp x xs
    let rest ← usingEqDupesE cmp xs (i + 1)
    pure (if c then i :: rest else rest)

/-- `DeduppedVec::using_eq` (core/utils/dedup.rs l.16-40). -/
def usingEqE (entries : List T) (cmp : T → T → Eff W Bool) : Eff W (List T) :=
  if entries.length ≥ 2 then do
    let dupes ← usingEqDupesE cmp entries 0
    pure (if dupes.isEmpty then entries else retainNotIn dupes entries 0)
  else pure entries

/-- The loop of `SortedAndDeduppedVec::new` (core/utils/dedup.rs l.123-128), see `adjacentDupes`. -/
def adjacentDupesE (cmp : T → T → Eff W Ordering) : List T → Nat → Eff W (List Nat)
  | x :: y :: xs, i => do
    let o ← cmp x y
    let rest ← adjacentDupesE cmp (y :: xs) (i + 1)
    pure (if o == .eq then i :: rest else rest)
  | _, _ => pure []

/-- `SortedAndDeduppedVec::new` (core/utils/dedup.rs l.118-141). -/
def sortedAndDeduppedE (st : SortBy T) (entries : List T) (cmp : T → T → Eff W Ordering) : Eff W (List T) := do
  let r ← (st entries).answerE (fun p => cmp p.1 p.2)
  let entries ← Eff.lift r
  if entries.length ≥ 2 then do
    let dupes ← adjacentDupesE cmp entries 0
    pure (if dupes.isEmpty then entries else retainNotIn dupes entries 0)
  else pure entries

/-- A closure `|x| f(&entries[*x])` of `using_hash` (core/utils/dedup.rs l.54, l.60).  Stored positions are in range (otherwise
`usingHashLoopE` panics before), so the other case does not occur; it is `dflt`, as in `usingHashLoop`. -/
def atPosE (entries : List T) (f : T → Eff W B) (dflt : B) (x : Nat) : Eff W B :=
  match entries[x]? with
  | some e => f e
  | none => pure dflt

/-- The loop of `using_hash` (core/utils/dedup.rs l.51-61), see `usingHashLoop`.  The answers of the closure that hashes again are not
used: they are right if the hasher is. -/
def usingHashLoopE (find : HbFindDialog) (rehash : HbRehash) (hasher : T → Eff W Nat) (eq : T → T → Eff W Bool) (entries : List T) :
    List T → Nat → List (Nat × Nat) → List Nat → Eff W (List Nat)
  | [], _, _, dupes => pure dupes
  | value :: rest, index, keep, dupes => do
    let hash ← hasher value
    if keep.all (fun e => e.2 < entries.length) then do
      let r ← (find index keep hash).answerE (atPosE entries (eq value) false)
      let keep' := match r with
        | some other => keep.filter (fun e => e.2 != other)
        | none => keep
      let _ ← mapE (atPosE entries hasher 0) (rehash index keep')
      usingHashLoopE find rehash hasher eq entries rest (index + 1) ((hash, index) :: keep')
        (match r with
          | some other => dupes ++ [other]
          | none => dupes)
    else Eff.lift (.error (.panic "index out of bounds"))

/-- `DeduppedVec::using_hash` (core/utils/dedup.rs l.47-76). -/
def usingHashE (find : HbFindDialog) (rehash : HbRehash) (entries : List T) (hasher : T → Eff W Nat) (eq : T → T → Eff W Bool) :
    Eff W (List T) :=
  if entries.length ≥ 2 then do
    let dupes ← usingHashLoopE find rehash hasher eq entries entries 0 [] []
    pure (if dupes.isEmpty then entries else retainNotIn dupes entries 0)
  else pure entries

/-! ## Maps without hashing -/

/-- `ScanMap::new` (core/maps/scan_map.rs l.36-41). -/
def ScanMap.newE (eqK : K → K → Eff W Bool) (entries : List (K × V)) : Eff W (ScanMap K V) := do
  let entries ← usingEqE entries (fun x y => eqK x.1 y.1)
  pure { entries := entries }

/-- `EytzingerSearchMap::new` (core/maps/eytzinger_search_map.rs l.37-43); also `FzOrderedMap::new`
(core/fz_maps/fz_ordered_map.rs l.45-54). -/
def EytzingerMap.newE [Target] (st : SortBy (K × V)) (cmp : K → K → Eff W Ordering) (entries : List (K × V)) :
    Eff W (EytzingerMap K V) := do
  let entries ← sortedAndDeduppedE st entries (fun x y => cmp x.1 y.1)
  Eff.lift (EytzingerMap.fromSortedAndDedupped entries)

/-- `DenseScalarLookupMap::from_sorted_and_dedupped` (core/maps/dense_scalar_lookup_map.rs l.66-75). -/
def DenseMap.fromSortedAndDeduppedE [Target] (b : Build) (index : K → Eff W Nat) (entries : List (K × V)) : Eff W (DenseMap K V) := do
  let first ← Eff.lift (idx entries 0)
  let mn ← index first.1
  let lastPos ← Eff.lift (subM b entries.length 1)
  let last ← Eff.lift (idx entries lastPos)
  let mx ← index last.1
  pure { min := mn, max := mx, entries := entries }

/-- `DenseScalarLookupMap::new` (core/maps/dense_scalar_lookup_map.rs l.42-59). -/
def DenseMap.newE [Target] (b : Build) (st : SortBy (K × V)) (cmp : K → K → Eff W Ordering) (index : K → Eff W Nat)
    (entries : List (K × V)) : Eff W (Except String (DenseMap K V)) := do
  let entries ← sortedAndDeduppedE st entries (fun x y => cmp x.1 y.1)
  if entries.isEmpty then pure (.ok DenseMap.default)
  else do
    let first ← Eff.lift (idx entries 0)
    let mn ← index first.1
    let lastPos ← Eff.lift (subM b entries.length 1)
    let last ← Eff.lift (idx entries lastPos)
    let mx ← index last.1
    let d ← Eff.lift (subM b mx mn)
    let count ← Eff.lift (addM b d 1)
    if entries.length = count then do
      let m ← DenseMap.fromSortedAndDeduppedE b index entries
      pure (.ok m)
    else pure (.error notContiguous)

/-- The loop that fills `lookup` (core/maps/sparse_scalar_lookup_map.rs l.64-68). -/
def fillLookupE [Target] (b : Build) (index : K → Eff W Nat) (min : Nat) : List (K × V) → Nat → List Nat → Eff W (List Nat)
  | [], _, lookup => pure lookup
  | entry :: rest, i, lookup => do
    let ix ← index entry.1
    let indexInLookup ← Eff.lift (subM b ix min)
    let lookup ← Eff.lift (setIdx lookup indexInLookup (i + 1))
    fillLookupE b index min rest (i + 1) lookup

/-- `SparseScalarLookupMap::from_sorted_and_dedupped` (core/maps/sparse_scalar_lookup_map.rs l.54-76). -/
def SparseMap.fromSortedAndDeduppedE [Target] (b : Build) (index : K → Eff W Nat) (entries : List (K × V)) :
    Eff W (SparseMap K V) := do
  let first ← Eff.lift (idx entries 0)
  let mn ← index first.1
  let lastPos ← Eff.lift (subM b entries.length 1)
  let last ← Eff.lift (idx entries lastPos)
  let mx ← index last.1
  let d ← Eff.lift (subM b mx mn)
  let count ← Eff.lift (addM b d 1)
  let zeros ← Eff.lift (vecZeroed count)
  let lookup ← fillLookupE b index mn entries 0 zeros
  pure { min := mn, max := mx, lookup := lookup, entries := entries }

/-- `SparseScalarLookupMap::new` (core/maps/sparse_scalar_lookup_map.rs l.40-50). -/
def SparseMap.newE [Target] (b : Build) (st : SortBy (K × V)) (cmp : K → K → Eff W Ordering) (index : K → Eff W Nat)
    (entries : List (K × V)) : Eff W (SparseMap K V) := do
  let entries ← sortedAndDeduppedE st entries (fun x y => cmp x.1 y.1)
  if entries.isEmpty then pure SparseMap.default
  else SparseMap.fromSortedAndDeduppedE b index entries

/-! ## Maps with hashing -/

/-- The loop of `HashTable::new` that computes the slots (core/hash_tables/hash_table.rs l.52-59), see `prepItems`. -/
def prepItemsE (hash : T → Eff W Nat) (numSlots : Nat) : List T → Eff W (List (Nat × T))
  | [] => pure []
  | e :: es => do
    let h ← hash e
    let s ← Eff.lift (cmod h numSlots)
    let rest ← prepItemsE hash numSlots es
    pure ((s, e) :: rest)

/-- `HashTable::new` (core/hash_tables/hash_table.rs l.41-101); every entry is hashed once for the analysis (l.48,
core/analyzers/hash_code_analyzer.rs l.34) and once for its slot (l.53). -/
def HashTable.newE [Target] (cm : Magnitude) (sort : Sorter T) (entries : List T) (hash : T → Eff W Nat) :
    Eff W (Except String (HashTable T)) :=
  if entries.isEmpty then pure (.ok HashTable.default)
  else if entries.length > cm.maxCapacity then pure (.error tooManyEntries)
  else do
    let codes ← mapE hash entries
    let a ← Eff.lift (analyzeHashCodes codes)
    let prep ← prepItemsE hash a.1 entries.reverse
    let p ← Eff.lift (fillSlots cm (sort prep).reverse (List.replicate a.1 ⟨0, 0⟩) 0 [])
    let mask ← Eff.lift (csub p.1.length 1)
    pure (.ok { slots := p.1, entries := p.2, mask := mask })

/-- `HashMap::from_dedupped` (core/maps/hash_map.rs l.62-72). -/
def HashMap.fromDeduppedE [Target] (cm : Magnitude) (sort : Sorter (K × V)) (hK : K → Eff W Nat) (entries : List (K × V)) :
    Eff W (Except String (HashMap K V)) := do
  let r ← HashTable.newE cm sort entries (fun e => hK e.1)
  pure (match r with
    | .ok t => .ok { table := t }
    | .error msg => .error msg)

/-- `HashMap::with_hasher` (core/maps/hash_map.rs l.47-54). -/
def HashMap.withHasherE [Target] (cm : Magnitude) (find : HbFindDialog) (rehash : HbRehash) (sort : Sorter (K × V))
    (eqK : K → K → Eff W Bool) (hK : K → Eff W Nat) (entries : List (K × V)) : Eff W (Except String (HashMap K V)) := do
  let entries ← usingHashE find rehash entries (fun x => hK x.1) (fun x y => eqK x.1 y.1)
  HashMap.fromDeduppedE cm sort hK entries

/-- `FzHashMap::with_hasher` (core/fz_maps/fz_hash_map.rs l.66-75). -/
def FzHashMap.withHasherE [Target] (find : HbFindDialog) (rehash : HbRehash) (sort : Sorter (K × V)) (eqK : K → K → Eff W Bool)
    (bh : K → Eff W Nat) (entries : List (K × V)) : Eff W (HashMap K V) := do
  let entries ← usingHashE find rehash entries (fun x => bh x.1) (fun x y => eqK x.1 y.1)
  let r ← HashMap.fromDeduppedE .large sort bh entries
  Eff.lift (unwrapR r)

/-- The three arms of `FzScalarMap::new` (core/fz_maps/fz_scalar_map.rs l.59-63). -/
def FzScalarMap.buildE [Target] (b : Build) (sort : Sorter (K × V)) (index : K → Eff W Nat) (entries : List (K × V)) :
    ScalarAnalysis → Eff W (FzScalarMap K V)
  | .denseRange => do
    let m ← DenseMap.fromSortedAndDeduppedE b index entries
    pure (.dense m)
  | .sparseRange => do
    let m ← SparseMap.fromSortedAndDeduppedE b index entries
    pure (.sparse m)
  | .general => do
    let r ← HashMap.fromDeduppedE .large sort index entries
    let m ← Eff.lift (unwrapR r)
    pure (.hash m)

/-- `FzScalarMap::new` (core/fz_maps/fz_scalar_map.rs l.52-65); the analysis asks every key for its index
(core/analyzers/scalar_key_analyzer.rs l.25-29). -/
def FzScalarMap.newE [Target] (b : Build) (st : SortBy (K × V)) (sort : Sorter (K × V)) (cmp : K → K → Eff W Ordering)
    (index : K → Eff W Nat) (entries : List (K × V)) : Eff W (FzScalarMap K V) := do
  let entries ← sortedAndDeduppedE st entries (fun x y => cmp x.1 y.1)
  let indices ← mapE (fun x : K × V => index x.1) entries
  let a ← Eff.lift (analyzeScalarKeys b indices)
  FzScalarMap.buildE b sort index entries a

/-! ## Strings -/

/-- The loop of `is_sufficiently_unique` (core/analyzers/slice_key_analyzer.rs l.189-206), see `uniqueLoop`. -/
def uniqueLoopE (bh : List T → Eff W Nat) (leftJustified : Bool) (subIndex subLen : Nat) :
    List (List T) → List Nat → Nat → Eff W Bool
  | [], _, _ => pure true
  | s :: rest, set, acceptable => do
    let sub ← Eff.lift (subslice leftJustified subIndex subLen s)
    let h ← bh sub
    if set.contains h then
      if acceptable = 0 then pure false
      else uniqueLoopE bh leftJustified subIndex subLen rest set (acceptable - 1)
    else uniqueLoopE bh leftJustified subIndex subLen rest (h :: set) acceptable

/-- The search for an index (core/analyzers/slice_key_analyzer.rs l.138-148 and l.158-164), see `searchIndex`. -/
def searchIndexE (bh : List T → Eff W Nat) (keys : List (List T)) (subLen : Nat) (leftJustified : Bool) (acceptable limit : Nat)
    (subIndex : Nat) : Eff W (Option Nat) :=
  if subIndex ≤ limit then do
    let c ← uniqueLoopE bh leftJustified subIndex subLen keys [] acceptable
    if c then pure (some subIndex)
    else searchIndexE bh keys subLen leftJustified acceptable limit (subIndex + 1)
  else pure none
termination_by limit + 1 - subIndex

/-- The right-justified search (core/analyzers/slice_key_analyzer.rs l.154-165), see `searchRight`. -/
def searchRightE (bh : List T → Eff W Nat) (keys : List (List T)) (st : SliceStats) (acceptable subLen limit : Nat) :
    Eff W (Option Nat) :=
  if st.minLen ≠ st.maxLen then searchIndexE bh keys subLen false acceptable limit st.suffixLen
  else pure none

/-- The loop over sub-slice lengths (core/analyzers/slice_key_analyzer.rs l.133-171), see `subLenLoop`. -/
def subLenLoopE (bh : List T → Eff W Nat) (keys : List (List T)) (st : SliceStats) (acceptable maxSubLen : Nat)
    (subLen : Nat) : Eff W SliceAnalysis :=
  if subLen ≤ maxSubLen then do
    let limit ← Eff.lift (csub st.minLen subLen)
    let l ← searchIndexE bh keys subLen true acceptable limit st.prefixLen
    match l with
    | some i => pure (if subLen = st.maxLen then .general else .left ⟨i, i + subLen⟩)
    | none => do
      let r ← searchRightE bh keys st acceptable subLen limit
      match r with
      | some i => pure (.right ⟨i, i + subLen⟩)
      | none => subLenLoopE bh keys st acceptable maxSubLen (subLen + 1)
  else pure .general
termination_by maxSubLen + 1 - subLen

/-- `analyze_subslices` (core/analyzers/slice_key_analyzer.rs l.81-172) for elements that are compared without user code. -/
def analyzeSubslicesE [Target] (eqT : T → T → Bool) (bh : List T → Eff W Nat) (keys : List (List T)) : Eff W SliceAnalysis := do
  let st ← Eff.lift (statsLoop eqT (keys.headD []) keys
    { minLen := usizeMax, maxLen := 0, prefixLen := usizeMax, suffixLen := usizeMax })
  subLenLoopE bh keys st (keys.length / acceptableDuplicateRatio) (min st.minLen maxSubsliceLengthLimit) 1

/-- `analyze_slice_keys` (core/analyzers/slice_key_analyzer.rs l.38-55). -/
def analyzeSliceKeysE [Target] (eqT : T → T → Bool) (bh : List T → Eff W Nat) (keys : List (List T)) : Eff W SliceAnalysis :=
  match analyzeLengths keys with
  | .general => analyzeSubslicesE eqT bh keys
  | r => pure r

/-- The arms of `FzStringMap::with_hasher` (core/fz_maps/fz_string_map.rs l.75-90). -/
def FzStringMap.buildE [Target] (sort : Sorter (Str × V)) (bhStr bhSlice : Str → Eff W Nat) (entries : List (Str × V)) :
    SliceAnalysis → Eff W (FzStringMap V)
  | .general => do
    let r ← HashMap.fromDeduppedE .large sort bhStr entries
    let m ← Eff.lift (unwrapR r)
    pure (.hash m)
  | .length => do
    let r ← HashMap.fromDeduppedE .large sort bhStr entries
    let m ← Eff.lift (unwrapR r)
    pure (.hash m)
  | .left range => do
    let r ← HashMap.fromDeduppedE .large sort (leftRangeHashE bhSlice range) entries
    let m ← Eff.lift (unwrapR r)
    pure (.leftRange range m)
  | .right range => do
    let r ← HashMap.fromDeduppedE .large sort (rightRangeHashE bhSlice range) entries
    let m ← Eff.lift (unwrapR r)
    pure (.rightRange range m)

/-- `FzStringMap::with_hasher` (core/fz_maps/fz_string_map.rs l.71-93) with a `BuildHasher` of the user, after the conversion of the keys.  Strings are compared
without user code (l.71). -/
def FzStringMap.withHasherE [Target] (sort : Sorter (Str × V)) (bhStr bhSlice : Str → Eff W Nat) (entries : List (Str × V)) :
    Eff W (FzStringMap V) := do
  let entries := usingCmp entries (fun x y => strCmp x.1 y.1)
  let a ← analyzeSliceKeysE (fun x y => x == y) bhSlice (entries.map (fun x => x.1))
  FzStringMap.buildE sort bhStr bhSlice entries a

/-- `FzStringMap::with_hasher` (core/fz_maps/fz_string_map.rs l.62-94) with keys of a type of the user, whose `AsRef<str>` has effects: first every key is
converted (l.66-69), in order. -/
def FzStringMap.withHasherAsE [Target] {S : Type} (sort : Sorter (Str × V)) (asRef : S → Eff W Str) (bhStr bhSlice : Str → Eff W Nat)
    (entries : List (S × V)) : Eff W (FzStringMap V) := do
  let entries ← mapE (fun e : S × V => asRef e.1 >>= fun s => pure (s, e.2)) entries
  FzStringMap.withHasherE sort bhStr bhSlice entries

/-! ## Inline maps -/

/-- `InlineScanMap::new` (core/inline_maps/inline_scan_map.rs l.45-50). -/
def InlineMap.scanNewE (sz : Nat) (eqK : K → K → Eff W Bool) (entries : List (K × V)) : Eff W (InlineMap K V) := do
  let entries ← usingEqE entries (fun x y => eqK x.1 y.1)
  let entries ← Eff.lift (intoArray entries sz)
  pure { sz := sz, repr := .scan { entries := entries } }

/-- `InlineEytzingerSearchMap::new` (core/inline_maps/inline_eytzinger_search_map.rs l.46-57). -/
def InlineMap.eytzingerNewE [Target] (sz : Nat) (st : SortBy (K × V)) (cmp : K → K → Eff W Ordering) (entries : List (K × V)) :
    Eff W (InlineMap K V) := do
  let entries ← sortedAndDeduppedE st entries (fun x y => cmp x.1 y.1)
  let entries ← Eff.lift (eytzingerLayout entries)
  let entries ← Eff.lift (intoArray entries sz)
  pure { sz := sz, repr := .eytzinger { entries := entries } }

end Frozen.Model
