import Verif.Model.InlineMaps
import Verif.Model.Literals

/-!
# Model of `core/emit/*.rs`: generating the source code of a frozen collection

Emitted code is a data structure: the constructor call with its literal tokens.  Key and value expressions are represented by
the run-time values they evaluate to.
-/

namespace Frozen.Model

variable {B K V : Type}

/-- `struct CollectionEntry` (core/emit/collection_entry.rs l.12-16): the key as known to the emitter, and the
expressions for key and value in the emitted code. -/
structure CollectionEntry (B K V : Type) where
  key : B
  keyExpr : K
  valueExpr : V

/-- `ToTokens for CollectionEntry` (core/emit/collection_entry.rs l.35-41): the tuple `(key_expr, value_expr)`. -/
def CollectionEntry.toTokens (e : CollectionEntry B K V) : K × V := (e.keyExpr, e.valueExpr)

/-! ## The emitted program -/

/-- The emitted hasher constructor, with its literals still tokens. -/
inductive HasherTok where
  | bridge (seed : Tok)
  | scalar
  | length
  | left (start stop seed : Tok)
  | right (start stop seed : Tok)

/-- Which `Fz*` type a constructor call names. -/
inductive FzKind where
  | hash | scalar | string
deriving DecidableEq

/-- The constructor expressions the generator emits (`Output::ctor`, core/emit/generator.rs l.24-27).  When the collection is a
set the constructor is wrapped in `Inline*Set::new(..)` or `Fz*Set::from(..)`, which is not repeated
here (a set is its map). -/
inductive Emitted (K V : Type) where
  /-- `InlineScanMap::<K, V, len>::new_raw([..])` -/
  | scanRaw (len : Tok) (entries : List (K × V))
  /-- `InlineScanMap::<K, V, len>::new(vec![..])` -/
  | scanNew (len : Tok) (entries : List (K × V))
  /-- `InlineEytzingerSearchMap::<K, V, len>::new_raw([..])` -/
  | eytzingerRaw (len : Tok) (entries : List (K × V))
  /-- `InlineEytzingerSearchMap::<K, V, len>::new(vec![..])` -/
  | eytzingerNew (len : Tok) (entries : List (K × V))
  /-- `InlineDenseScalarLookupMap::<K, V, len>::new_raw([..], min, max)` -/
  | dense (len : Tok) (entries : List (K × V)) (min max : Tok)
  /-- `InlineSparseScalarLookupMap::<K, V, len, num_slots, cm>::new_raw([..], [..], min, max)` -/
  | sparse (len numSlots : Tok) (cm : Magnitude) (entries : List (K × V)) (lookup : List Tok) (min max : Tok)
  /-- `InlineHashMap::<K, V, len, num_slots, cm, H>::new_raw(InlineHashTable::new_raw([..], [..]), hasher)` -/
  | hash (len numSlots : Tok) (cm : Magnitude) (slots : List (Tok × Tok)) (entries : List (K × V)) (hasher : HasherTok)
  /-- `InlineHashMapNoCollisions::<..>::new_raw(InlineHashTableNoCollisions::new_raw([..], [..]), hasher)` -/
  | hashNC (len numSlots : Tok) (cm : Magnitude) (slots : List Tok) (entries : List (K × V)) (hasher : HasherTok)
  /-- `Fz*Map::<K, V>::new(vec![..])` -/
  | fz (kind : FzKind) (entries : List (K × V))

/-! ## Generator -/

/-- `struct Generator` (core/emit/generator.rs l.16-22); the types are not modelled. -/
structure Generator where
  len : Tok

/-- `Generator::new` (core/emit/generator.rs l.29-36). -/
def Generator.new (len : Nat) : Generator := { len := injectUnderscores (digits len) }

/-- `collection_magnitude` (core/emit/generator.rs l.397-405). -/
def collectionMagnitude [Target] (len : Nat) : Magnitude :=
  if len ≤ Magnitude.maxCapacity .small then .small
  else if len ≤ Magnitude.maxCapacity .medium then .medium
  else .large

/-- `gen_fz_hash`, `gen_fz_scalar`, `gen_fz_string` (core/emit/generator.rs l.38-107). -/
def Generator.genFz (_g : Generator) (kind : FzKind) (entries : List (CollectionEntry B K V)) : Emitted K V :=
  .fz kind (entries.map (fun e => e.toTokens))

/-- `gen_inline_dense_scalar_lookup` (core/emit/generator.rs l.109-138). -/
def Generator.genDense [Target] (g : Generator) (b : Build) (index : B → Nat) (entries : List (CollectionEntry B K V)) :
    Res (Emitted K V) := do
  let first ← idx entries 0
  let lastPos ← subM b entries.length 1
  let last ← idx entries lastPos
  .ok (.dense g.len (entries.map (fun e => e.toTokens)) (injectUnderscores (usizeTok (index first.key)))
    (injectUnderscores (usizeTok (index last.key))))

/-- `gen_inline_eytzinger_search` (core/emit/generator.rs l.141-166). -/
def Generator.genEytzinger [Target] (g : Generator) (entries : List (CollectionEntry B K V)) : Res (Emitted K V) := do
  let entries ← eytzingerLayout entries
  .ok (.eytzingerRaw g.len (entries.map (fun e => e.toTokens)))

/-- `gen_inline_eytzinger_search_vec` (core/emit/generator.rs l.168-190). -/
def Generator.genEytzingerVec (g : Generator) (entries : List (CollectionEntry B K V)) : Emitted K V :=
  .eytzingerNew g.len (entries.map (fun e => e.toTokens))

/-- `gen_inline_scan` (core/emit/generator.rs l.232-256). -/
def Generator.genScan (g : Generator) (entries : List (CollectionEntry B K V)) : Emitted K V :=
  .scanRaw g.len (entries.map (fun e => e.toTokens))

/-- `gen_inline_scan_vec` (core/emit/generator.rs l.258-280). -/
def Generator.genScanVec (g : Generator) (entries : List (CollectionEntry B K V)) : Emitted K V :=
  .scanNew g.len (entries.map (fun e => e.toTokens))

/-- The loop that fills the lookup table (core/emit/generator.rs l.292-296). -/
def genFillLookup [Target] (b : Build) (index : B → Nat) (min : Nat) : List (CollectionEntry B K V) → Nat → List Nat →
    Res (List Nat)
  | [], _, lookup => .ok lookup
  | entry :: rest, i, lookup => do
    let indexInLookup ← subM b (index entry.key) min
    let lookup ← setIdx lookup indexInLookup (i + 1)
    genFillLookup b index min rest (i + 1) lookup

/-- `gen_inline_sparse_scalar_lookup` (core/emit/generator.rs l.282-329). -/
def Generator.genSparse [Target] (g : Generator) (b : Build) (index : B → Nat) (entries : List (CollectionEntry B K V)) :
    Res (Emitted K V) := do
  let first ← idx entries 0
  let lastPos ← subM b entries.length 1
  let last ← idx entries lastPos
  let d ← subM b (index last.key) (index first.key)
  let count ← addM b d 1
  let zeros ← vecZeroed count
  let lookup ← genFillLookup b index (index first.key) entries 0 zeros
  .ok (.sparse g.len (digits lookup.length) (collectionMagnitude count) (entries.map (fun e => e.toTokens))
    (lookup.map digits) (usizeTok (index first.key)) (usizeTok (index last.key)))

/-- `ToTokens for HashTableSlot` (core/hash_tables/hash_table_slot.rs l.32-38). -/
def Slot.toTokens (s : Slot) : Tok × Tok := (digits s.minIndex, digits s.maxIndex)

/-- The literal of a slot of a collision-free table (core/emit/generator.rs l.369-375); `is_empty` is `max_index == 0`
(core/hash_tables/hash_table_slot.rs l.26-28). -/
def ncSlotTok (s : Slot) : Tok := if s.maxIndex == 0 then digits 0 else digits (s.minIndex + 1)

/-- `gen_inline_hash` (core/emit/generator.rs l.192-230) with `gen_inline_hash_table_components` (l.331-395). -/
def Generator.genHash [Target] (g : Generator) (sort : Sorter (CollectionEntry B K V)) (entries : List (CollectionEntry B K V))
    (hash : B → Nat) (hasher : HasherTok) : Res (Emitted K V) := do
  let r ← HashTable.new .large sort entries (fun x => hash x.key)
  let ht ← unwrapR r
  let collisions ← ht.hasCollisions
  if collisions then
    .ok (.hash g.len (digits ht.slots.length) (collectionMagnitude ht.entries.length) (ht.slots.map Slot.toTokens)
      (ht.entries.map (fun e => e.toTokens)) hasher)
  else
    .ok (.hashNC g.len (digits ht.slots.length) (collectionMagnitude ht.entries.length) (ht.slots.map ncSlotTok)
      (ht.entries.map (fun e => e.toTokens)) hasher)

/-! ## Emitter -/

/-- `struct CollectionEmitter` (core/emit/collection_emitter.rs l.82-98).  Of the types only the presence of a value type is
kept; the visibility and the two `inferred_*` flags are handled elsewhere or not modelled. -/
structure Emitter where
  hasValueType : Bool
  symbolName : Option String
  aliasName : Option String
  constKeys : Bool
  constValues : Bool
  isMutable : Bool
  isStatic : Bool

/-- The shapes of the emitted item (core/emit/collection_emitter.rs l.474-522). -/
inductive Item (α : Type) where
  /-- `static SYMBOL: Ty = ctor;` possibly preceded by a type alias -/
  | staticConst (symbol : String) (alias : Option String) (ctor : α)
  /-- `static SYMBOL: LazyLock<Ty> = LazyLock::new(|| { ctor });` -/
  | staticLazy (symbol : String) (alias : Option String) (ctor : α)
  /-- `let [mut] SYMBOL: Ty = ctor;` -/
  | letStmt (mutable : Bool) (symbol : String) (alias : Option String) (ctor : α)
  /-- `ctor` -/
  | expr (ctor : α)
deriving DecidableEq

/-- The constructor expression inside an item. -/
def Item.ctor {α : Type} : Item α → α
  | .staticConst _ _ c => c
  | .staticLazy _ _ c => c
  | .letStmt _ _ _ c => c
  | .expr c => c

/-- `preflight` (core/emit/collection_emitter.rs l.459-471). -/
def Emitter.preflight (em : Emitter) (len : Nat) : Except String Generator :=
  if em.isStatic && em.isMutable then .error "mutable is not allowed for static collections"
  else if em.isStatic && em.symbolName.isNone then .error "symbol_name is required for static collections"
  else if em.isMutable && em.symbolName.isNone then .error "symbol_name is required for mutable collections"
  else if em.aliasName.isSome && em.symbolName.isNone then .error "alias_name cannot be used without symbol_name"
  else .ok (Generator.new len)

/-- `postflight` (core/emit/collection_emitter.rs l.474-522); `symbol_name.unwrap()` panics when absent. -/
def Emitter.postflight {α : Type} (em : Emitter) (ctor : α) : Res (Item α) :=
  if em.isStatic then
    match em.symbolName with
    | none => .error (.panic "called `Option::unwrap()` on a `None` value")
    | some symbol =>
      if em.constKeys && em.constValues then .ok (.staticConst symbol em.aliasName ctor)
      else .ok (.staticLazy symbol em.aliasName ctor)
  else
    match em.symbolName with
    | some symbol => .ok (.letStmt em.isMutable symbol em.aliasName ctor)
    | none => .ok (.expr ctor)

/-- `clean_values` (core/emit/collection_emitter.rs l.451-457); `unit` is the expression `()`. -/
def Emitter.cleanValues (em : Emitter) (unit : V) (entries : List (CollectionEntry B K V)) :
    List (CollectionEntry B K V) :=
  if em.hasValueType then entries else entries.map (fun e => { e with valueExpr := unit })

/-- `preflight(len)?`, then generate, then `postflight`. -/
def Emitter.finish {α : Type} (em : Emitter) (len : Nat) (gen : Generator → Res α) :
    Res (Except String (Item α)) :=
  match em.preflight len with
  | .error msg => .ok (.error msg)
  | .ok g => do
    let out ← gen g
    let item ← em.postflight out
    .ok (.ok item)

/-- `emit_hash_collection` (core/emit/collection_emitter.rs l.238-262).  `fixedState seed` is
`FixedState::with_seed(seed).hash_one` on the emitter's keys; `seed` is the compile-time random number. -/
def Emitter.emitHash [Target] (em : Emitter) (unit : V) (find : HbFind) (sort : Sorter (CollectionEntry B K V))
    (eqB : B → B → Bool) (fixedState : Nat → B → Nat) (seed : Nat) (entries : List (CollectionEntry B K V)) :
    Res (Except String (Item (Emitted K V))) := do
  let entries ← usingHash find (em.cleanValues unit entries) (fun x => fixedState seed x.key) (fun x y => eqB x.key y.key)
  em.finish entries.length fun g =>
    if entries.length < 4 then .ok (g.genScan entries)
    else g.genHash sort entries (fixedState seed) (.bridge (injectUnderscores (u64Tok seed)))

/-- `emit_ordered_collection` (core/emit/collection_emitter.rs l.272-288). -/
def Emitter.emitOrdered [Target] (em : Emitter) (unit : V) (cmpB : B → B → Ordering) (entries : List (CollectionEntry B K V)) :
    Res (Except String (Item (Emitted K V))) :=
  let entries := sortedAndDedupped (em.cleanValues unit entries) (fun x y => cmpB x.key y.key)
  em.finish entries.length fun g =>
    if entries.length < 4 then .ok (g.genScan entries)
    else g.genEytzinger entries

/-- The `match analysis` of `emit_scalar_collection` (core/emit/collection_emitter.rs l.307-323). -/
def Generator.genScalar [Target] (g : Generator) (b : Build) (sort : Sorter (CollectionEntry B K V)) (index : B → Nat)
    (entries : List (CollectionEntry B K V)) : ScalarAnalysis → Res (Emitted K V)
  | .denseRange => g.genDense b index entries
  | .sparseRange => g.genSparse b index entries
  | .general =>
    if entries.length < 8 then .ok (g.genScan entries)
    else g.genHash sort entries index .scalar

/-- `emit_scalar_collection` (core/emit/collection_emitter.rs l.297-326).  `b` is the build mode of the program that
emits (build script or procedural macro). -/
def Emitter.emitScalar [Target] (em : Emitter) (unit : V) (b : Build) (sort : Sorter (CollectionEntry B K V))
    (cmpB : B → B → Ordering) (index : B → Nat) (entries : List (CollectionEntry B K V)) :
    Res (Except String (Item (Emitted K V))) := do
  let entries := sortedAndDedupped (em.cleanValues unit entries) (fun x y => cmpB x.key y.key)
  let analysis ← analyzeScalarKeys b (entries.map (fun x => index x.key))
  em.finish entries.length fun g => g.genScalar b sort index entries analysis

/-- The emitter-side value of a hasher that cannot panic on the given keys (see `hashVal`). -/
def emitHashVal (h : Str → Res Nat) (s : Str) : Nat := hashVal h s

/-- The `match analysis` of `emit_string_collection` (core/emit/collection_emitter.rs l.350-398).  The hashers are
infallible for ranges with `start <= end`; `hashAll` raises a panic otherwise, as in `HashMap.fromDedupped`. -/
def Generator.genString [Target] (g : Generator) (sort : Sorter (CollectionEntry Str K V)) (fsStr fsSlice : Nat → Str → Nat)
    (seed : Nat) (entries : List (CollectionEntry Str K V)) : SliceAnalysis → Res (Emitted K V)
  | .left range => do
    let _ ← hashAll (leftRangeHash (fsSlice seed) range) (entries.map (fun e => (e.key, ())))
    g.genHash sort entries (emitHashVal (leftRangeHash (fsSlice seed) range))
      (.left (injectUnderscores (digits range.lo)) (injectUnderscores (digits range.hi)) (injectUnderscores (u64Tok seed)))
  | .right range => do
    let _ ← hashAll (rightRangeHash (fsSlice seed) range) (entries.map (fun e => (e.key, ())))
    g.genHash sort entries (emitHashVal (rightRangeHash (fsSlice seed) range))
      (.right (injectUnderscores (digits range.lo)) (injectUnderscores (digits range.hi)) (injectUnderscores (u64Tok seed)))
  | .length => g.genHash sort entries (emitHashVal lengthHash) .length
  | .general => g.genHash sort entries (fsStr seed) (.bridge (injectUnderscores (u64Tok seed)))

/-- The body of `emit_string_collection` after `preflight` (core/emit/collection_emitter.rs l.341-398). -/
def Generator.genStringOrScan [Target] (g : Generator) (sort : Sorter (CollectionEntry Str K V)) (fsStr fsSlice : Nat → Str → Nat)
    (seed : Nat) (entries : List (CollectionEntry Str K V)) : Res (Emitted K V) :=
  if entries.length < 4 then .ok (g.genScan entries)
  else do
    let analysis ← analyzeSliceKeys (fun x y => x == y) (fsSlice seed) (entries.map (fun x => x.key))
    g.genString sort fsStr fsSlice seed entries analysis

/-- `emit_string_collection` (core/emit/collection_emitter.rs l.335-401).  `fsStr`, `fsSlice` are
`FixedState::with_seed(seed).hash_one` on strings and on byte slices. -/
def Emitter.emitString [Target] (em : Emitter) (unit : V) (sort : Sorter (CollectionEntry Str K V))
    (fsStr fsSlice : Nat → Str → Nat) (seed : Nat) (entries : List (CollectionEntry Str K V)) :
    Res (Except String (Item (Emitted K V))) :=
  let entries := usingCmp (em.cleanValues unit entries) (fun x y => strCmp x.key y.key)
  em.finish entries.length fun g => g.genStringOrScan sort fsStr fsSlice seed entries

/-- `emit_hash_collection_expr` (core/emit/collection_emitter.rs l.404-413); `NonLiteralKey` is `Unit`. -/
def Emitter.emitHashExpr (em : Emitter) (entries : List (CollectionEntry Unit K V)) :
    Res (Except String (Item (Emitted K V))) :=
  em.finish entries.length fun g =>
    .ok (if entries.length < 4 then g.genScanVec entries else g.genFz .hash entries)

/-- `emit_ordered_collection_expr` (core/emit/collection_emitter.rs l.416-425). -/
def Emitter.emitOrderedExpr (em : Emitter) (entries : List (CollectionEntry Unit K V)) :
    Res (Except String (Item (Emitted K V))) :=
  em.finish entries.length fun g =>
    .ok (if entries.length < 4 then g.genScanVec entries else g.genEytzingerVec entries)

/-- `emit_scalar_collection_expr` (core/emit/collection_emitter.rs l.428-437). -/
def Emitter.emitScalarExpr (em : Emitter) (entries : List (CollectionEntry Unit K V)) :
    Res (Except String (Item (Emitted K V))) :=
  em.finish entries.length fun g =>
    .ok (if entries.length < 8 then g.genScanVec entries else g.genFz .scalar entries)

/-- `emit_string_collection_expr` (core/emit/collection_emitter.rs l.440-449). -/
def Emitter.emitStringExpr (em : Emitter) (entries : List (CollectionEntry Unit K V)) :
    Res (Except String (Item (Emitted K V))) :=
  em.finish entries.length fun g =>
    .ok (if entries.length < 4 then g.genScanVec entries else g.genFz .string entries)

end Frozen.Model
