import Verif.Model.Parsing

/-!
# Model of `core/emit/generator.rs` at the level of tokens

`Model/Emit.lean` describes the emitted constructor call as a data structure (`Emitted`).  Here are the `quote!` templates of the generator: the
tokens of the constructor call (`Output::ctor`) and of the type (`Output::type_sig`), for maps and for sets.
-/

namespace Frozen.Model

variable {K V : Type}

/-! ## Pieces of templates -/

/-- `::` as `quote!` produces it. -/
def colon2 : List Tk := [.punct ':' true, .punct ':' false]

/-- `,` as `quote!` produces it. -/
def comma : Tk := .punct ',' false

/-- The path `::a::b::c`. -/
def absPath : List String → List Tk
  | [] => []
  | s :: segs => colon2 ++ .ident s :: absPath segs

/-- A numeric literal. -/
def numTk (t : Tok) : Tk := .lit (String.ofList t)

/-- `a, b, c` (a template that lists its arguments). -/
def commaSep : List (List Tk) → List Tk
  | [] => []
  | [x] => x
  | x :: y :: xs => x ++ comma :: commaSep (y :: xs)

/-- `<a, b, c>`. -/
def angle (args : List (List Tk)) : List Tk := .punct '<' false :: (commaSep args ++ [.punct '>' false])

/-- `#( #xs, )*`. -/
def commaTerm : List (List Tk) → List Tk
  | [] => []
  | x :: xs => x ++ comma :: commaTerm xs

/-- `quote!(#ty::#generics)` with `ty` an absolute path: the value of `type_sig`. -/
def sigOf (path : List String) (args : List (List Tk)) : List Tk := absPath path ++ colon2 ++ angle args

/-- `quote!(#type_sig::f(..))`. -/
def callOf (sig : List Tk) (f : String) (args : List Tk) : List Tk := sig ++ colon2 ++ [.ident f, .group .paren args]

/-- `vec![..]`. -/
def vecMacro (inner : List Tk) : List Tk := [.ident "vec", .punct '!' false, .group .bracket inner]

/-! ## What the generator knows about types and expressions -/

/-- The fields `key_type`, `value_type` and `gen_set` of `struct Generator` (core/emit/generator.rs l.16-22): the tokens of the key type, and of the
value type unless a set is generated. -/
structure GenTypes where
  keyType : List Tk
  valueType : Option (List Tk)

/-- `value_type` of the generator: `()` for sets (core/emit/generator.rs l.32). -/
def GenTypes.value (g : GenTypes) : List Tk := g.valueType.getD [.group .paren []]

/-- The tokens of key and value expressions. -/
structure ExprToks (K V : Type) where
  key : K → List Tk
  value : V → List Tk

/-- `ToTokens for CollectionEntry` (core/emit/collection_entry.rs l.34-40): `(#key, #value)`. -/
def ExprToks.entry (t : ExprToks K V) (e : K × V) : List Tk := [.group .paren (t.key e.1 ++ comma :: t.value e.2)]

/-- `#( #entries, )*`. -/
def ExprToks.entries (t : ExprToks K V) (es : List (K × V)) : List Tk := commaTerm (es.map t.entry)

/-- The tokens of `collection_magnitude` (core/emit/generator.rs l.397-405). -/
def Magnitude.tokens : Magnitude → List Tk
  | .small => absPath ["frozen_collections", "SmallCollection"]
  | .medium => absPath ["frozen_collections", "MediumCollection"]
  | .large => absPath ["frozen_collections", "LargeCollection"]

/-- `::frozen_collections::foldhash::FixedState`. -/
def fixedStatePath : List Tk := absPath ["frozen_collections", "foldhash", "FixedState"]

/-- `::frozen_collections::foldhash::FixedState::with_seed(#seed)`. -/
def fixedStateCtor (seed : Tok) : List Tk := callOf fixedStatePath "with_seed" [numTk seed]

/-- The argument `hasher_type` of `gen_inline_hash` (core/emit/collection_emitter.rs l.256, l.318, l.360, l.373, l.383, l.394). -/
def HasherTok.tyTokens : HasherTok → List Tk
  | .bridge _ => absPath ["frozen_collections", "hashers", "BridgeHasher"] ++ angle [fixedStatePath]
  | .scalar => absPath ["frozen_collections", "hashers", "ScalarHasher"]
  | .length => absPath ["frozen_collections", "hashers", "LengthHasher"]
  | .left start stop _ => sigOf ["frozen_collections", "hashers", "InlineLeftRangeHasher"] [[numTk start], [numTk stop], fixedStatePath]
  | .right start stop _ => sigOf ["frozen_collections", "hashers", "InlineRightRangeHasher"] [[numTk start], [numTk stop], fixedStatePath]

/-- The argument `hasher_ctor` of `gen_inline_hash` (core/emit/collection_emitter.rs l.257, l.319, l.361, l.374, l.384, l.395). -/
def HasherTok.ctorTokens : HasherTok → List Tk
  | .bridge seed => callOf (absPath ["frozen_collections", "hashers", "BridgeHasher"]) "new" (fixedStateCtor seed)
  | .scalar => absPath ["frozen_collections", "hashers", "ScalarHasher"] ++ [.group .brace []]
  | .length => absPath ["frozen_collections", "hashers", "LengthHasher"]
  | .left start stop seed => callOf (HasherTok.left start stop seed).tyTokens "new" (fixedStateCtor seed)
  | .right start stop seed => callOf (HasherTok.right start stop seed).tyTokens "new" (fixedStateCtor seed)

/-- `ToTokens for HashTableSlot` (core/hash_tables/hash_table_slot.rs l.32-39). -/
def slotTokens (s : Tok × Tok) : List Tk :=
  callOf (absPath ["frozen_collections", "hash_tables", "HashTableSlot"]) "new" [numTk s.1, comma, numTk s.2]

/-- The first component of `gen_inline_hash_table_components` (core/emit/generator.rs l.352-368, l.377-393): the tokens of the hash table. -/
def tableTokens (g : GenTypes) (t : ExprToks K V) (name : String) (len numSlots : Tok) (cm : Magnitude) (slots : List (List Tk))
    (es : List (K × V)) : List Tk :=
  callOf (sigOf ["frozen_collections", "hash_tables", name]
      [[.group .paren (g.keyType ++ comma :: g.value)], [numTk len], [numTk numSlots], cm.tokens]) "new_raw"
    [.group .bracket (commaTerm slots), comma, .group .bracket (t.entries es), comma]

/-- The name of the `Fz*Map` type. -/
def FzKind.mapName : FzKind → String
  | .hash => "FzHashMap" | .scalar => "FzScalarMap" | .string => "FzStringMap"

/-- The name of the `Fz*Set` type. -/
def FzKind.setName : FzKind → String
  | .hash => "FzHashSet" | .scalar => "FzScalarSet" | .string => "FzStringSet"

/-! ## The output of the generator -/

/-- The first value of `type_sig` in the `gen_*` functions, the type of the map (core/emit/generator.rs l.42-44, l.65-67, l.88-90, l.121-123,
l.149-151, l.173-175, l.207-214, l.239-241, l.263-265, l.307-309). -/
def Emitted.mapSig (g : GenTypes) : Emitted K V → List Tk
  | .scanRaw len _ => sigOf ["frozen_collections", "inline_maps", "InlineScanMap"] [g.keyType, g.value, [numTk len]]
  | .scanNew len _ => sigOf ["frozen_collections", "inline_maps", "InlineScanMap"] [g.keyType, g.value, [numTk len]]
  | .eytzingerRaw len _ => sigOf ["frozen_collections", "inline_maps", "InlineEytzingerSearchMap"] [g.keyType, g.value, [numTk len]]
  | .eytzingerNew len _ => sigOf ["frozen_collections", "inline_maps", "InlineEytzingerSearchMap"] [g.keyType, g.value, [numTk len]]
  | .dense len _ _ _ => sigOf ["frozen_collections", "inline_maps", "InlineDenseScalarLookupMap"] [g.keyType, g.value, [numTk len]]
  | .sparse len numSlots cm _ _ _ _ =>
    sigOf ["frozen_collections", "inline_maps", "InlineSparseScalarLookupMap"] [g.keyType, g.value, [numTk len], [numTk numSlots], cm.tokens]
  | .hash len numSlots cm _ _ hasher =>
    sigOf ["frozen_collections", "inline_maps", "InlineHashMap"]
      [g.keyType, g.value, [numTk len], [numTk numSlots], cm.tokens, hasher.tyTokens]
  | .hashNC len numSlots cm _ _ hasher =>
    sigOf ["frozen_collections", "inline_maps", "InlineHashMapNoCollisions"]
      [g.keyType, g.value, [numTk len], [numTk numSlots], cm.tokens, hasher.tyTokens]
  | .fz kind _ => sigOf ["frozen_collections", kind.mapName] [g.keyType, g.value]

/-- The value of `type_sig` after `if self.gen_set`, the type of the set (core/emit/generator.rs l.52-54, l.75-77, l.98-100, l.131-133, l.159-161,
l.183-185, l.218-225, l.249-251, l.273-275, l.322-324). -/
def Emitted.setSig (g : GenTypes) : Emitted K V → List Tk
  | .scanRaw len _ => sigOf ["frozen_collections", "inline_sets", "InlineScanSet"] [g.keyType, [numTk len]]
  | .scanNew len _ => sigOf ["frozen_collections", "inline_sets", "InlineScanSet"] [g.keyType, [numTk len]]
  | .eytzingerRaw len _ => sigOf ["frozen_collections", "inline_sets", "InlineEytzingerSearchSet"] [g.keyType, [numTk len]]
  | .eytzingerNew len _ => sigOf ["frozen_collections", "inline_sets", "InlineEytzingerSearchSet"] [g.keyType, [numTk len]]
  | .dense len _ _ _ => sigOf ["frozen_collections", "inline_sets", "InlineDenseScalarLookupSet"] [g.keyType, [numTk len]]
  | .sparse len numSlots cm _ _ _ _ =>
    sigOf ["frozen_collections", "inline_sets", "InlineSparseScalarLookupSet"] [g.keyType, [numTk len], [numTk numSlots], cm.tokens]
  | .hash len numSlots cm _ _ hasher =>
    sigOf ["frozen_collections", "inline_sets", "InlineHashSet"] [g.keyType, [numTk len], [numTk numSlots], cm.tokens, hasher.tyTokens]
  | .hashNC len numSlots cm _ _ hasher =>
    sigOf ["frozen_collections", "inline_sets", "InlineHashSetNoCollisions"]
      [g.keyType, [numTk len], [numTk numSlots], cm.tokens, hasher.tyTokens]
  | .fz kind _ => sigOf ["frozen_collections", kind.setName] [g.keyType]

/-- The first value of `ctor` in the `gen_*` functions, the constructor call of the map (core/emit/generator.rs l.45-49, l.68-72, l.91-95,
l.124-128, l.152-156, l.176-180, l.215, l.242-246, l.266-270, l.310-319). -/
def Emitted.mapCtor (g : GenTypes) (t : ExprToks K V) (e : Emitted K V) : List Tk :=
  match e with
  | .scanRaw _ es => callOf (e.mapSig g) "new_raw" [.group .bracket (t.entries es)]
  | .scanNew _ es => callOf (e.mapSig g) "new" (vecMacro (t.entries es))
  | .eytzingerRaw _ es => callOf (e.mapSig g) "new_raw" [.group .bracket (t.entries es)]
  | .eytzingerNew _ es => callOf (e.mapSig g) "new" (vecMacro (t.entries es))
  | .dense _ es min max => callOf (e.mapSig g) "new_raw" [.group .bracket (t.entries es), comma, numTk min, comma, numTk max]
  | .sparse _ _ _ es lookup min max =>
    callOf (e.mapSig g) "new_raw"
      [.group .bracket (t.entries es), comma, .group .bracket (commaTerm (lookup.map (fun x => [numTk x]))), comma, numTk min, comma, numTk max]
  | .hash len numSlots cm slots es hasher =>
    callOf (e.mapSig g) "new_raw"
      (tableTokens g t "InlineHashTable" len numSlots cm (slots.map slotTokens) es ++ comma :: hasher.ctorTokens)
  | .hashNC len numSlots cm slots es hasher =>
    callOf (e.mapSig g) "new_raw"
      (tableTokens g t "InlineHashTableNoCollisions" len numSlots cm (slots.map (fun x => [numTk x])) es ++ comma :: hasher.ctorTokens)
  | .fz _ es => callOf (e.mapSig g) "new" (vecMacro (t.entries es))

/-- The function that makes a set of a map: `from` for the `Fz*` types, `new` for the inline types (core/emit/generator.rs l.55, l.78, l.101,
l.134, l.162, l.186, l.226, l.252, l.276, l.325). -/
def Emitted.setFn : Emitted K V → String
  | .fz _ _ => "from"
  | _ => "new"

/-- `Output::type_sig` (core/emit/generator.rs l.24-27). -/
def Emitted.sigTokens (g : GenTypes) (e : Emitted K V) : List Tk :=
  if g.valueType.isNone then e.setSig g else e.mapSig g

/-- `Output::ctor` (core/emit/generator.rs l.24-27). -/
def Emitted.ctorTokens (g : GenTypes) (t : ExprToks K V) (e : Emitted K V) : List Tk :=
  if g.valueType.isNone then callOf (e.setSig g) e.setFn (e.mapCtor g t) else e.mapCtor g t

/-- The tokens returned by the `emit_*` functions and by the macros: `postflight` (core/emit/collection_emitter.rs l.474-522) applied to the output
of the generator. -/
def emittedTokens (vis : Vis) (g : GenTypes) (t : ExprToks K V) (item : Item (Emitted K V)) : List Tk :=
  declTokens vis (item.ctor.sigTokens g) (fun e => e.ctorTokens g t) item

end Frozen.Model
