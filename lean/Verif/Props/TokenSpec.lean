import Verif.Props.MacroSpec
import Verif.Model.Compile
import Verif.Model.ConstEval
import Verif.Model.Tokens

/-!
# Vocabulary for the tokens of expansions: names and types

Nothing here refers to the templates of the generator in `Model/Tokens.lean`, only to what is put into them (`GenTypes`, `ExprToks`).
-/

namespace Frozen.Props

open Frozen.Spec Frozen.Model

/-! ## Names -/

/-- How an identifier is resolved. -/
inductive NameUse where
  /-- looked up where the code stands: a keyword, a name in scope, or the first segment of a relative path -/
  | free (s : String)
  /-- `::s`, the name of a crate -/
  | rooted (s : String)
  /-- `path::s` or `Type<..>::s` -/
  | member (s : String)
deriving DecidableEq

/-- Where in a path the reader is. -/
inductive PathPos where
  /-- not in a path -/
  | fresh
  /-- just after a segment of a path -/
  | segment
  /-- after the first colon of `::`; the flag says whether a segment came before -/
  | half (inPath : Bool)
  /-- after `::` -/
  | sep (inPath : Bool)
deriving DecidableEq

/-- The position after a token. -/
def PathPos.next : PathPos → Tk → PathPos
  | _, .ident _ => .segment
  | _, .lit _ => .fresh
  | _, .group _ _ => .fresh
  | p, .punct c joint =>
    if c = ':' then
      match p, joint with
      | .half inPath, _ => .sep inPath
      | p, true => .half (p == .segment)
      | _, false => .fresh
    else if c = '>' then .segment
    else .fresh

/-- How an identifier at a position is resolved. -/
def PathPos.use : PathPos → String → NameUse
  | .sep true, s => .member s
  | .sep false, s => .rooted s
  | _, s => .free s

mutual
/-- The names in a token. -/
def namesTk (p : PathPos) : Tk → List NameUse
  | .ident s => [p.use s]
  | .punct _ _ => []
  | .lit _ => []
  | .group _ inner => namesIn .fresh inner
/-- The names in code, in order. -/
def namesIn (p : PathPos) : List Tk → List NameUse
  | [] => []
  | t :: ts => namesTk p t ++ namesIn (p.next t) ts
end

/-- The names that the caller of a macro wrote: those in the given pieces of code. -/
def WrittenIn (pieces : List (List Tk)) (u : NameUse) : Prop := ∃ ts ∈ pieces, u ∈ namesIn .fresh ts

/-- The code means the same wherever it stands: apart from the pieces that the caller wrote and the names it declares, it consists of
keywords and of paths into the crate `frozen_collections`. -/
def SelfContained (pieces : List (List Tk)) (declared : List String) (ts : List Tk) : Prop :=
  ∀ u ∈ namesIn .fresh ts, WrittenIn pieces u ∨ (∃ s, u = .member s) ∨ u = .rooted "frozen_collections" ∨
    ∃ s, u = .free s ∧ (s ∈ ["type", "static", "let", "mut"] ∨ s ∈ declared)

/-- The constructor call lists its entries with `vec!`. -/
def UsesVec {K V : Type} : Emitted K V → Prop
  | .scanNew _ _ => True
  | .eytzingerNew _ _ => True
  | .fz _ _ => True
  | _ => False

/-- The item is initialised on first use. -/
def IsLazy {α : Type} : Item α → Prop
  | .staticLazy _ _ _ => True
  | _ => False

/-- The names that an item declares. -/
def declaredNames {α : Type} : Item α → List String
  | .staticConst s a _ => s :: a.toList
  | .staticLazy s a _ => s :: a.toList
  | .letStmt _ s a _ => s :: a.toList
  | .expr _ => []

/-! ## Types -/

/-- Types of the emitted code, and the const generics among their arguments. -/
inductive RTy where
  /-- a type the caller wrote -/
  | user (ts : List Tk)
  | unit
  | pair (a b : RTy)
  | prim (name : String)
  | const (n : Nat)
  | adt (path : List String) (args : List RTy)

/-- The tokens of `::a::b`. -/
def rootPath (p : List String) : List Tk := p.flatMap (fun s => [.punct ':' true, .punct ':' false, .ident s])

/-- The type aliases of core/traits/collection_magnitude.rs l.14, l.22 and l.30. -/
def aliases : List (List String × String) :=
  [(["frozen_collections", "SmallCollection"], "u8"), (["frozen_collections", "MediumCollection"], "u16"),
   (["frozen_collections", "LargeCollection"], "usize")]

mutual
/-- The tokens denote the type. -/
inductive TyToks [Target] (U : List Tk → Prop) : List Tk → RTy → Prop
  | user {ts : List Tk} (h : U ts) : TyToks U ts (.user ts)
  | unit : TyToks U [.group .paren []] .unit
  | pair {a b : List Tk} {A B : RTy} (ha : TyToks U a A) (hb : TyToks U b B) : TyToks U [.group .paren (a ++ .punct ',' false :: b)] (.pair A B)
  | alias {p : List String} {name : String} (h : (p, name) ∈ aliases) : TyToks U (rootPath p) (.prim name)
  | plain {p : List String} (h : ∀ name, (p, name) ∉ aliases) : TyToks U (rootPath p) (.adt p [])
  | generic {p : List String} {a : List Tk} {A : List RTy} (h : ArgToks U a A) :
      TyToks U (rootPath p ++ [.punct '<' false] ++ a ++ [.punct '>' false]) (.adt p A)
  | turbofish {p : List String} {a : List Tk} {A : List RTy} (h : ArgToks U a A) :
      TyToks U (rootPath p ++ [.punct ':' true, .punct ':' false, .punct '<' false] ++ a ++ [.punct '>' false]) (.adt p A)
/-- The tokens denote a generic argument. -/
inductive ArgTok [Target] (U : List Tk → Prop) : List Tk → RTy → Prop
  | ty {a : List Tk} {A : RTy} (h : TyToks U a A) : ArgTok U a A
  | const {t : Tok} {n : Nat} (h : UsizeLit t n) : ArgTok U [.lit (String.ofList t)] (.const n)
/-- The tokens denote the generic arguments. -/
inductive ArgToks [Target] (U : List Tk → Prop) : List Tk → List RTy → Prop
  | one {a : List Tk} {A : RTy} (h : ArgTok U a A) : ArgToks U a [A]
  | cons {a as : List Tk} {A : RTy} {As : List RTy} (h : ArgTok U a A) (hs : ArgToks U as As) :
      ArgToks U (a ++ .punct ',' false :: as) (A :: As)
end

/-- The tokens denote the type and can stand in front of `::function` in an expression. -/
def ExprPath [Target] (U : List Tk → Prop) (ts : List Tk) (p : List String) (A : List RTy) : Prop :=
  ∃ a, ArgToks U a A ∧ ts = rootPath p ++ [.punct ':' true, .punct ':' false, .punct '<' false] ++ a ++ [.punct '>' false]

/-! ## Expressions -/

/-- What the caller's code means: which tokens are their types, and which are expressions of which type and value.  `eqK`, `cmp` and `fz` are as for
`Emitted.compile`. -/
structure Prog (K V F : Type) where
  userTy : List Tk → Prop
  keyExpr : List Tk → RTy → K → Prop
  valExpr : List Tk → RTy → V → Prop
  eqK : K → K → Bool
  cmp : K → K → Ordering
  fz : FzKind → List (K × V) → Option (Res F)

/-- `a, b, c` or `a, b, c,`. -/
inductive Items {α : Type} (R : List Tk → α → Prop) : List Tk → List α → Prop
  | nil : Items R [] []
  | last {t : List Tk} {a : α} (h : R t a) : Items R t [a]
  | cons {t ts : List Tk} {a : α} {as : List α} (h : R t a) (hs : Items R ts as) : Items R (t ++ .punct ',' false :: ts) (a :: as)

/-- `f(args)` after a path. -/
def callToks (path : List Tk) (f : String) (args : List Tk) : List Tk :=
  path ++ [.punct ':' true, .punct ':' false, .ident f, .group .paren args]

/-- `(key, value)`. -/
def PairToks {K V F : Type} (P : Prog K V F) (tk tv : RTy) (ts : List Tk) (e : K × V) : Prop :=
  ∃ k v, ts = [.group .paren (k ++ .punct ',' false :: v)] ∧ P.keyExpr k tk e.1 ∧ P.valExpr v tv e.2

/-- The unsigned types and their maxima. -/
def primMax [Target] : List (String × Nat) := [("u8", 255), ("u16", 65535), ("usize", usizeMax)]

/-- A literal of the named unsigned type. -/
def LitOf [Target] (ty : String) (ts : List Tk) (n : Nat) : Prop :=
  ∃ t max, ts = [.lit (String.ofList t)] ∧ (ty, max) ∈ primMax ∧ NumLit ty max t n

/-- `HashTableSlot::new(min, max)`, a slot of a table with numbers of the given type. -/
def SlotToks [Target] (ty : String) (ts : List Tk) (s : Slot) : Prop :=
  ∃ a b, ts = callToks (rootPath ["frozen_collections", "hash_tables", "HashTableSlot"]) "new" (a ++ .punct ',' false :: b) ∧
    LitOf ty a s.minIndex ∧ LitOf ty b s.maxIndex

/-- The `FixedState` of a seed. -/
def SeedToks (ts : List Tk) (n : Nat) : Prop :=
  ∃ t, ts = callToks (rootPath ["frozen_collections", "foldhash", "FixedState"]) "with_seed" [.lit (String.ofList t)] ∧
    NumLit "u64" 18446744073709551615 t n

/-- The type `FixedState`. -/
def fixedState : RTy := .adt ["frozen_collections", "foldhash", "FixedState"] []

/-- A hasher expression, its type and its value. -/
inductive HasherMeans [Target] (U : List Tk → Prop) : List Tk → RTy → InlineHasher → Prop
  /-- `BridgeHasher::new(bh)` (core/hashers/bridge_hasher.rs l.16) -/
  | bridge {s : List Tk} {n : Nat} (h : SeedToks s n) :
      HasherMeans U (callToks (rootPath ["frozen_collections", "hashers", "BridgeHasher"]) "new" s)
        (.adt ["frozen_collections", "hashers", "BridgeHasher"] [fixedState]) (.bridge n)
  | scalar : HasherMeans U (rootPath ["frozen_collections", "hashers", "ScalarHasher"] ++ [.group .brace []])
      (.adt ["frozen_collections", "hashers", "ScalarHasher"] []) .scalar
  | length : HasherMeans U (rootPath ["frozen_collections", "hashers", "LengthHasher"])
      (.adt ["frozen_collections", "hashers", "LengthHasher"] []) .length
  /-- `InlineLeftRangeHasher::<start, end, BH>::new(bh)` (core/hashers/inline_left_range_hasher.rs l.17) -/
  | left {ty s : List Tk} {a b n : Nat} (ht : ExprPath U ty ["frozen_collections", "hashers", "InlineLeftRangeHasher"] [.const a, .const b, fixedState])
      (h : SeedToks s n) : HasherMeans U (callToks ty "new" s)
        (.adt ["frozen_collections", "hashers", "InlineLeftRangeHasher"] [.const a, .const b, fixedState]) (.left a b n)
  /-- `InlineRightRangeHasher::<start, end, BH>::new(bh)` (core/hashers/inline_right_range_hasher.rs l.17) -/
  | right {ty s : List Tk} {a b n : Nat} (ht : ExprPath U ty ["frozen_collections", "hashers", "InlineRightRangeHasher"] [.const a, .const b, fixedState])
      (h : SeedToks s n) : HasherMeans U (callToks ty "new" s)
        (.adt ["frozen_collections", "hashers", "InlineRightRangeHasher"] [.const a, .const b, fixedState]) (.right a b n)

/-- `[slots], [entries],` or without the last comma. -/
def TableArgs (ts ss es : List Tk) : Prop :=
  ∃ tail, ts = [.group .bracket ss, .punct ',' false, .group .bracket es] ++ tail ∧ (tail = [] ∨ tail = [.punct ',' false])

/-- A path of a map type. -/
abbrev mapPath (name : String) : List String := ["frozen_collections", "inline_maps", name]

/-- A path of a hash table type. -/
abbrev tablePath (name : String) : List String := ["frozen_collections", "hash_tables", name]

/-- `vec![..]`. -/
def vecToks (inner : List Tk) : List Tk := [.ident "vec", .punct '!' false, .group .bracket inner]

variable {K V F : Type}

/-- A constructor expression of a map, its type and the outcome of evaluating it.  One rule for every constructor, according to its signature. -/
inductive MapMeans [Target] (P : Prog K V F) : List Tk → RTy → Res (InlineMap K V ⊕ F) → Prop
  /-- `InlineScanMap::new_raw([(K, V); SZ])` (core/inline_maps/inline_scan_map.rs l.54) -/
  | scanRaw {ty es : List Tk} {tk tv : RTy} {n : Nat} {entries : List (K × V)}
      (ht : ExprPath P.userTy ty (mapPath "InlineScanMap") [tk, tv, .const n]) (he : Items (PairToks P tk tv) es entries) (hn : entries.length = n) :
      MapMeans P (callToks ty "new_raw" [.group .bracket es]) (.adt (mapPath "InlineScanMap") [tk, tv, .const n])
        (.ok (.inl { sz := n, repr := .scan { entries := entries } }))
  /-- `InlineScanMap::new(Vec<(K, V)>)` (core/inline_maps/inline_scan_map.rs l.45) -/
  | scanNew {ty es : List Tk} {tk tv : RTy} {n : Nat} {entries : List (K × V)}
      (ht : ExprPath P.userTy ty (mapPath "InlineScanMap") [tk, tv, .const n]) (he : Items (PairToks P tk tv) es entries) :
      MapMeans P (callToks ty "new" (vecToks es)) (.adt (mapPath "InlineScanMap") [tk, tv, .const n])
        (inlRes (InlineMap.scanNew n P.eqK entries))
  /-- `InlineEytzingerSearchMap::new_raw([(K, V); SZ])` (core/inline_maps/inline_eytzinger_search_map.rs l.63) -/
  | eytzingerRaw {ty es : List Tk} {tk tv : RTy} {n : Nat} {entries : List (K × V)}
      (ht : ExprPath P.userTy ty (mapPath "InlineEytzingerSearchMap") [tk, tv, .const n]) (he : Items (PairToks P tk tv) es entries)
      (hn : entries.length = n) :
      MapMeans P (callToks ty "new_raw" [.group .bracket es]) (.adt (mapPath "InlineEytzingerSearchMap") [tk, tv, .const n])
        (.ok (.inl { sz := n, repr := .eytzinger { entries := entries } }))
  /-- `InlineEytzingerSearchMap::new(Vec<(K, V)>)` (core/inline_maps/inline_eytzinger_search_map.rs l.46) -/
  | eytzingerNew {ty es : List Tk} {tk tv : RTy} {n : Nat} {entries : List (K × V)}
      (ht : ExprPath P.userTy ty (mapPath "InlineEytzingerSearchMap") [tk, tv, .const n]) (he : Items (PairToks P tk tv) es entries) :
      MapMeans P (callToks ty "new" (vecToks es)) (.adt (mapPath "InlineEytzingerSearchMap") [tk, tv, .const n])
        (inlRes (InlineMap.eytzingerNew n P.cmp entries))
  /-- `InlineDenseScalarLookupMap::new_raw([(K, V); SZ], usize, usize)` (core/inline_maps/inline_dense_scalar_lookup_map.rs l.42) -/
  | dense {ty es a b : List Tk} {tk tv : RTy} {n lo hi : Nat} {entries : List (K × V)}
      (ht : ExprPath P.userTy ty (mapPath "InlineDenseScalarLookupMap") [tk, tv, .const n]) (he : Items (PairToks P tk tv) es entries)
      (hn : entries.length = n) (ha : LitOf "usize" a lo) (hb : LitOf "usize" b hi) :
      MapMeans P (callToks ty "new_raw" ([.group .bracket es, .punct ',' false] ++ a ++ .punct ',' false :: b))
        (.adt (mapPath "InlineDenseScalarLookupMap") [tk, tv, .const n])
        (.ok (.inl { sz := n, repr := .dense { min := lo, max := hi, entries := entries } }))
  /-- `InlineSparseScalarLookupMap::new_raw([(K, V); SZ], [CM; LTSZ], usize, usize)` (core/inline_maps/inline_sparse_scalar_lookup_map.rs l.45) -/
  | sparse {ty es ls a b : List Tk} {tk tv : RTy} {n m lo hi : Nat} {cm : String} {entries : List (K × V)} {lookup : List Nat}
      (ht : ExprPath P.userTy ty (mapPath "InlineSparseScalarLookupMap") [tk, tv, .const n, .const m, .prim cm])
      (he : Items (PairToks P tk tv) es entries) (hn : entries.length = n) (hl : Items (LitOf cm) ls lookup) (hm : lookup.length = m)
      (ha : LitOf "usize" a lo) (hb : LitOf "usize" b hi) :
      MapMeans P (callToks ty "new_raw"
          ([.group .bracket es, .punct ',' false, .group .bracket ls, .punct ',' false] ++ a ++ .punct ',' false :: b))
        (.adt (mapPath "InlineSparseScalarLookupMap") [tk, tv, .const n, .const m, .prim cm])
        (.ok (.inl { sz := n, repr := .sparse { min := lo, max := hi, lookup := lookup, entries := entries } }))
  /-- `InlineHashMap::new_raw(InlineHashTable<(K, V), SZ, NHS, CM>, BH)` (core/inline_maps/inline_hash_map.rs l.47) of
  `InlineHashTable::new_raw([HashTableSlot<CM>; NHS], [T; SZ])` (core/hash_tables/inline_hash_table.rs l.29) -/
  | hash {ty tty targs ss es h : List Tk} {tk tv th : RTy} {n m : Nat} {cm : String} {slots : List Slot} {entries : List (K × V)} {hv : InlineHasher}
      (ht : ExprPath P.userTy ty (mapPath "InlineHashMap") [tk, tv, .const n, .const m, .prim cm, th])
      (htt : ExprPath P.userTy tty (tablePath "InlineHashTable") [.pair tk tv, .const n, .const m, .prim cm]) (hta : TableArgs targs ss es)
      (hs : Items (SlotToks cm) ss slots) (hm : slots.length = m) (he : Items (PairToks P tk tv) es entries) (hn : entries.length = n)
      (hh : HasherMeans P.userTy h th hv) :
      MapMeans P (callToks ty "new_raw" (callToks tty "new_raw" targs ++ .punct ',' false :: h))
        (.adt (mapPath "InlineHashMap") [tk, tv, .const n, .const m, .prim cm, th]) (inlRes (runHash n slots entries hv))
  /-- `InlineHashMapNoCollisions::new_raw(InlineHashTableNoCollisions<(K, V), SZ, NHS, CM>, BH)`
  (core/inline_maps/inline_hash_map_no_collisions.rs l.47) of `InlineHashTableNoCollisions::new_raw([CM; NHS], [T; SZ])`
  (core/hash_tables/inline_hash_table_no_collisions.rs l.27) -/
  | hashNC {ty tty targs ss es h : List Tk} {tk tv th : RTy} {n m : Nat} {cm : String} {slots : List Nat} {entries : List (K × V)} {hv : InlineHasher}
      (ht : ExprPath P.userTy ty (mapPath "InlineHashMapNoCollisions") [tk, tv, .const n, .const m, .prim cm, th])
      (htt : ExprPath P.userTy tty (tablePath "InlineHashTableNoCollisions") [.pair tk tv, .const n, .const m, .prim cm]) (hta : TableArgs targs ss es)
      (hs : Items (LitOf cm) ss slots) (hm : slots.length = m) (he : Items (PairToks P tk tv) es entries) (hn : entries.length = n)
      (hh : HasherMeans P.userTy h th hv) :
      MapMeans P (callToks ty "new_raw" (callToks tty "new_raw" targs ++ .punct ',' false :: h))
        (.adt (mapPath "InlineHashMapNoCollisions") [tk, tv, .const n, .const m, .prim cm, th]) (inlRes (runHashNC n slots entries hv))
  /-- `Fz*Map::new(Vec<(K, V)>)` (core/fz_maps/fz_hash_map.rs, fz_scalar_map.rs, fz_string_map.rs) -/
  | fz {ty es : List Tk} {tk tv : RTy} {kind : FzKind} {name : String} {entries : List (K × V)} {r : Res F}
      (hk : (kind, name) ∈ [(FzKind.hash, "FzHashMap"), (.scalar, "FzScalarMap"), (.string, "FzStringMap")])
      (ht : ExprPath P.userTy ty ["frozen_collections", name] [tk, tv]) (he : Items (PairToks P tk tv) es entries)
      (hr : P.fz kind entries = some r) :
      MapMeans P (callToks ty "new" (vecToks es)) (.adt ["frozen_collections", name] [tk, tv]) (inrRes r)

/-- Which function makes which set of which map: the `new` functions of core/inline_sets and the `From` implementations of
core/fz_sets. -/
def setCtors : List (List String × String × List String) :=
  [(["frozen_collections", "inline_sets", "InlineScanSet"], "new", mapPath "InlineScanMap"),
   (["frozen_collections", "inline_sets", "InlineEytzingerSearchSet"], "new", mapPath "InlineEytzingerSearchMap"),
   (["frozen_collections", "inline_sets", "InlineDenseScalarLookupSet"], "new", mapPath "InlineDenseScalarLookupMap"),
   (["frozen_collections", "inline_sets", "InlineSparseScalarLookupSet"], "new", mapPath "InlineSparseScalarLookupMap"),
   (["frozen_collections", "inline_sets", "InlineHashSet"], "new", mapPath "InlineHashMap"),
   (["frozen_collections", "inline_sets", "InlineHashSetNoCollisions"], "new", mapPath "InlineHashMapNoCollisions"),
   (["frozen_collections", "FzHashSet"], "from", ["frozen_collections", "FzHashMap"]),
   (["frozen_collections", "FzScalarSet"], "from", ["frozen_collections", "FzScalarMap"]),
   (["frozen_collections", "FzStringSet"], "from", ["frozen_collections", "FzStringMap"])]

/-- A constructor expression of a set, whose type has the arguments of the map's but the value type, which is `()`. -/
inductive SetMeans [Target] (P : Prog K V F) : List Tk → RTy → Res (InlineMap K V ⊕ F) → Prop
  | set {ty m : List Tk} {p q : List String} {f : String} {tk : RTy} {args : List RTy} {r : Res (InlineMap K V ⊕ F)} (hp : (p, f, q) ∈ setCtors)
      (ht : ExprPath P.userTy ty p (tk :: args)) (hm : MapMeans P m (.adt q (tk :: .unit :: args)) r) :
      SetMeans P (callToks ty f m) (.adt p (tk :: args)) r

/-- A constructor expression of a map or a set. -/
def CollMeans [Target] (P : Prog K V F) (isMap : Bool) (ts : List Tk) (T : RTy) (r : Res (InlineMap K V ⊕ F)) : Prop :=
  if isMap then MapMeans P ts T r else SetMeans P ts T r

/-! ## The caller's code -/

/-- The value type of the emitted code: the caller's, or `()` for sets. -/
def GenTypes.valueRTy (g : GenTypes) : RTy :=
  match g.valueType with
  | some ts => .user ts
  | none => .unit

/-- What is assumed of the caller's code: the tokens given to the generator as types are types, and those given as keys and values of the entries are
expressions of these types. -/
structure CallerOk (P : Prog K V F) (g : GenTypes) (t : ExprToks K V) (e : Emitted K V) : Prop where
  keyTy : P.userTy g.keyType
  valTy : ∀ ts, g.valueType = some ts → P.userTy ts
  exprs : ∀ x ∈ e.entries, P.keyExpr (t.key x.1) (.user g.keyType) x.1 ∧ P.valExpr (t.value x.2) (GenTypes.valueRTy g) x.2

/-- The pieces of code that the caller wrote: visibility, types and the entries. -/
def callerPieces (vis : Vis) (g : GenTypes) (t : ExprToks K V) (es : List (K × V)) : List (List Tk) :=
  vis.tokens :: g.keyType :: (g.valueType.toList ++ es.flatMap (fun x => [t.key x.1, t.value x.2]))

/-! ## Declarations -/

/-- What is declared: the name of the collection, and the name of an alias for its type if there is one. -/
inductive DeclKind where
  | constant (name : String) (alias : Option String)
  | onFirstUse (name : String) (alias : Option String)
  | local_ (mutable : Bool) (name : String) (alias : Option String)
  | expression
deriving DecidableEq

/-- `std::sync::LazyLock`. -/
def lazyToks : List Tk :=
  [.ident "std", .punct ':' true, .punct ':' false, .ident "sync", .punct ':' true, .punct ':' false, .ident "LazyLock"]

/-- A type name: the type itself, or an alias for it that is declared before. -/
inductive Named [Target] (U : List Tk → Prop) (vis : List Tk) : Option String → List Tk → List Tk → RTy → Prop
  | direct {d : List Tk} {T : RTy} (h : TyToks U d T) : Named U vis none [] d T
  | alias {d : List Tk} {T : RTy} {al : String} (h : TyToks U d T) :
      Named U vis (some al) (vis ++ [.ident "type", .ident al, .punct '=' false] ++ d ++ [.punct ';' false]) [.ident al] T

/-- A well-typed declaration of a collection (or an expression): the initializer has the declared type. -/
inductive Declares [Target] (P : Prog K V F) (isMap : Bool) (vis : List Tk) : List Tk → DeclKind → Res (InlineMap K V ⊕ F) → Prop
  | constant {pre d i : List Tk} {name : String} {al : Option String} {T : RTy} {r : Res (InlineMap K V ⊕ F)}
      (ht : Named P.userTy vis al pre d T)
      (hi : CollMeans P isMap i T r) :
      Declares P isMap vis (pre ++ vis ++ [.ident "static", .ident name, .punct ':' false] ++ d ++ [.punct '=' false] ++ i ++ [.punct ';' false])
        (.constant name al) r
  | onFirstUse {pre d i : List Tk} {name : String} {al : Option String} {T : RTy} {r : Res (InlineMap K V ⊕ F)}
      (ht : Named P.userTy vis al pre d T)
      (hi : CollMeans P isMap i T r) :
      Declares P isMap vis (pre ++ vis ++ [.ident "static", .ident name, .punct ':' false] ++ lazyToks ++ [.punct '<' false] ++ d ++
        [.punct '>' false, .punct '=' false] ++ lazyToks ++ [.punct ':' true, .punct ':' false, .ident "new",
        .group .paren [.punct '|' true, .punct '|' false, .group .brace i], .punct ';' false]) (.onFirstUse name al) r
  | local_ {pre d i : List Tk} {mutable : Bool} {name : String} {al : Option String} {T : RTy} {r : Res (InlineMap K V ⊕ F)}
      (ht : Named P.userTy [] al pre d T)
      (hi : CollMeans P isMap i T r) :
      Declares P isMap vis (pre ++ [.ident "let"] ++ (if mutable then [.ident "mut"] else []) ++ [.ident name, .punct ':' false] ++ d ++
        [.punct '=' false] ++ i ++ [.punct ';' false]) (.local_ mutable name al) r
  | expression {i : List Tk} {T : RTy} {r : Res (InlineMap K V ⊕ F)} (hi : CollMeans P isMap i T r) : Declares P isMap vis i .expression r

/-- What an item declares. -/
def declKind {α : Type} : Item α → DeclKind
  | .staticConst s al _ => .constant s al
  | .staticLazy s al _ => .onFirstUse s al
  | .letStmt mu s al _ => .local_ mu s al
  | .expr _ => .expression

end Frozen.Props
