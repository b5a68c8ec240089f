import Verif.Model.History

/-!
# Model of the traits as the types of trait objects

The declarations of the traits of the crate (core/traits), as far as they decide whether a trait can be the type of an object, and calls through objects of
`dyn MapQuery<Q, V>`.
-/

namespace Frozen.Model

/-- A type in a signature.  References, arrays and tuples are names applied to arguments; lifetimes are left out. -/
inductive SigTy where
  /-- `Self` -/
  | self
  /-- `Self::Name` -/
  | own (name : String)
  | name (n : String)
  /-- a name applied to one more argument -/
  | of (f x : SigTy)
deriving DecidableEq

/-- How a function of a trait takes `self`. -/
inductive Receiver where
  | none | value | ref | refMut
deriving DecidableEq

/-- A function of a trait: the generic parameters that are no lifetimes, the types of the other arguments and of the result, and whether it has the bound
`Self: Sized`. -/
structure TraitFn where
  name : String
  receiver : Receiver
  generics : List String := []
  args : List SigTy := []
  result : SigTy
  selfSized : Bool := false
deriving DecidableEq

/-- An associated type and its generic parameters, lifetimes included. -/
structure TraitTy where
  name : String
  generics : List String := []
deriving DecidableEq

/-- A supertrait and the types it is applied to. -/
structure Supertrait where
  name : String
  args : List SigTy := []
deriving DecidableEq

/-- A trait. -/
structure TraitDecl where
  name : String
  supers : List Supertrait := []
  consts : List String := []
  types : List TraitTy := []
  fns : List TraitFn := []
deriving DecidableEq

/-- `&T`. -/
def SigTy.ref (t : SigTy) : SigTy := .of (.name "&") t

/-- `&mut T`. -/
def SigTy.refMut (t : SigTy) : SigTy := .of (.name "&mut") t

/-- `Option<T>`. -/
def SigTy.option (t : SigTy) : SigTy := .of (.name "Option") t

/-- `[T; N]`. -/
def SigTy.array (t n : SigTy) : SigTy := .of (.of (.name "[;]") t) n

/-- `(T, U)`. -/
def SigTy.pair (t u : SigTy) : SigTy := .of (.of (.name "(,)") t) u

/-- `Len` (core/traits/len.rs l.9-17). -/
def lenDecl : TraitDecl where
  name := "Len"
  fns := [{ name := "len", receiver := .ref, result := .name "usize" }, { name := "is_empty", receiver := .ref, result := .name "bool" }]

/-- `MapQuery<Q, V>` (core/traits/map_query.rs l.9-21). -/
def mapQueryDecl : TraitDecl where
  name := "MapQuery"
  supers := [{ name := "Len" }]
  fns := [{ name := "get", receiver := .ref, args := [.ref (.name "Q")], result := .option (.ref (.name "V")) },
    { name := "get_mut", receiver := .refMut, args := [.ref (.name "Q")], result := .option (.refMut (.name "V")) },
    { name := "contains_key", receiver := .ref, args := [.ref (.name "Q")], result := .name "bool" }]

/-- `MapIteration<K, V>` (core/traits/map_iteration.rs l.4-70).  The bounds of the associated types are left out. -/
def mapIterationDecl : TraitDecl where
  name := "MapIteration"
  supers := [{ name := "IntoIterator", args := [.pair (.name "K") (.name "V")] }]
  types := [{ name := "Iterator", generics := ["'a"] }, { name := "KeyIterator", generics := ["'a"] }, { name := "ValueIterator", generics := ["'a"] },
    { name := "IntoKeyIterator" }, { name := "IntoValueIterator" }, { name := "MutIterator", generics := ["'a"] },
    { name := "ValueMutIterator", generics := ["'a"] }]
  fns := [{ name := "iter", receiver := .ref, result := .own "Iterator" }, { name := "iter_mut", receiver := .refMut, result := .own "MutIterator" },
    { name := "keys", receiver := .ref, result := .own "KeyIterator" }, { name := "into_keys", receiver := .value, result := .own "IntoKeyIterator" },
    { name := "values", receiver := .ref, result := .own "ValueIterator" },
    { name := "values_mut", receiver := .refMut, result := .own "ValueMutIterator" },
    { name := "into_values", receiver := .value, result := .own "IntoValueIterator" }]

/-- `MapExtras<K, V, Q>` (core/traits/map_extras.rs l.10-24). -/
def mapExtrasDecl : TraitDecl where
  name := "MapExtras"
  fns := [{ name := "get_key_value", receiver := .ref, args := [.ref (.name "Q")], result := .option (.pair (.ref (.name "K")) (.ref (.name "V"))) },
    { name := "get_disjoint_mut", receiver := .refMut, generics := ["N"], args := [.array (.ref (.name "Q")) (.name "N")],
      result := .array (.option (.refMut (.name "V"))) (.name "N") },
    { name := "get_disjoint_unchecked_mut", receiver := .refMut, generics := ["N"], args := [.array (.ref (.name "Q")) (.name "N")],
      result := .array (.option (.refMut (.name "V"))) (.name "N") }]

/-- `Map<K, V, Q>` (core/traits/map.rs l.8). -/
def mapDecl : TraitDecl where
  name := "Map"
  supers := [{ name := "MapQuery", args := [.name "Q", .name "V"] }, { name := "MapIteration", args := [.name "K", .name "V"] },
    { name := "MapExtras", args := [.name "K", .name "V", .name "Q"] }]

/-- `SetQuery<Q>` (core/traits/set_query.rs l.9-13). -/
def setQueryDecl : TraitDecl where
  name := "SetQuery"
  supers := [{ name := "Len" }]
  fns := [{ name := "contains", receiver := .ref, args := [.ref (.name "Q")], result := .name "bool" }]

/-- `SetIteration<T>` (core/traits/set_iteration.rs l.5-15). -/
def setIterationDecl : TraitDecl where
  name := "SetIteration"
  supers := [{ name := "IntoIterator", args := [.name "T"] }]
  types := [{ name := "Iterator", generics := ["'a"] }]
  fns := [{ name := "iter", receiver := .ref, result := .own "Iterator" }]

/-- `SetExtras<T, Q>` (core/traits/set_extras.rs l.8-12). -/
def setExtrasDecl : TraitDecl where
  name := "SetExtras"
  fns := [{ name := "get", receiver := .ref, args := [.ref (.name "Q")], result := .option (.ref (.name "T")) }]

/-- `Set<T, Q>` (core/traits/set.rs l.8). -/
def setDecl : TraitDecl where
  name := "Set"
  supers := [{ name := "SetQuery", args := [.name "Q"] }, { name := "SetIteration", args := [.name "T"] },
    { name := "SetExtras", args := [.name "T", .name "Q"] }]

/-- A function of `SetOps` that makes an iterator. -/
def setOpFn (name ty : String) : TraitFn where
  name := name
  receiver := .ref
  generics := ["ST"]
  args := [.ref (.name "ST")]
  result := .of (.of (.of (.name ty) .self) (.name "ST")) (.name "T")
  selfSized := true

/-- A function of `SetOps` that answers yes or no. -/
def setCheckFn (name : String) : TraitFn where
  name := name
  receiver := .ref
  generics := ["ST"]
  args := [.ref (.name "ST")]
  result := .name "bool"
  selfSized := true

/-- `SetOps<T>` (core/traits/set_ops.rs l.5-101). -/
def setOpsDecl : TraitDecl where
  name := "SetOps"
  fns := [setOpFn "union" "Union", setOpFn "symmetric_difference" "SymmetricDifference", setOpFn "difference" "Difference",
    setOpFn "intersection" "Intersection", setCheckFn "is_disjoint", setCheckFn "is_subset", setCheckFn "is_superset"]

/-- `Hasher<T>` (core/traits/hasher.rs l.7-13). -/
def hasherDecl : TraitDecl where
  name := "Hasher"
  fns := [{ name := "hash_one", receiver := .ref, args := [.ref (.name "T")], result := .name "u64" }]

/-- `Scalar` (core/traits/scalar.rs l.4-7). -/
def scalarDecl : TraitDecl where
  name := "Scalar"
  supers := [{ name := "Ord" }, { name := "Clone" }, { name := "Copy" }]
  fns := [{ name := "index", receiver := .ref, result := .name "usize" }]

/-- `CollectionMagnitude` (core/traits/collection_magnitude.rs l.5-11). -/
def magnitudeDecl : TraitDecl where
  name := "CollectionMagnitude"
  supers := [{ name := "Copy" }, { name := "TryFrom", args := [.name "usize"] }, { name := "Into", args := [.name "usize"] }]
  consts := ["MAX_CAPACITY", "ZERO"]

/-- The traits of the crate (core/traits/mod.rs l.3-15). -/
def crateTraits : List TraitDecl :=
  [lenDecl, mapQueryDecl, mapIterationDecl, mapExtrasDecl, mapDecl, setQueryDecl, setIterationDecl, setExtrasDecl, setDecl, setOpsDecl, hasherDecl,
   scalarDecl, magnitudeDecl]

/-- The traits of the standard library that they extend, with those of their functions that have no default. `Sized` has no declaration. -/
def stdTraits : List TraitDecl :=
  [{ name := "IntoIterator", types := [{ name := "Item" }, { name := "IntoIter" }],
     fns := [{ name := "into_iter", receiver := .value, result := .own "IntoIter" }] },
   { name := "Clone", supers := [{ name := "Sized" }], fns := [{ name := "clone", receiver := .ref, result := .self }] },
   { name := "Copy", supers := [{ name := "Clone" }] },
   { name := "PartialEq", fns := [{ name := "eq", receiver := .ref, args := [.ref (.name "Rhs")], result := .name "bool" }] },
   { name := "Eq", supers := [{ name := "PartialEq", args := [.self] }] },
   { name := "PartialOrd", supers := [{ name := "PartialEq", args := [.name "Rhs"] }],
     fns := [{ name := "partial_cmp", receiver := .ref, args := [.ref (.name "Rhs")], result := .option (.name "Ordering") }] },
   { name := "Ord", supers := [{ name := "Eq" }, { name := "PartialOrd", args := [.self] }],
     fns := [{ name := "cmp", receiver := .ref, args := [.ref .self], result := .name "Ordering" }] },
   { name := "TryFrom", supers := [{ name := "Sized" }], types := [{ name := "Error" }],
     fns := [{ name := "try_from", receiver := .none, args := [.name "T"], result := .of (.of (.name "Result") .self) (.own "Error") }] },
   { name := "Into", supers := [{ name := "Sized" }], fns := [{ name := "into", receiver := .value, result := .name "T" }] }]

variable {M Q K V : Type}

/-- An object of type `dyn MapQuery<Q, V>`: data of some type and the functions of its implementation (core/traits/map_query.rs l.9-21, core/traits/len.rs
l.9-17).  `readRef` and `modifyRef` are what can be done with the reference from `get_mut`, as in `Model/History`. -/
structure DynMapQuery (Q V : Type) where
  Data : Type
  data : Data
  get : Data → Q → Res (Option V)
  getMut : Data → Q → Res (Option Nat)
  containsKey : Data → Q → Res Bool
  len : Data → Nat
  isEmpty : Data → Bool
  readRef : Data → Nat → Option V
  modifyRef : Data → Nat → (V → V) → Data

/-- `&mut m as &mut dyn MapQuery<Q, V>`. -/
def MapImpl.object (I : MapImpl M Q K V) (m : M) : DynMapQuery Q V where
  Data := M
  data := m
  get := I.get
  getMut := I.getMut
  containsKey := I.containsKey
  len := I.len
  isEmpty := I.isEmpty
  readRef := I.readRef
  modifyRef := I.modifyRef

/-- What a client can do with such an object. -/
inductive QueryOp (Q V : Type) where
  | get (q : Q)
  | containsKey (q : Q)
  | len
  | isEmpty
  | update (q : Q) (f : V → V)

/-- One step of a client. -/
def DynMapQuery.step (o : DynMapQuery Q V) : QueryOp Q V → Out Unit V × DynMapQuery Q V
  | .get q => (Out.ofRes .value (o.get o.data q), o)
  | .containsKey q => (Out.ofRes .bool (o.containsKey o.data q), o)
  | .len => (.nat (o.len o.data), o)
  | .isEmpty => (.bool (o.isEmpty o.data), o)
  | .update q f =>
    match o.getMut o.data q with
    | .error e => (Out.ofFault e, o)
    | .ok none => (.value none, o)
    | .ok (some i) => (.value (o.readRef o.data i), { o with data := o.modifyRef o.data i f })

/-- A program that works on a slice of objects: each step names the object.  A step on an object that does not exist does nothing. -/
def runObjects : List (DynMapQuery Q V) → List (Nat × QueryOp Q V) → List (Out Unit V)
  | _, [] => []
  | os, (i, op) :: r =>
    match os[i]? with
    | none => runObjects os r
    | some o => (o.step op).1 :: runObjects (os.set i (o.step op).2) r

end Frozen.Model
