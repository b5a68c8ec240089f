import Verif.Model.Iterators
import Verif.Model.Sets

/-!
# `Debug` of the collections and of their iterators

What `{:?}` and `{:#?}` write.  The builders of `core::fmt` (`debug_list`, `debug_map`, `debug_set`, `debug_tuple`,
`debug_struct`) are a parameter `Fmt`: functions from the texts of the parts to the text of the whole, which is what they
are for any fixed formatting flags.  Simplified: writing never fails, and the `Debug` of the user's keys and values is a
function of the key or value.
-/

namespace Frozen.Model

variable {X K V T S A : Type}

/-- The builders of `core::fmt::Formatter`, over a type `X` of texts. -/
structure Fmt (X : Type) where
  /-- `f.debug_list().entries(xs).finish()` -/
  list : List X → X
  /-- `f.debug_set().entries(xs).finish()` -/
  set : List X → X
  /-- `f.debug_map().entries(xs).finish()` -/
  map : List (X × X) → X
  /-- `f.debug_tuple(name).field(x)….finish()`; the empty name for pairs, no fields for a unit variant -/
  tuple : String → List X → X
  /-- `f.debug_struct(name).field(n, x)….finish()` -/
  struct : String → List (String × X) → X
  /-- the text of `()` -/
  unit : X

/-- The text of a pair, as std's `Debug` for `(A, B)` and `(&A, &B)` writes it. -/
def Fmt.pair (F : Fmt X) (x y : X) : X := F.tuple "" [x, y]

/-- `debug_list().entries(iterator)` (core, `fmt/builders.rs`): exhausts the iterator it is given.  `fuel` is a device of
the model (`none` if it did not suffice). -/
def debugListOf (F : Fmt X) (next : S → Res (Option A × S)) (dA : A → X) (fuel : Nat) (s : S) : Res (Option X) := do
  let l ← collect next fuel s
  .ok (l.map (fun l => F.list (l.map dA)))

/-- `debug_map().entries(iterator)`. -/
def debugMapOf (F : Fmt X) (next : S → Res (Option A × S)) (dA : A → X × X) (fuel : Nat) (s : S) :
    Res (Option X) := do
  let l ← collect next fuel s
  .ok (l.map (fun l => F.map (l.map dA)))

/-- `debug_set().entries(iterator)`. -/
def debugSetOf (F : Fmt X) (next : S → Res (Option A × S)) (dA : A → X) (fuel : Nat) (s : S) : Res (Option X) := do
  let l ← collect next fuel s
  .ok (l.map (fun l => F.set (l.map dA)))

/-- `Debug` of every map type: `debug_trait_funcs!` (core/maps/decl_macros.rs l.90-97). -/
def debugMap {M Q : Type} (F : Fmt X) (dK : K → X) (dV : V → X) (I : MapImpl M Q K V) (m : M) : Res (Option X) :=
  debugMapOf F (fun s => .ok (mapIter.next s)) (fun x : K × V => (dK x.1, dV x.2)) ((I.entries m).length + 1) (I.iter m)

/-- `Debug` of every set type: `debug_trait_funcs!` (core/sets/decl_macros.rs l.64-70). -/
def debugSet {M Q : Type} (F : Fmt X) (dT : T → X) (I : SetImpl M Q T) (m : M) : Res (Option X) :=
  debugSetOf F (fun s => .ok (setIter.next s)) dT ((I.items m).length + 1) ⟨(I.items m).map (fun x => (x, ()))⟩

/-- `Debug` of `maps::Iter` (core/maps/iterators.rs l.53-61): formats a clone of itself. -/
def debugIter (F : Fmt X) (dK : K → X) (dV : V → X) (s : StdIter (K × V)) : Res (Option X) :=
  debugListOf F (fun s => .ok (mapIter.next s)) (fun x : K × V => F.pair (dK x.1) (dV x.2)) (s.rest.length + 1) s

/-- `Debug` of `maps::Keys` (core/maps/iterators.rs l.164-171). -/
def debugKeys (F : Fmt X) (dK : K → X) (s : StdIter (K × V)) : Res (Option X) :=
  debugListOf F (fun s => .ok (mapKeys.next s)) dK (s.rest.length + 1) s

/-- `Debug` of `maps::Values` (core/maps/iterators.rs l.222-229). -/
def debugValues (F : Fmt X) (dV : V → X) (s : StdIter (K × V)) : Res (Option X) :=
  debugListOf F (fun s => .ok (mapValues.next s)) dV (s.rest.length + 1) s

/-- `Debug` of `sets::Iter` (core/sets/iterators.rs l.54-61). -/
def debugSetIter (F : Fmt X) (dT : T → X) (s : StdIter (T × Unit)) : Res (Option X) :=
  debugListOf F (fun s => .ok (setIter.next s)) dT (s.rest.length + 1) s

/-- `Debug` of `core::slice::IterMut` over entries: the remaining slice as a field.  The model's `IterMut` holds
positions; `vals` are the values of the map at the time of the call. -/
def debugSliceIterMut (F : Fmt X) (dK : K → X) (dV : V → X) (vals : Nat → V) (s : StdIter (K × Nat)) : X :=
  F.tuple "IterMut" [F.list (s.rest.map (fun e => F.pair (dK e.1) (dV (vals e.2))))]

/-- `Debug` of `alloc::vec::IntoIter` over entries: the remaining slice as a field. -/
def debugVecIntoIter (F : Fmt X) (dK : K → X) (dV : V → X) (s : StdIter (K × V)) : X :=
  F.tuple "IntoIter" [F.list (s.rest.map (fun e => F.pair (dK e.1) (dV e.2)))]

/-- `Debug` of `maps::IterMut` (core/maps/iterators.rs l.105-113): that of the slice iterator inside. -/
def debugIterMut (F : Fmt X) (dK : K → X) (dV : V → X) (vals : Nat → V) (s : StdIter (K × Nat)) : Res (Option X) :=
  .ok (some (debugSliceIterMut F dK dV vals s))

/-- `Debug` of `maps::ValuesMut` (core/maps/iterators.rs l.275-283): that of the `IterMut` inside. -/
def debugValuesMut (F : Fmt X) (dK : K → X) (dV : V → X) (vals : Nat → V) (s : StdIter (K × Nat)) : Res (Option X) :=
  debugIterMut F dK dV vals s

/-- `Debug` of `maps::IntoIter` (core/maps/iterators.rs l.329-337): that of the vector iterator inside. -/
def debugIntoIter (F : Fmt X) (dK : K → X) (dV : V → X) (s : StdIter (K × V)) : Res (Option X) :=
  .ok (some (debugVecIntoIter F dK dV s))

/-- `#[derive(Debug)]` of `maps::IntoKeys` (core/maps/iterators.rs l.340-343). -/
def debugIntoKeys (F : Fmt X) (dK : K → X) (dV : V → X) (s : StdIter (K × V)) : Res (Option X) :=
  .ok (some (F.struct "IntoKeys" [("inner", debugVecIntoIter F dK dV s)]))

/-- `#[derive(Debug)]` of `maps::IntoValues` (core/maps/iterators.rs l.385-388). -/
def debugIntoValues (F : Fmt X) (dK : K → X) (dV : V → X) (s : StdIter (K × V)) : Res (Option X) :=
  .ok (some (F.struct "IntoValues" [("inner", debugVecIntoIter F dK dV s)]))

/-- `#[derive(Debug)]` of `sets::IntoIter` (core/sets/iterators.rs l.64-67). -/
def debugSetIntoIter (F : Fmt X) (dT : T → X) (s : StdIter (T × Unit)) : Res (Option X) :=
  .ok (some (F.struct "IntoIter" [("inner", debugVecIntoIter F dT (fun _ => F.unit) s)]))

/-- `Debug` of `sets::Union` (core/sets/iterators.rs l.208-220). -/
def debugUnion (F : Fmt X) (dT : T → X) (u : Union T) : Res (Option X) :=
  debugListOf F Union.next dT (u.iter1.length + u.iter2.length + 1) u

/-- `Debug` of `sets::Intersection` (core/sets/iterators.rs l.463-474). -/
def debugIntersection (F : Fmt X) (dT : T → X) (u : Intersection T) : Res (Option X) :=
  debugListOf F Intersection.next dT (u.iter1.length + u.iter2.length + 1) u

/-- `Debug` of `sets::Difference` (core/sets/iterators.rs l.367-378). -/
def debugDifference (F : Fmt X) (dT : T → X) (d : Difference T) : Res (Option X) :=
  debugListOf F Difference.next dT (d.iter1.length + 1) d

/-- `Debug` of an `Option<Difference>`. -/
def debugOptDifference (F : Fmt X) (dT : T → X) : Option (Difference T) → Res (Option X)
  | none => .ok (some (F.tuple "None" []))
  | some d => do
    let x ← debugDifference F dT d
    .ok (x.map (fun x => F.tuple "Some" [x]))

/-- `Debug` of `sets::SymmetricDifference` (core/sets/iterators.rs l.283-294): that of the `core::iter::Chain` inside,
which is `#[derive(Debug)]` of `struct Chain { a: Option<A>, b: Option<B> }`. -/
def debugSymmetricDifference (F : Fmt X) (dT : T → X) (s : SymmetricDifference T) : Res (Option X) := do
  let a ← debugOptDifference F dT s.a
  let b ← debugOptDifference F dT s.b
  .ok (a.bind (fun a => b.map (fun b => F.struct "Chain" [("a", a), ("b", b)])))

/-- The builders without the alternate flag (`{:?}`). -/
def plainFmt : Fmt String where
  list xs := "[" ++ ", ".intercalate xs ++ "]"
  set xs := "{" ++ ", ".intercalate xs ++ "}"
  map xs := "{" ++ ", ".intercalate (xs.map (fun x => x.1 ++ ": " ++ x.2)) ++ "}"
  tuple name xs := if xs.isEmpty then name else name ++ "(" ++ ", ".intercalate xs ++ ")"
  struct name xs :=
    if xs.isEmpty then name else name ++ " { " ++ ", ".intercalate (xs.map (fun x => x.1 ++ ": " ++ x.2)) ++ " }"
  unit := "()"

end Frozen.Model
