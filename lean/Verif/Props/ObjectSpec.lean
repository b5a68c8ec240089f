import Verif.Spec
import Verif.Model.Objects
import Verif.Props.HistorySpec

/-!
# Which traits can be the types of objects

The rules of the Rust Reference (Traits, Dyn compatibility), and what programs on objects of maps should see.
-/

namespace Frozen.Props

open Frozen.Spec Frozen.Model

variable {Q K V : Type}

/-- `Self` occurs in a type; `Self::Name` does not count. -/
def HasSelf : SigTy → Prop
  | .self => True
  | .own _ => False
  | .name _ => False
  | .of f x => HasSelf f ∨ HasSelf x

/-- A function that can be called through an object: it takes `&self` or `&mut self`, has no type or constant parameters, does not mention `Self` otherwise,
and is not reserved for sized types. -/
def Dispatchable (f : TraitFn) : Prop :=
  (f.receiver = .ref ∨ f.receiver = .refMut) ∧ f.generics = [] ∧ (∀ t ∈ f.args, ¬ HasSelf t) ∧ ¬ HasSelf f.result ∧ f.selfSized = false

/-- A function that no object has: it is reserved for sized types, expressly or by taking `self`. -/
def NotForObjects (f : TraitFn) : Prop := f.selfSized = true ∨ f.receiver = .value

/-- The trait is the type of objects: so are its supertraits (in particular it does not require `Sized`), which are not applied to `Self`; it has no
constants and no generic associated types; its functions can be called through an object or are expressly kept away from them. -/
inductive DynCompatible (ts : List TraitDecl) : String → Prop where
  | intro (t : TraitDecl) (declared : t ∈ ts) (supers : ∀ s ∈ t.supers, DynCompatible ts s.name) (applied : ∀ s ∈ t.supers, ∀ a ∈ s.args, ¬ HasSelf a)
      (consts : t.consts = []) (types : ∀ a ∈ t.types, a.generics = []) (fns : ∀ f ∈ t.fns, Dispatchable f ∨ NotForObjects f) : DynCompatible ts t.name

/-- The functions that objects of a trait have: its own and those of its supertraits. -/
inductive Callable (ts : List TraitDecl) : String → String → Prop where
  | own (t : TraitDecl) (declared : t ∈ ts) (f : TraitFn) (has : f ∈ t.fns) (disp : Dispatchable f) : Callable ts t.name f.name
  | inherited (t : TraitDecl) (declared : t ∈ ts) (s : Supertrait) (super : s ∈ t.supers) (f : String) (h : Callable ts s.name f) : Callable ts t.name f

/-- A dictionary whose type of keys is not known. -/
structure SomeDict (Q V : Type) where
  K : Type
  mt : Q → K → Bool
  entries : List (K × V)

/-- One step on a dictionary. -/
def SomeDict.step (d : SomeDict Q V) : QueryOp Q V → Out Unit V × SomeDict Q V
  | .get q => (.value ((lastMatch d.mt d.entries q).map (fun e => e.2)), d)
  | .containsKey q => (.bool (lastMatch d.mt d.entries q).isSome, d)
  | .len => (.nat d.entries.length, d)
  | .isEmpty => (.bool (d.entries.length == 0), d)
  | .update q f => (.value ((lastMatch d.mt d.entries q).map (fun e => e.2)), { d with entries := dictUpdate d.mt d.entries q f })

/-- A program on several dictionaries. -/
def runDicts : List (SomeDict Q V) → List (Nat × QueryOp Q V) → List (Out Unit V)
  | _, [] => []
  | ds, (i, op) :: r =>
    match ds[i]? with
    | none => runDicts ds r
    | some d => (d.step op).1 :: runDicts (ds.set i (d.step op).2) r

end Frozen.Props
