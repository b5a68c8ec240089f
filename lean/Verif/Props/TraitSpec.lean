import Verif.Props.ApiSpec
import Verif.Model.Traits

/-! # Specification: which traits a user can rely on -/

namespace Frozen.Props

open Frozen.Spec Frozen.Model

/-- Traits that come with others: `Eq` with `PartialEq`, `Ord` with `Eq`, `Scalar` with `Ord` and `Clone`. -/
structure Coherent (k : KeyCaps) : Prop where
  eq : k.eq = true → k.partialEq = true
  ord : k.ord = true → k.eq = true
  scalar : k.scalar = true → k.ord = true ∧ k.clone = true

/-- `String`, `&str`, `Box<str>`, `Rc<str>` … -/
structure StringType (k : KeyCaps) : Prop where
  eq : k.eq = true
  ord : k.ord = true
  hash : k.hash = true
  clone : k.clone = true
  debug : k.debug = true
  serialize : k.serialize = true
  len : k.len = true
  asRefStr : k.asRefStr = true

/-- The key type is what the documentation of the macro asks for: `Hash + Eq`, `Ord`, `Scalar` or a string type; and if
some key is a literal, it is an integer or a string type. -/
structure KeyFits (kind : MacroKind) (keys : List KeySyntax) (k : KeyCaps) : Prop where
  coherent : Coherent k
  ints : kind = .scalar ∨ (∃ x ∈ keys, IsIntLit x) → k.scalar = true
  strs : kind = .string ∨ (∃ x ∈ keys, IsStrLit x) → StringType k
  hashed : kind = .hashed → k.eq = true ∧ k.hash = true
  ordered : kind = .ordered → k.ord = true

/-- The trait is one that only makes sense for collections built at run time. -/
def OnlyBuilding : MapTrait → Prop
  | .default | .fromIter | .deserialize => True
  | _ => False

/-- As `OnlyBuilding`. -/
def OnlySetBuilding : SetTrait → Prop
  | .default | .fromIter | .deserialize => True
  | _ => False

/-- What keys and values have to implement for the map to: nothing that depends on how the map is represented. -/
def MapNeeds (k : KeyCaps) (v : ValCaps) : MapTrait → Prop
  | .clone => k.clone = true ∧ v.clone = true
  | .debug => k.debug = true ∧ v.debug = true
  | .serialize => k.serialize = true ∧ v.serialize = true
  | .index | .map => True
  | .partialEq => v.partialEq = true
  | .eq => v.eq = true
  | .default | .fromIter => True
  | .deserialize => k.deserialize = true ∧ v.deserialize = true

/-- What the elements have to implement for the set to. -/
def SetNeeds (t : KeyCaps) : SetTrait → Prop
  | .clone => t.clone = true
  | .debug => t.debug = true
  | .serialize => t.serialize = true
  | .set | .partialEq | .eq => True
  | .operators => t.hash = true ∧ t.clone = true
  | .default | .fromIter => True
  | .deserialize => t.deserialize = true

/-- A call whose keys are not all literals, with so many entries that an `Fz` type is used. -/
def ManyComputed (kind : MacroKind) (keys : List KeySyntax) : Prop :=
  (MixedInts kind keys ∧ 8 ≤ keys.length) ∨ (MixedStrs kind keys ∧ 4 ≤ keys.length) ∨
  (kind = .hashed ∧ NoLits keys ∧ 4 ≤ keys.length)

/-- `==` of values is what `PartialEq` and `Eq` of the value type promise. -/
structure ValueEq {V : Type} (v : ValCaps) (eqV : V → V → Bool) : Prop where
  symm : ∀ a b, eqV a b = eqV b a
  trans : ∀ a b c, eqV a b = true → eqV b c = true → eqV a c = true
  refl : v.eq = true → ∀ a, eqV a a = true

end Frozen.Props
