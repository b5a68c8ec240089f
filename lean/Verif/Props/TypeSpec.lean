import Verif.Model.Types

/-!
# What may be done with a value of a type

The rules of the language for moving values to another thread (`Send`), sharing them with another thread (`Sync`), keeping them for ever (`'static`),
and using a type where another one with longer or shorter lifetimes inside is expected (subtyping).
-/

namespace Frozen.Spec
open Model

/-- What is asked about a type (or, the last three, about a lifetime). -/
inductive Judgement where
  /-- values may be moved to another thread -/
  | send
  /-- references may be shared with another thread -/
  | sync
  /-- the type outlives `'static` -/
  | static
  /-- it may be used where the version of it on the right is expected; the two versions differ in what the user chose -/
  | sub
  /-- the version on the right may be used in its place -/
  | sup
deriving DecidableEq

/-- `Holds A j t`: judgement `j` holds of type `t`, where `A` says what holds of the types and lifetimes that the user chose.  There are no
`unsafe impl`s of the auto traits in the library, so its types follow the rule for declared types, `adt`. -/
inductive Holds (A : Judgement → Nat → Prop) : Judgement → Ty → Prop where
  | param {j : Judgement} {n : Nat} : A j n → Holds A j (.param n)
  | prim {j : Judgement} : Holds A j .prim
  | pair {j : Judgement} {a b : Ty} : Holds A j a → Holds A j b → Holds A j (.pair a b)
  | array {j : Judgement} {t : Ty} : Holds A j t → Holds A j (.array t)
  | slice {j : Judgement} {t : Ty} : Holds A j t → Holds A j (.slice t)
  | boxed {j : Judgement} {t : Ty} : Holds A j t → Holds A j (.boxed t)
  | phantom {j : Judgement} {t : Ty} : Holds A j t → Holds A j (.phantom t)
  /-- `unsafe impl<T: Sync> Send for &T` -/
  | sharedSend {l t : Ty} : Holds A .sync t → Holds A .send (.shared l t)
  | sharedSync {l t : Ty} : Holds A .sync t → Holds A .sync (.shared l t)
  | sharedOther {j : Judgement} {l t : Ty} : j ≠ .send → j ≠ .sync → Holds A j l → Holds A j t → Holds A j (.shared l t)
  | exclusiveSend {l t : Ty} : Holds A .send t → Holds A .send (.exclusive l t)
  | exclusiveSync {l t : Ty} : Holds A .sync t → Holds A .sync (.exclusive l t)
  | exclusiveStatic {l t : Ty} : Holds A .static l → Holds A .static t → Holds A .static (.exclusive l t)
  /-- `&'l mut T` is covariant in the lifetime and invariant in the type -/
  | exclusiveSub {j : Judgement} {l t : Ty} : j = .sub ∨ j = .sup → Holds A j l → Holds A .sub t → Holds A .sup t → Holds A j (.exclusive l t)
  /-- `unsafe impl<T: Sync + Send> Sync for LazyLock<T>` -/
  | lazySync {t : Ty} : Holds A .send t → Holds A .sync t → Holds A .sync (.lazyLock t)
  | lazyOther {j : Judgement} {t : Ty} : j = .send ∨ j = .static → Holds A j t → Holds A j (.lazyLock t)
  | lazySub {j : Judgement} {t : Ty} : j = .sub ∨ j = .sup → Holds A .sub t → Holds A .sup t → Holds A j (.lazyLock t)
  /-- an associated type has the auto traits of the type that it stands for -/
  | assoc {j : Judgement} {l s t u : Ty} : j ≠ .sub → j ≠ .sup → s.iteration l = some (t, u) → Holds A j u → Holds A j (.assocIter l s t)
  /-- inside a declaration, where it is not known what an associated type stands for, it is invariant in everything -/
  | assocSub {j : Judgement} {l s t : Ty} : j = .sub ∨ j = .sup → Holds A .sub l → Holds A .sup l → Holds A .sub s → Holds A .sup s →
      Holds A .sub t → Holds A .sup t → Holds A j (.assocIter l s t)
  /-- all the fields -/
  | adt {j : Judgement} {c : TyName} {args : List Ty} : (∀ f ∈ c.fields, Holds A j (f.subst args)) → Holds A j (.adt c args)

/-- The type is a set with elements of type `t`. -/
def SetOf (s t : Ty) : Prop := ∀ l : Ty, (s.iteration l).map Prod.fst = some t

/-- A static may be declared with this type: it can be shared and kept for ever. -/
def StaticOk (A : Judgement → Nat → Prop) (t : Ty) : Prop := Holds A .sync t ∧ Holds A .static t

end Frozen.Spec
