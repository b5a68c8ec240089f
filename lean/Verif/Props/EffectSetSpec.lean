import Verif.Model.EffectSets
import Verif.Props.EffectSpec
import Verif.Props.BuiltSets

/-!
# Specification of set operations whose trait functions have effects
-/

namespace Frozen.Props

open Frozen.Spec Frozen.Model

variable {W S T : Type}

/-- The items that calls of `next` gave. -/
def givenItems : List (Res (Option T)) → List T
  | [] => []
  | .ok (some a) :: os => a :: givenItems os
  | _ :: os => givenItems os

/-- The number of calls that failed. -/
def failedCalls : List (Res (Option T)) → Nat
  | [] => 0
  | .error _ :: os => failedCalls os + 1
  | _ :: os => failedCalls os

/-- After the end there is nothing but `None`. -/
def StaysEnded (os : List (Res (Option T))) : Prop :=
  ∀ i j, i ≤ j → os[i]? = some (.ok none) → j < os.length → os[j]? = some (.ok none)

/-- The iterator in `s`, in any program that catches panics and goes on: it never runs into undefined behaviour, gives items of `src` in that
order, ends after at most one call for each of them, and stays ended. -/
def WellBehaved (next : S → W → Res (Option T) × S × W) (s : S) (src : List T) : Prop :=
  ∀ fs w, (∀ o ∈ (callsE next s fs w).1, NoUb o) ∧ (givenItems (callsE next s fs w).1).Sublist src ∧
    (src.length < fs.length → .ok none ∈ (callsE next s fs w).1) ∧ StaysEnded (callsE next s fs w).1

/-- The iterator in `s` is to give the elements that satisfy `mem`, each once, all taken from `src`.  In any program that catches panics and goes
on, every item it gives is one of these and none is given twice; and when it ends, at most as many are missing as calls panicked. -/
def ProducesOrPanics (eqT : T → T → Bool) (next : S → W → Res (Option T) × S × W) (s : S) (mem : T → Prop) (src : List T) : Prop :=
  ∃ items, Distinct eqT items ∧ (∀ x ∈ items, mem x ∧ x ∈ src) ∧ (∀ x, mem x → ∃ y ∈ items, eqT x y = true) ∧
    ∀ fs w, (givenItems (callsE next s fs w).1).Sublist items ∧
      (.ok none ∈ (callsE next s fs w).1 →
        items.length ≤ (givenItems (callsE next s fs w).1).length + failedCalls (callsE next s fs w).1)

/-- The iterator in `s` gives, in any program, the elements that satisfy `mem`, each once, all taken from `src`, always in the same order, and then
`None` for ever. -/
def ProducesQuietly (eqT : T → T → Bool) (next : S → W → Res (Option T) × S × W) (s : S) (mem : T → Prop) (src : List T) : Prop :=
  ∃ items, Distinct eqT items ∧ (∀ x ∈ items, mem x ∧ x ∈ src) ∧ (∀ x, mem x → ∃ y ∈ items, eqT x y = true) ∧
    ∀ fs w, (callsE next s fs w).1 =
      ((items.map fun a => (Except.ok (some a) : Res (Option T))) ++ List.replicate fs.length (Except.ok none)).take fs.length

/-- Wherever a program got with the iterator, the next call panics exactly if user code does, leaving the mark `bad`. -/
def Blames (bad : W → Prop) (next : S → W → Res (Option T) × S × W) (s : S) : Prop :=
  ∀ fs w v, ¬ bad v →
    let r := next (callsE next s fs w).2.1 v
    (bad r.2.2 ∧ Panics r.1) ∨ (¬ bad r.2.2 ∧ ∃ o, r.1 = .ok o)

/-- The set `s` has exactly the elements that satisfy `mem` (see `IsSet`), and `contains` says so, in the sense of `R`. -/
def IsSetE (R : Eff W Bool → Res Bool → Prop) (eqT : T → T → Bool) (mem : T → Prop) (s : SetViewE W T) : Prop :=
  ∃ c : T → Bool, (∀ x, R (s.contains x) (.ok (c x))) ∧ IsSet eqT mem ⟨s.len, s.items, fun x => .ok (c x)⟩

/-- The call has, in the sense of `R`, an answer that is true exactly if `p` holds. -/
def Decides (R : Eff W Bool → Res Bool → Prop) (x : Eff W Bool) (p : Prop) : Prop := ∃ r, R x (.ok r) ∧ (r = true ↔ p)

/-- Two sets made from the elements `xs` and `ys` by constructors of any two set types (every set is a map to `()`, C32), which are then looked up with
trait functions that answer, in the sense of `R`, as they should. -/
structure TwoSetsE [Target] (R : (A : Type) → Eff W A → A → Prop) (eqT : T → T → Bool) (xs ys : List T) (a b : SetViewE W T) : Prop where
  built : ∃ (M M' : Type) (I : MapImpl M T T Unit) (J : MapImpl M' T T Unit) (m : M) (m' : M') (S : M → T → Eff W (Option Nat))
    (S' : M' → T → Eff W (Option Nat)), Built eqT eqT (unitEntries xs) I m ∧ Built eqT eqT (unitEntries ys) J m' ∧
    RunsWith R I S ∧ RunsWith R J S' ∧ a = setViewE I S m ∧ b = setViewE J S' m'

/-- A set of the crate, made by any constructor from anything, with whatever safe trait functions in later lookups (C91). -/
def AnySetE [Target] (a : SetViewE W T) : Prop :=
  ∃ (M : Type) (I : MapImpl M T T Unit) (m : M) (S : M → T → Eff W (Option Nat)), AnyLookups I.entries S m ∧ a = setViewE I S m

/-- The set operations on `a` and `b` run into no undefined behaviour; the iterators give elements of the sets only, none more often than it is in them,
and end. -/
def SafeOps (a b : SetViewE W T) : Prop :=
  WellBehaved UnionE.next (UnionE.new a b) (if a.len > b.len then a.items ++ b.items else b.items ++ a.items) ∧
  WellBehaved IntersectionE.next (IntersectionE.new a b) (if a.len < b.len then a.items else b.items) ∧
  WellBehaved DifferenceE.next (DifferenceE.new a b) a.items ∧
  WellBehaved SymmetricDifferenceE.next (SymmetricDifferenceE.new a b) (a.items ++ b.items) ∧
  SafeCode (isSubsetE a b) ∧ SafeCode (isSupersetE a b) ∧ SafeCode (isDisjointE a b) ∧ SafeCode (setEqE a b)

/-- The four comparisons, answered in the sense of `R`. -/
def ComparesE (R : Eff W Bool → Res Bool → Prop) (A B : T → Prop) (a b : SetViewE W T) : Prop :=
  Decides R (isSubsetE a b) (∀ x, A x → B x) ∧ Decides R (isSupersetE a b) (∀ x, B x → A x) ∧
  Decides R (isDisjointE a b) (∀ x, ¬ (A x ∧ B x)) ∧ Decides R (setEqE a b) (∀ x, A x ↔ B x)

/-- The trait functions that the operators use answer, in the sense of `R`, as they should: equality is `eqT`, equal elements have equal hash codes, clones are
indistinguishable from the original; and hashbrown keeps the contract of its search. -/
structure HbTraits.Lawful (R : (A : Type) → Eff W A → Res A → Prop) (eqT : T → T → Bool) (t : HbTraits W T) : Prop where
  find : HbFindOk t.find.find
  hash : ∃ hT : T → Nat, (∀ x y, eqT x y = true → hT x = hT y) ∧ ∀ x, R Nat (t.hash x) (.ok (hT x))
  eq : ∀ x y, R Bool (t.eq x y) (.ok (eqT x y))
  clone : ∀ x, R T (t.clone x) (.ok x)

/-- The call has, in the sense of `R`, a hash set as its outcome that contains exactly the elements satisfying `mem`, all taken from `src`. -/
def Gathers (R : (A : Type) → Eff W A → Res A → Prop) (eqT : T → T → Bool) (x : Eff W (Option (HbSet T))) (mem : T → Prop) (src : List T) : Prop :=
  ∃ r, R _ x (.ok (some r)) ∧ IsSet eqT mem (r.view eqT) ∧ ∀ y ∈ r.elems, y ∈ src

/-- The four operators gather the right elements. -/
def OperatorsE (R : (A : Type) → Eff W A → Res A → Prop) (eqT : T → T → Bool) (t : HbTraits W T) (A B : T → Prop) (a b : SetViewE W T) : Prop :=
  Gathers R eqT (bitOrE t a b) (fun x => A x ∨ B x) (a.items ++ b.items) ∧ Gathers R eqT (bitAndE t a b) (fun x => A x ∧ B x) (a.items ++ b.items) ∧
  Gathers R eqT (bitSubE t a b) (fun x => A x ∧ ¬ B x) a.items ∧
  Gathers R eqT (bitXorE t a b) (fun x => (A x ∧ ¬ B x) ∨ (B x ∧ ¬ A x)) (a.items ++ b.items)

/-- The call runs into no undefined behaviour, and if it does not panic it ends with a set of at most `n` elements. -/
def GathersSafely (x : Eff W (Option (HbSet T))) (n : Nat) : Prop :=
  ∀ w, NoUb (x w).1 ∧ ∀ r, (x w).1 = .ok r → ∃ s, r = some s ∧ s.elems.length ≤ n

end Frozen.Props
