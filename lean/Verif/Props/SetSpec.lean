import Verif.Props.MapSpec
import Verif.Model.Sets

/-!
# What a set and a set operation are supposed to do
-/

namespace Frozen.Props

open Frozen Frozen.Spec Frozen.Model

variable {T Q M S : Type}

/-- The set `s` has exactly the elements that satisfy `mem` (up to equality `eqT`): `contains` decides `mem` and never
fails, iteration gives every element once, the length is their number, and equal elements
are members together. -/
structure IsSet (eqT : T → T → Bool) (mem : T → Prop) (s : SetView T) : Prop where
  contains : ∀ x, ∃ b, s.contains x = .ok b ∧ (b = true ↔ mem x)
  sound : ∀ x ∈ s.items, mem x
  complete : ∀ x, mem x → ∃ y ∈ s.items, eqT x y = true
  distinct : Distinct eqT s.items
  len : s.len = s.items.length
  congr : ∀ x y, eqT x y = true → mem x → mem y

/-- The last of the given elements that the query matches. -/
def lastOf (mt : Q → T → Bool) (xs : List T) (q : Q) : Option T := xs.reverse.find? (mt q)

/-- What a set built from `xs` shows: `get` finds the last matching element, `contains` says whether there is one, and
iteration gives for every element equal to one of `xs` the last such one, once. -/
structure SetContents (eqT : T → T → Bool) (mt : Q → T → Bool) (xs : List T) (I : SetImpl M Q T) (m : M) : Prop where
  get : ∀ q, I.get m q = .ok (lastOf mt xs q)
  contains : ∀ q, I.contains m q = .ok (xs.any (mt q))
  mem : ∀ x, x ∈ I.items m ↔ lastOf eqT xs x = some x
  distinct : Distinct eqT (I.items m)
  len : I.len m = (I.items m).length

/-- The iterator started in `s` gives, without failing, exactly the elements that satisfy `mem`, each once; all of
them are taken from `src`; and after the end it keeps answering `None`. -/
def Produces (eqT : T → T → Bool) (next : S → Res (Option T × S)) (s : S) (mem : T → Prop) (src : List T) : Prop :=
  ∃ items s', Yields next s items s' ∧ (∀ n, NoneFor next n s') ∧ Distinct eqT items ∧
    (∀ x ∈ items, mem x ∧ x ∈ src) ∧ ∀ x, mem x → ∃ y ∈ items, eqT x y = true

/-- A size hint is right when `n` items are left. -/
def HintOk (hint : Nat × Option Nat) (n : Nat) : Prop := hint.1 ≤ n ∧ ∀ u, hint.2 = some u → n ≤ u

/-- The size hint is right at every point of an iteration that starts in `s0`. -/
def HintsOk (next : S → Res (Option T × S)) (sizeHint : S → Nat × Option Nat) (s0 : S) : Prop :=
  ∀ given s, Reaches next s0 given s → ∃ rest s', Yields next s rest s' ∧ HintOk (sizeHint s) rest.length

/-- `BuiltSet eqT mt xs I m`: `m` is a set obtained from the elements `xs` by a constructor of the crate.
Contracts and bounds as for `Built`. -/
inductive BuiltSet [Target] : {Q T M : Type} → (T → T → Bool) → (Q → T → Bool) → List T → SetImpl M Q T → M → Prop
  /-- `FzHashSet::with_hasher` -/
  | fzHash {Q T : Type} {find : HbFind} {sort : Sorter (T × Unit)} {eqT : T → T → Bool} {mt : Q → T → Bool}
      {hT : T → Nat} {hQ : Q → Nat} {xs : List T} {m : HashMap T Unit} (hf : HbFindOk find) (hs : SorterOk sort)
      (he : LawfulEq' eqT) (hq : LawfulQuery eqT mt) (hh : LawfulHash eqT mt hT hQ) (hn : xs.length < sizeLimit)
      (h : FzHashSet.withHasher find sort eqT hT xs = .ok m) :
      BuiltSet eqT mt xs (fzSetImpl (FzHashMap.impl hQ mt)) m
  /-- `FzOrderedSet::new` -/
  | fzOrdered {Q T : Type} {cmp : T → T → Ordering} {qcmp : Q → T → Ordering} {xs : List T} {m : EytzingerMap T Unit}
      (hc : LawfulCmp cmp) (hq : LawfulQueryCmp cmp qcmp) (h : FzOrderedSet.new cmp xs = .ok m) :
      BuiltSet (fun a b => cmp a b == .eq) (fun q k => qcmp q k == .eq) xs (fzSetImpl (FzOrderedMap.impl qcmp)) m
  /-- `FzScalarSet::new` -/
  | fzScalar {Q T : Type} {b : Build} {sort : Sorter (T × Unit)} {cmp : T → T → Ordering} {index : T → Nat}
      {qindex : Q → Nat} {xs : List T} {m : FzScalarMap T Unit} (hso : SorterOk sort) (hs : LawfulScalar cmp index)
      (hn : xs.length < tableLimit) (h : FzScalarSet.new b sort cmp index xs = .ok m) :
      BuiltSet (fun a b => cmp a b == .eq) (scalarMatch index qindex) xs
        (fzSetImpl (FzScalarMap.impl qindex (scalarMatch index qindex))) m
  /-- `FzStringSet::with_hasher` -/
  | fzString {sort : Sorter (Str × Unit)} {bhStr bhSlice : Str → Nat} {xs : List Str} {m : FzStringMap Unit}
      (hso : SorterOk sort) (hn : xs.length < sizeLimit) (h : FzStringSet.withHasher sort bhStr bhSlice xs = .ok m) :
      BuiltSet (fun a b => a == b) (fun a b => a == b) xs (fzSetImpl (FzStringMap.impl bhStr bhSlice)) m
  /-- a set made from a map to `()`, with either way of answering `contains` (`From<Map>`, `Inline*Set::new`) -/
  | ofMap {Q T M : Type} {eqT : T → T → Bool} {mt : Q → T → Bool} {xs : List T} {I : MapImpl M Q T Unit} {m : M}
      (h : Built eqT mt (unitEntries xs) I m) : BuiltSet eqT mt xs (inlineSetImpl I) m

end Frozen.Props
