import Verif.Props.SetSpec
import Verif.Props.MapSpec
import Verif.Model.Formats

/-! # What it means to store a collection in a format (C92) -/

namespace Frozen.Props

open Frozen Frozen.Spec Frozen.Model

variable {M Q K V T E A S O : Type}

/-- The serializer takes the items one after the other, which brings it from one state to another. -/
inductive Accepts (z : Serializer S O E A) : S → List A → S → Prop
  | nil {s : S} : Accepts z s [] s
  | cons {s s' s'' : S} {a : A} {r : List A} (h : z.item s a = .ok s') (t : Accepts z s' r s'') : Accepts z s (a :: r) s''

/-- Every sequence and map in the document has fewer than `n` items. -/
inductive Small (n : Nat) : Doc → Prop
  | leaf {code : Nat} : Small n (.leaf code)
  | seq {ds : List Doc} (h : ds.length < n) (hd : ∀ d ∈ ds, Small n d) : Small n (.seq ds)
  | map {es : List (Doc × Doc)} (h : es.length < n) (hk : ∀ p ∈ es, Small n p.1) (hv : ∀ p ∈ es, Small n p.2) :
      Small n (.map es)

/-- Writing a good value and reading it back works and gives a good value that is the same. -/
def Keeps (good : A → Prop) (same : A → A → Prop) (c : Codec E A) : Prop :=
  ∀ a, good a → ∃ d, c.ser a = .ok d ∧ ∃ a', c.de d = .ok (.ok a') ∧ good a' ∧ same a a'

/-- Reading any document (with collections of fewer than `n` items) gives a good value or an error; it does not panic. -/
def Reads (n : Nat) (good : A → Prop) (c : Codec E A) : Prop :=
  ∀ d, Small n d → ∃ r, c.de d = .ok r ∧ ∀ a, r = .ok a → good a

/-- A map that was built from some entries, with fewer than `n` entries, all of them good. -/
structure GoodMap [Target] (n : Nat) (goodK : K → Prop) (goodV : V → Prop) (eqK : K → K → Bool) (mt : Q → K → Bool)
    (I : MapImpl M Q K V) (m : M) : Prop where
  built : ∃ es, Built eqK mt es I m
  few : (I.iter m).rest.length < n
  good : ∀ e ∈ (I.iter m).rest, goodK e.1 ∧ goodV e.2

/-- A set that was built from some elements, with fewer than `n` elements, all of them good. -/
structure GoodSet [Target] (n : Nat) (good : T → Prop) (eqT : T → T → Bool) (mt : Q → T → Bool) (I : SetImpl M Q T) (m : M) :
    Prop where
  built : ∃ xs, BuiltSet eqT mt xs I m
  few : (I.items m).length < n
  good : ∀ x ∈ I.items m, good x

/-- Two maps have the same length, and every lookup gives in both nothing, or in both a value, and then the values are the
same. -/
structure SameValues (sameV : V → V → Prop) (I : MapImpl M Q K V) (m m' : M) : Prop where
  len : I.len m = I.len m'
  get : ∀ q, ∃ x y, I.get m q = .ok x ∧ I.get m' q = .ok y ∧ Option.Rel sameV x y

/-- Two sets have the same length and the same members. -/
structure SameMembers (I : SetImpl M Q T) (m m' : M) : Prop where
  len : I.len m = I.len m'
  contains : ∀ q, I.contains m q = I.contains m' q

/-- The types a program can store: whatever keeps its values and reads any document (`leaf`), and the collections of
storable things, to any depth.  `n` bounds the number of items of each collection; `size` is the size of an item in memory.
With each type comes which of its values are meant (`good`) and when two of them are the same. -/
inductive Storable [Target] (n : Nat) (hint : Nat → Option Nat) (invalid : String → E) :
    {A : Type} → (A → Prop) → (A → A → Prop) → Codec E A → Prop
  | leaf {A : Type} {good : A → Prop} {same : A → A → Prop} {c : Codec E A} (hk : Keeps good same c) (hr : Reads n good c) :
      Storable n hint invalid good same c
  | hashMap {K V Q : Type} {size : Nat} {find : HbFind} {sort : Sorter (K × V)} {eqK : K → K → Bool} {hK : K → Nat}
      {hQ : Q → Nat} {mt : Q → K → Bool} {goodK : K → Prop} {goodV : V → Prop} {sameV : V → V → Prop} {ck : Codec E K}
      {cv : Codec E V} (hn : n ≤ sizeLimit) (hz : n * size ≤ allocLimit) (hf : HbFindOk find) (hs : SorterOk sort)
      (he : LawfulEq' eqK) (hq : LawfulQuery eqK mt) (hh : LawfulHash eqK mt hK hQ)
      (hk : Storable n hint invalid goodK (fun a b => eqK a b = true) ck) (hv : Storable n hint invalid goodV sameV cv) :
      Storable n hint invalid (GoodMap n goodK goodV eqK mt (FzHashMap.impl hQ mt)) (SameValues sameV (FzHashMap.impl hQ mt))
        (FzHashMap.codec hint invalid size find sort eqK hK hQ mt ck cv)
  | orderedMap {K V Q : Type} {size : Nat} {cmp : K → K → Ordering} {qcmp : Q → K → Ordering} {goodK : K → Prop}
      {goodV : V → Prop} {sameV : V → V → Prop} {ck : Codec E K} {cv : Codec E V} (hz : n * size ≤ allocLimit)
      (hc : LawfulCmp cmp) (hq : LawfulQueryCmp cmp qcmp)
      (hk : Storable n hint invalid goodK (fun a b => (cmp a b == .eq) = true) ck)
      (hv : Storable n hint invalid goodV sameV cv) :
      Storable n hint invalid
        (GoodMap n goodK goodV (fun a b => cmp a b == .eq) (fun q k => qcmp q k == .eq) (FzOrderedMap.impl qcmp))
        (SameValues sameV (FzOrderedMap.impl qcmp)) (FzOrderedMap.codec hint invalid size cmp qcmp ck cv)
  /-- scalar keys: none of them has the largest index a `usize` can hold (see C18) -/
  | scalarMap {K V Q : Type} {size : Nat} {b : Build} {sort : Sorter (K × V)} {cmp : K → K → Ordering} {index : K → Nat}
      {qindex : Q → Nat} {goodK : K → Prop} {goodV : V → Prop} {sameV : V → V → Prop} {ck : Codec E K} {cv : Codec E V}
      (hn : n ≤ tableLimit) (hz : n * size ≤ allocLimit) (hso : SorterOk sort) (hs : LawfulScalar cmp index)
      (hx : ∀ k, goodK k → index k ≠ usizeMax)
      (hk : Storable n hint invalid goodK (fun a b => (cmp a b == .eq) = true) ck)
      (hv : Storable n hint invalid goodV sameV cv) :
      Storable n hint invalid
        (GoodMap n goodK goodV (fun a b => cmp a b == .eq) (scalarMatch index qindex)
          (FzScalarMap.impl qindex (scalarMatch index qindex)))
        (SameValues sameV (FzScalarMap.impl qindex (scalarMatch index qindex)))
        (FzScalarMap.codec hint invalid size b sort cmp index qindex (scalarMatch index qindex) ck cv)
  /-- string keys: the format lends them to the map (see C34) -/
  | stringMap {V : Type} {size : Nat} {sort : Sorter (Str × V)} {bhStr bhSlice : Str → Nat} {goodK : Str → Prop}
      {goodV : V → Prop} {sameV : V → V → Prop} {ck : Codec E Str} {cv : Codec E V} (hn : n ≤ sizeLimit)
      (hz : n * size ≤ allocLimit) (hso : SorterOk sort)
      (hk : Storable n hint invalid goodK (fun a b => (a == b) = true) ck) (hv : Storable n hint invalid goodV sameV cv) :
      Storable n hint invalid
        (GoodMap n goodK goodV (fun a b => a == b) (fun a b => a == b) (FzStringMap.impl bhStr bhSlice))
        (SameValues sameV (FzStringMap.impl bhStr bhSlice)) (FzStringMap.codec hint invalid size sort bhStr bhSlice ck cv)
  | hashSet {T Q : Type} {size : Nat} {find : HbFind} {sort : Sorter (T × Unit)} {eqT : T → T → Bool} {hT : T → Nat}
      {hQ : Q → Nat} {mt : Q → T → Bool} {good : T → Prop} {c : Codec E T} (hn : n ≤ sizeLimit)
      (hz : n * size ≤ allocLimit) (hf : HbFindOk find) (hs : SorterOk sort) (he : LawfulEq' eqT) (hq : LawfulQuery eqT mt)
      (hh : LawfulHash eqT mt hT hQ) (hk : Storable n hint invalid good (fun a b => eqT a b = true) c) :
      Storable n hint invalid (GoodSet n good eqT mt (fzSetImpl (FzHashMap.impl hQ mt)))
        (SameMembers (fzSetImpl (FzHashMap.impl hQ mt))) (FzHashSet.codec hint invalid size find sort eqT hT hQ mt c)
  | orderedSet {T Q : Type} {size : Nat} {cmp : T → T → Ordering} {qcmp : Q → T → Ordering} {good : T → Prop}
      {c : Codec E T} (hz : n * size ≤ allocLimit) (hc : LawfulCmp cmp) (hq : LawfulQueryCmp cmp qcmp)
      (hk : Storable n hint invalid good (fun a b => (cmp a b == .eq) = true) c) :
      Storable n hint invalid
        (GoodSet n good (fun a b => cmp a b == .eq) (fun q k => qcmp q k == .eq) (fzSetImpl (FzOrderedMap.impl qcmp)))
        (SameMembers (fzSetImpl (FzOrderedMap.impl qcmp))) (FzOrderedSet.codec hint invalid size cmp qcmp c)
  | scalarSet {T Q : Type} {size : Nat} {b : Build} {sort : Sorter (T × Unit)} {cmp : T → T → Ordering} {index : T → Nat}
      {qindex : Q → Nat} {good : T → Prop} {c : Codec E T} (hn : n ≤ tableLimit) (hz : n * size ≤ allocLimit)
      (hso : SorterOk sort) (hs : LawfulScalar cmp index) (hx : ∀ k, good k → index k ≠ usizeMax)
      (hk : Storable n hint invalid good (fun a b => (cmp a b == .eq) = true) c) :
      Storable n hint invalid
        (GoodSet n good (fun a b => cmp a b == .eq) (scalarMatch index qindex)
          (fzSetImpl (FzScalarMap.impl qindex (scalarMatch index qindex))))
        (SameMembers (fzSetImpl (FzScalarMap.impl qindex (scalarMatch index qindex))))
        (FzScalarSet.codec hint invalid size b sort cmp index qindex (scalarMatch index qindex) c)
  | stringSet {size : Nat} {sort : Sorter (Str × Unit)} {bhStr bhSlice : Str → Nat} {good : Str → Prop} {c : Codec E Str}
      (hn : n ≤ sizeLimit) (hz : n * size ≤ allocLimit) (hso : SorterOk sort)
      (hk : Storable n hint invalid good (fun a b => (a == b) = true) c) :
      Storable n hint invalid
        (GoodSet n good (fun a b => a == b) (fun a b => a == b) (fzSetImpl (FzStringMap.impl bhStr bhSlice)))
        (SameMembers (fzSetImpl (FzStringMap.impl bhStr bhSlice))) (FzStringSet.codec hint invalid size sort bhStr bhSlice c)

end Frozen.Props
