import Verif.Model.Effects
import Verif.Model.FzMaps
import Verif.Props.HistorySpec
import Verif.Props.SafetySpec

/-!
# Specification of lookups whose trait functions have effects
-/

namespace Frozen.Props

open Frozen.Spec Frozen.Model

variable {W A M Q K V : Type}

/-- The call panics. -/
def Panics (r : Res A) : Prop := ∃ msg, r = .error (.panic msg)

/-- Safe code: in no state does the computation run into undefined behaviour.  Nothing is said on its answers. -/
def SafeCode (x : Eff W A) : Prop := ∀ w, NoUb (x w).1

/-- In every state of the program the call either panics or has the outcome `r`; it may do anything to the state. -/
def PanicsOr (x : Eff W A) (r : Res A) : Prop := ∀ w, Panics (x w).1 ∨ (x w).1 = r

/-- In every state of the program the call has the outcome `r`; it may do anything to the state. -/
def Always (x : Eff W A) (r : Res A) : Prop := ∀ w, (x w).1 = r

/-- The state of the program records in `bad` whether user code has panicked: the call either panics and leaves a mark, or has the
outcome `r` and leaves none. -/
def Marks (bad : W → Prop) (x : Eff W A) (r : Res A) : Prop :=
  ∀ w, ¬ bad w → (bad (x w).2 ∧ Panics (x w).1) ∨ (¬ bad (x w).2 ∧ (x w).1 = r)

/-- The trait functions `u` of the user answer as the functions `t` do, in the sense of `R`. -/
structure Like (R : (A : Type) → Eff W A → A → Prop) (u : UserTraits W Q K) (t : QueryTraits Q K) : Prop where
  equivalent : ∀ q k, R Bool (u.equivalent q k) (t.equivalent q k)
  compare : ∀ q k, R Ordering (u.compare q k) (t.compare q k)
  index : ∀ q, R Nat (u.index q) (t.index q)
  fixedState : ∀ n q, R Nat (u.fixedState n q) (t.fixedState n q)
  bytes : ∀ q, u.bytes q = t.bytes q
  fixedStateSlice : ∀ n s, R Nat (u.fixedStateSlice n s) (t.fixedStateSlice n s)

/-- `RunsWith R I search`: `search` are the lookups of the same map type as `I`, with trait functions of the user that answer as those of
`I`, in the sense of `R`. -/
inductive RunsWith (R : (A : Type) → Eff W A → A → Prop) :
    {M Q K V : Type} → MapImpl M Q K V → (M → Q → Eff W (Option Nat)) → Prop
  | scan {Q K V : Type} {mt : Q → K → Bool} {eqv : Q → K → Eff W Bool} (h : ∀ q k, R Bool (eqv q k) (mt q k)) :
      RunsWith R (ScanMap.impl mt : MapImpl (ScanMap K V) Q K V) (ScanMap.searchE eqv)
  | ordered {Q K V : Type} {qcmp : Q → K → Ordering} {qc : Q → K → Eff W Ordering} (h : ∀ q k, R Ordering (qc q k) (qcmp q k)) :
      RunsWith R (EytzingerMap.impl qcmp : MapImpl (EytzingerMap K V) Q K V) (EytzingerMap.searchE qc)
  | dense {Q K V : Type} {qindex : Q → Nat} {ix : Q → Eff W Nat} (h : ∀ q, R Nat (ix q) (qindex q)) :
      RunsWith R (DenseMap.impl qindex : MapImpl (DenseMap K V) Q K V) (DenseMap.searchE ix)
  | sparse {Q K V : Type} {qindex : Q → Nat} {ix : Q → Eff W Nat} (h : ∀ q, R Nat (ix q) (qindex q)) :
      RunsWith R (SparseMap.impl qindex : MapImpl (SparseMap K V) Q K V) (SparseMap.searchE ix)
  | hash {Q K V : Type} {hQ : Q → Nat} {hE : Q → Eff W Nat} {mt : Q → K → Bool} {eqv : Q → K → Eff W Bool} (hh : ∀ q, R Nat (hE q) (hQ q))
      (h : ∀ q k, R Bool (eqv q k) (mt q k)) :
      RunsWith R (HashMap.impl (bridgeHash hQ) mt : MapImpl (HashMap K V) Q K V) (HashMap.searchE hE eqv)
  | fzScalar {Q K V : Type} {qindex : Q → Nat} {ix : Q → Eff W Nat} {mt : Q → K → Bool} {eqv : Q → K → Eff W Bool}
      (hi : ∀ q, R Nat (ix q) (qindex q)) (h : ∀ q k, R Bool (eqv q k) (mt q k)) :
      RunsWith R (FzScalarMap.impl qindex mt : MapImpl (FzScalarMap K V) Q K V) (FzScalarMap.searchE ix eqv)
  | fzString {V : Type} {bhStr bhSlice : Str → Nat} {b1 b2 : Str → Eff W Nat} (h1 : ∀ s, R Nat (b1 s) (bhStr s))
      (h2 : ∀ s, R Nat (b2 s) (bhSlice s)) :
      RunsWith R (FzStringMap.impl bhStr bhSlice : MapImpl (FzStringMap V) Str Str V) (FzStringMap.searchE b1 b2)
  | inline {Q K V : Type} {t : QueryTraits Q K} {u : UserTraits W Q K} (h : Like R u t) :
      RunsWith R (InlineMap.impl t : MapImpl (InlineMap K V) Q K V) (InlineMap.searchE u)

/-- `m` comes out of some constructor of the crate, or of code it emitted, and was then modified by stores through references. -/
def Used [Target] (I : MapImpl M Q K V) (m : M) : Prop := ∃ m₀, AnyMap I m₀ ∧ Stores I m₀ m

/-- `AnyLookups entries search m`: `search` are the lookups of the type of `m`, with whatever safe trait functions of the user; `entries` are
its entries.  How a map is obtained does not depend on the functions that look up keys later, so `m` is one of the maps of C50 for all
of them.  In an `FzStringMap` the hasher that built the map is also the one of lookups, but it may answer differently later. -/
inductive AnyLookups [Target] : {W M Q K V : Type} → (M → List (K × V)) → (M → Q → Eff W (Option Nat)) → M → Prop
  | scan {W Q K V : Type} {m : ScanMap K V} {eqv : Q → K → Eff W Bool} (hm : ∀ mt : Q → K → Bool, Used (ScanMap.impl mt) m)
      (h : ∀ q k, SafeCode (eqv q k)) : AnyLookups ScanMap.entries (ScanMap.searchE eqv) m
  | ordered {W Q K V : Type} {m : EytzingerMap K V} {qc : Q → K → Eff W Ordering}
      (hm : ∀ qcmp : Q → K → Ordering, Used (EytzingerMap.impl qcmp) m) (h : ∀ q k, SafeCode (qc q k)) :
      AnyLookups EytzingerMap.entries (EytzingerMap.searchE qc) m
  | dense {W Q K V : Type} {m : DenseMap K V} {ix : Q → Eff W Nat} (hm : ∀ qindex : Q → Nat, Used (DenseMap.impl qindex) m)
      (h : ∀ q, SafeCode (ix q)) : AnyLookups DenseMap.entries (DenseMap.searchE ix) m
  | sparse {W Q K V : Type} {m : SparseMap K V} {ix : Q → Eff W Nat} (hm : ∀ qindex : Q → Nat, Used (SparseMap.impl qindex) m)
      (h : ∀ q, SafeCode (ix q)) : AnyLookups SparseMap.entries (SparseMap.searchE ix) m
  | hash {W Q K V : Type} {m : HashMap K V} {hE : Q → Eff W Nat} {eqv : Q → K → Eff W Bool}
      (hm : ∀ (hQ : Q → Nat) (mt : Q → K → Bool), Used (HashMap.impl (bridgeHash hQ) mt) m) (hh : ∀ q, SafeCode (hE q))
      (h : ∀ q k, SafeCode (eqv q k)) : AnyLookups (fun m => m.table.entries) (HashMap.searchE hE eqv) m
  | fzScalar {W Q K V : Type} {m : FzScalarMap K V} {ix : Q → Eff W Nat} {eqv : Q → K → Eff W Bool}
      (hm : ∀ (qindex : Q → Nat) (mt : Q → K → Bool), Used (FzScalarMap.impl qindex mt) m) (hi : ∀ q, SafeCode (ix q))
      (h : ∀ q k, SafeCode (eqv q k)) : AnyLookups FzScalarMap.entries (FzScalarMap.searchE ix eqv) m
  | fzString {W V : Type} {m : FzStringMap V} {sort : Sorter (Str × V)} {bhStr bhSlice : Str → Nat} {es : List (Str × V)} {a : SliceAnalysis}
      {m₀ : FzStringMap V} {b1 b2 : Str → Eff W Nat} (hs : SorterOk sort) (hn : es.length < sizeLimit)
      (hm : FzStringMap.build sort bhStr bhSlice es a = .ok m₀) (hw : Stores (FzStringMap.impl bhStr bhSlice) m₀ m)
      (h1 : ∀ s, SafeCode (b1 s)) (h2 : ∀ s, SafeCode (b2 s)) : AnyLookups FzStringMap.entries (FzStringMap.searchE b1 b2) m
  | inline {W Q K V : Type} {m : InlineMap K V} {u : UserTraits W Q K} (hm : ∀ t : QueryTraits Q K, Used (InlineMap.impl t) m)
      (h1 : ∀ q k, SafeCode (u.equivalent q k)) (h2 : ∀ q k, SafeCode (u.compare q k)) (h3 : ∀ q, SafeCode (u.index q))
      (h4 : ∀ n q, SafeCode (u.fixedState n q)) (h5 : ∀ n s, SafeCode (u.fixedStateSlice n s)) :
      AnyLookups InlineMap.entries (InlineMap.searchE u) m

/-- What may be observed of a dictionary some operations on which are abandoned because of a panic: an abandoned operation has no effect
(`dictStep` is the dictionary of C24). -/
inductive DictMay (eqQ : Q → Q → Bool) (mt : Q → K → Bool) :
    List (K × V) → List (Op Q K V) → List (Out K V) → List (K × V) → Prop
  | done (d : List (K × V)) : DictMay eqQ mt d [] [] d
  | performed {d d' : List (K × V)} {op : Op Q K V} {ops : List (Op Q K V)} {os : List (Out K V)}
      (h : DictMay eqQ mt (dictStep eqQ mt d op).2 ops os d') : DictMay eqQ mt d (op :: ops) ((dictStep eqQ mt d op).1 :: os) d'
  | abandoned {d d' : List (K × V)} {op : Op Q K V} {ops : List (Op Q K V)} {os : List (Out K V)}
      (h : DictMay eqQ mt d ops os d') : DictMay eqQ mt d (op :: ops) (.panic :: os) d'

end Frozen.Props
