import Verif.Model.EffectBuild
import Verif.Props.EffectSpec
import Verif.Props.MapSpec
import Verif.Props.Scalar
import Verif.Props.SafetySpec

/-!
# Specification of constructors whose trait functions have effects
-/

namespace Frozen.Props

open Frozen.Spec Frozen.Model

variable {W T : Type}

/-- The contract of the stable `[T]::sort_by`: if the answers of the closure are a total order, the result is the stably sorted list. -/
def SortByOk (st : SortBy T) : Prop :=
  ∀ cmp : T → T → Ordering, LawfulCmp cmp → ∀ l, (st l).answer (fun p => cmp p.1 p.2) = .ok (l.mergeSort (fun x y => cmp x y != .gt))

/-- `ConstructsWith R eqK mt es I x good fits`: the computation `x` is a constructor of a map type with functions `I`, run on the entries `es` with
trait functions of the user, who answer as lawful functions do, in the sense of `R`; `eqK` is equality of keys and `mt` says which
keys a query matches.  `good` tells which results are maps (`DenseScalarLookupMap::new` and `HashMap::with_hasher` return a
`Result`), and `fits` when the entries are such that there is a map of the type that holds them. -/
inductive ConstructsWith [Target] (R : (A : Type) → Eff W A → A → Prop) :
    {Q K V M A : Type} → (K → K → Bool) → (Q → K → Bool) → List (K × V) → MapImpl M Q K V → Eff W A → (A → Option M) → Prop → Prop
  /-- `ScanMap::new` -/
  | scan {Q K V : Type} {eqK : K → K → Bool} {mt : Q → K → Bool} {es : List (K × V)} {eqE : K → K → Eff W Bool} (he : LawfulEq' eqK)
      (hq : LawfulQuery eqK mt) (h : ∀ a b, R Bool (eqE a b) (eqK a b)) :
      ConstructsWith R eqK mt es (ScanMap.impl mt) (ScanMap.newE eqE es) some True
  /-- `EytzingerSearchMap::new`, `FzOrderedMap::new` -/
  | ordered {Q K V : Type} {cmp : K → K → Ordering} {qcmp : Q → K → Ordering} {es : List (K × V)} {st : SortBy (K × V)}
      {cmpE : K → K → Eff W Ordering} (hst : SortByOk st) (hc : LawfulCmp cmp) (hq : LawfulQueryCmp cmp qcmp)
      (h : ∀ a b, R Ordering (cmpE a b) (cmp a b)) :
      ConstructsWith R (fun a b => cmp a b == .eq) (fun q k => qcmp q k == .eq) es (EytzingerMap.impl qcmp)
        (EytzingerMap.newE st cmpE es) some True
  /-- `DenseScalarLookupMap::new` -/
  | dense {Q K V : Type} {b : Build} {cmp : K → K → Ordering} {index : K → Nat} {qindex : Q → Nat} {es : List (K × V)}
      {st : SortBy (K × V)} {cmpE : K → K → Eff W Ordering} {ix : K → Eff W Nat} (hst : SortByOk st) (hs : LawfulScalar cmp index)
      (hn : es.length < sizeLimit) (h : ∀ a b, R Ordering (cmpE a b) (cmp a b)) (hi : ∀ a, R Nat (ix a) (index a)) :
      ConstructsWith R (fun a b => cmp a b == .eq) (scalarMatch index qindex) es (DenseMap.impl qindex)
        (DenseMap.newE b st cmpE ix es) Except.toOption
        (Contiguous index es ∧ (b = .release ∨ ∀ x ∈ es, ∀ y ∈ es, index x.1 - index y.1 < usizeMax))
  /-- `SparseScalarLookupMap::new` -/
  | sparse {Q K V : Type} {b : Build} {cmp : K → K → Ordering} {index : K → Nat} {qindex : Q → Nat} {es : List (K × V)}
      {st : SortBy (K × V)} {cmpE : K → K → Eff W Ordering} {ix : K → Eff W Nat} (hst : SortByOk st) (hs : LawfulScalar cmp index)
      (h : ∀ a b, R Ordering (cmpE a b) (cmp a b)) (hi : ∀ a, R Nat (ix a) (index a)) :
      ConstructsWith R (fun a b => cmp a b == .eq) (scalarMatch index qindex) es (SparseMap.impl qindex)
        (SparseMap.newE b st cmpE ix es) some (∀ x ∈ es, ∀ y ∈ es, index x.1 + 1 - index y.1 < wordLimit)
  /-- `HashMap::with_hasher`, any magnitude -/
  | hash {Q K V : Type} {cm : Magnitude} {find : HbFindDialog} {rehash : HbRehash} {sort : Sorter (K × V)} {eqK : K → K → Bool}
      {mt : Q → K → Bool} {hK : K → Nat} {hQ : Q → Nat} {es : List (K × V)} {eqE : K → K → Eff W Bool} {hE : K → Eff W Nat}
      (hf : HbFindOk find.find) (hs : SorterOk sort) (he : LawfulEq' eqK) (hq : LawfulQuery eqK mt) (hh : LawfulHash eqK mt hK hQ)
      (hn : es.length < sizeLimit) (h : ∀ a b, R Bool (eqE a b) (eqK a b)) (hk : ∀ a, R Nat (hE a) (hK a)) :
      ConstructsWith R eqK mt es (HashMap.impl (bridgeHash hQ) mt) (HashMap.withHasherE cm find rehash sort eqE hE es) Except.toOption
        ((survivors eqK es).length ≤ cm.maxCapacity)
  /-- `FzHashMap::with_hasher` -/
  | fzHash {Q K V : Type} {find : HbFindDialog} {rehash : HbRehash} {sort : Sorter (K × V)} {eqK : K → K → Bool}
      {mt : Q → K → Bool} {hK : K → Nat} {hQ : Q → Nat} {es : List (K × V)} {eqE : K → K → Eff W Bool} {hE : K → Eff W Nat}
      (hf : HbFindOk find.find) (hs : SorterOk sort) (he : LawfulEq' eqK) (hq : LawfulQuery eqK mt) (hh : LawfulHash eqK mt hK hQ)
      (hn : es.length < sizeLimit) (h : ∀ a b, R Bool (eqE a b) (eqK a b)) (hk : ∀ a, R Nat (hE a) (hK a)) :
      ConstructsWith R eqK mt es (FzHashMap.impl hQ mt) (FzHashMap.withHasherE find rehash sort eqE hE es) some True
  /-- `FzScalarMap::new` -/
  | fzScalar {Q K V : Type} {b : Build} {sort : Sorter (K × V)} {cmp : K → K → Ordering} {index : K → Nat} {qindex : Q → Nat}
      {es : List (K × V)} {st : SortBy (K × V)} {cmpE : K → K → Eff W Ordering} {ix : K → Eff W Nat} (hst : SortByOk st)
      (hso : SorterOk sort) (hs : LawfulScalar cmp index) (hn : es.length < tableLimit) (h : ∀ a b, R Ordering (cmpE a b) (cmp a b))
      (hi : ∀ a, R Nat (ix a) (index a)) :
      ConstructsWith R (fun a b => cmp a b == .eq) (scalarMatch index qindex) es
        (FzScalarMap.impl qindex (scalarMatch index qindex)) (FzScalarMap.newE b st sort cmpE ix es) some
        (∀ x ∈ es, ∀ y ∈ es, index x.1 - index y.1 < usizeMax)
  /-- `FzStringMap::with_hasher` -/
  | fzString {V : Type} {sort : Sorter (Str × V)} {bhStr bhSlice : Str → Nat} {es : List (Str × V)} {b1 b2 : Str → Eff W Nat}
      (hso : SorterOk sort) (hn : es.length < sizeLimit) (h1 : ∀ s, R Nat (b1 s) (bhStr s)) (h2 : ∀ s, R Nat (b2 s) (bhSlice s)) :
      ConstructsWith R (fun a b : Str => a == b) (fun a b : Str => a == b) es (FzStringMap.impl bhStr bhSlice)
        (FzStringMap.withHasherE sort b1 b2 es) some True
  /-- `FzStringMap::with_hasher` with keys of a type whose `AsRef<str>` is `asRef` -/
  | fzStringAs {S V : Type} {sort : Sorter (Str × V)} {bhStr bhSlice : Str → Nat} {text : S → Str} {es : List (S × V)} {asRef : S → Eff W Str}
      {b1 b2 : Str → Eff W Nat} (hso : SorterOk sort) (hn : es.length < sizeLimit) (h0 : ∀ s, R Str (asRef s) (text s))
      (h1 : ∀ s, R Nat (b1 s) (bhStr s)) (h2 : ∀ s, R Nat (b2 s) (bhSlice s)) :
      ConstructsWith R (fun a b : Str => a == b) (fun a b : Str => a == b) (es.map (fun e => (text e.1, e.2))) (FzStringMap.impl bhStr bhSlice)
        (FzStringMap.withHasherAsE sort asRef b1 b2 es) some True
  /-- `InlineScanMap::new` -/
  | inlineScan {Q K V : Type} {t : QueryTraits Q K} {eqK : K → K → Bool} {sz : Nat} {es : List (K × V)} {eqE : K → K → Eff W Bool}
      (he : LawfulEq' eqK) (hq : LawfulQuery eqK t.equivalent) (h : ∀ a b, R Bool (eqE a b) (eqK a b)) :
      ConstructsWith R eqK t.equivalent es (InlineMap.impl t) (InlineMap.scanNewE sz eqE es) some ((survivors eqK es).length = sz)
  /-- `InlineEytzingerSearchMap::new` -/
  | inlineOrdered {Q K V : Type} {t : QueryTraits Q K} {cmp : K → K → Ordering} {sz : Nat} {es : List (K × V)} {st : SortBy (K × V)}
      {cmpE : K → K → Eff W Ordering} (hst : SortByOk st) (hc : LawfulCmp cmp) (hq : LawfulQueryCmp cmp t.compare)
      (h : ∀ a b, R Ordering (cmpE a b) (cmp a b)) :
      ConstructsWith R (fun a b => cmp a b == .eq) (fun q k => t.compare q k == .eq) es (InlineMap.impl t)
        (InlineMap.eytzingerNewE sz st cmpE es) some
        ((survivors (fun a b => cmp a b == .eq) es).length = sz)

/-! ## Arbitrary trait functions -/

/-- Whatever the answers of the closure, the computation ends with a result that satisfies `P`. -/
def AlwaysEnds {A B R : Type} (P : R → Prop) : Dialog A B R → Prop
  | .done r => P r
  | .ask _ next => ∀ b, AlwaysEnds P (next b)

/-- The contract of `[T]::sort_by` for arbitrary closures: it panics or rearranges the elements. -/
def SortBySafe (st : SortBy T) : Prop := ∀ l, AlwaysEnds (fun r => (∃ msg, r = .error (.panic msg)) ∨ ∃ l', r = .ok l' ∧ l'.Perm l) (st l)

/-- The answers of the function are numbers of type `usize`. -/
def UsizeAnswers [Target] {K : Type} (ix : K → Eff W Nat) : Prop := ∀ k w n, (ix k w).1 = .ok n → n ≤ usizeMax

/-- `AnyConstructor I x safe`: the computation `x` is a constructor of a map type with functions `I`, run with arbitrary safe trait
functions of the user.  `safe` picks the maps among the results that are memory safe under all circumstances: all except those of
dense scalar maps (see C51). -/
inductive AnyConstructor [Target] :
    {W Q K V M A : Type} → MapImpl M Q K V → Eff W A → (A → Option M) → Prop
  /-- `ScanMap::new` -/
  | scan {W Q K V : Type} (mt : Q → K → Bool) {es : List (K × V)} {eqE : K → K → Eff W Bool} (h : ∀ a b, SafeCode (eqE a b)) :
      AnyConstructor (ScanMap.impl mt) (ScanMap.newE eqE es) some
  /-- `EytzingerSearchMap::new`, `FzOrderedMap::new` -/
  | ordered {W Q K V : Type} (qcmp : Q → K → Ordering) {es : List (K × V)} {st : SortBy (K × V)} {cmpE : K → K → Eff W Ordering}
      (hst : SortBySafe st) (h : ∀ a b, SafeCode (cmpE a b)) :
      AnyConstructor (EytzingerMap.impl qcmp) (EytzingerMap.newE st cmpE es) some
  /-- `DenseScalarLookupMap::new` -/
  | dense {W Q K V : Type} {b : Build} (qindex : Q → Nat) {es : List (K × V)} {st : SortBy (K × V)} {cmpE : K → K → Eff W Ordering}
      {ix : K → Eff W Nat} (hst : SortBySafe st) (h : ∀ a b, SafeCode (cmpE a b)) (hi : ∀ a, SafeCode (ix a)) :
      AnyConstructor (DenseMap.impl qindex) (DenseMap.newE b st cmpE ix es) (fun _ => none)
  /-- `SparseScalarLookupMap::new` -/
  | sparse {W Q K V : Type} {b : Build} (qindex : Q → Nat) {es : List (K × V)} {st : SortBy (K × V)} {cmpE : K → K → Eff W Ordering}
      {ix : K → Eff W Nat} (hst : SortBySafe st) (h : ∀ a b, SafeCode (cmpE a b)) (hi : ∀ a, SafeCode (ix a)) (hu : UsizeAnswers ix) :
      AnyConstructor (SparseMap.impl qindex) (SparseMap.newE b st cmpE ix es) some
  /-- `HashMap::with_hasher`, any magnitude -/
  | hash {W Q K V : Type} {cm : Magnitude} {find : HbFindDialog} {rehash : HbRehash} {sort : Sorter (K × V)} (hQ : Q → Nat)
      (mt : Q → K → Bool) {es : List (K × V)} {eqE : K → K → Eff W Bool} {hE : K → Eff W Nat} (hs : SorterOk sort)
      (hn : es.length < sizeLimit) (h : ∀ a b, SafeCode (eqE a b)) (hk : ∀ a, SafeCode (hE a)) :
      AnyConstructor (HashMap.impl (bridgeHash hQ) mt) (HashMap.withHasherE cm find rehash sort eqE hE es) Except.toOption
  /-- `FzHashMap::with_hasher` -/
  | fzHash {W Q K V : Type} {find : HbFindDialog} {rehash : HbRehash} {sort : Sorter (K × V)} (hQ : Q → Nat)
      (mt : Q → K → Bool) {es : List (K × V)} {eqE : K → K → Eff W Bool} {hE : K → Eff W Nat} (hs : SorterOk sort)
      (hn : es.length < sizeLimit) (h : ∀ a b, SafeCode (eqE a b)) (hk : ∀ a, SafeCode (hE a)) :
      AnyConstructor (FzHashMap.impl hQ mt) (FzHashMap.withHasherE find rehash sort eqE hE es) some
  /-- `FzScalarMap::new` -/
  | fzScalar {W Q K V : Type} {b : Build} {sort : Sorter (K × V)} (qindex : Q → Nat) (mt : Q → K → Bool) {es : List (K × V)}
      {st : SortBy (K × V)} {cmpE : K → K → Eff W Ordering} {ix : K → Eff W Nat} (hst : SortBySafe st) (hs : SorterOk sort)
      (hn : es.length < sizeLimit) (h : ∀ a b, SafeCode (cmpE a b)) (hi : ∀ a, SafeCode (ix a)) (hu : UsizeAnswers ix) :
      AnyConstructor (FzScalarMap.impl qindex mt) (FzScalarMap.newE b st sort cmpE ix es)
        (fun m => match m with | .dense _ => none | m => some m)
  /-- `FzStringMap::with_hasher` -/
  | fzString {W V : Type} {sort : Sorter (Str × V)} (bhStr bhSlice : Str → Nat) {es : List (Str × V)} {b1 b2 : Str → Eff W Nat}
      (hs : SorterOk sort) (hn : es.length < sizeLimit) (h1 : ∀ s, SafeCode (b1 s)) (h2 : ∀ s, SafeCode (b2 s)) :
      AnyConstructor (FzStringMap.impl bhStr bhSlice) (FzStringMap.withHasherE sort b1 b2 es) some
  /-- `FzStringMap::with_hasher` with keys of a type whose `AsRef<str>` is `asRef` -/
  | fzStringAs {W S V : Type} {sort : Sorter (Str × V)} (bhStr bhSlice : Str → Nat) {es : List (S × V)} {asRef : S → Eff W Str}
      {b1 b2 : Str → Eff W Nat} (hs : SorterOk sort) (hn : es.length < sizeLimit) (h0 : ∀ s, SafeCode (asRef s)) (h1 : ∀ s, SafeCode (b1 s))
      (h2 : ∀ s, SafeCode (b2 s)) :
      AnyConstructor (FzStringMap.impl bhStr bhSlice) (FzStringMap.withHasherAsE sort asRef b1 b2 es) some
  /-- `InlineScanMap::new` -/
  | inlineScan {W Q K V : Type} (t : QueryTraits Q K) {sz : Nat} {es : List (K × V)} {eqE : K → K → Eff W Bool}
      (h : ∀ a b, SafeCode (eqE a b)) : AnyConstructor (InlineMap.impl t) (InlineMap.scanNewE sz eqE es) some
  /-- `InlineEytzingerSearchMap::new` -/
  | inlineOrdered {W Q K V : Type} (t : QueryTraits Q K) {sz : Nat} {es : List (K × V)} {st : SortBy (K × V)}
      {cmpE : K → K → Eff W Ordering} (hst : SortBySafe st) (h : ∀ a b, SafeCode (cmpE a b)) :
      AnyConstructor (InlineMap.impl t) (InlineMap.eytzingerNewE sz st cmpE es) some

/-- `m'` comes out of `m` by stores, `wr m i v` being the store of `v` into entry `i`. -/
inductive Written {M V : Type} (wr : M → Nat → V → M) (m : M) : M → Prop
  | refl : Written wr m m
  | write {m' : M} (i : Nat) (v : V) (h : Written wr m m') : Written wr m (wr m' i v)

/-- `AnyLife x safe wr entries S`: the computation `x` constructs a map, `safe` picks the results (see `AnyConstructor`), `wr` stores into entries and
`S` looks up; construction and lookups run with arbitrary safe trait functions of the user.  A constructor does not depend on the functions
that look up keys later, so that `x` is a constructor in the sense of `AnyConstructor` for all of them. -/
inductive AnyLife [Target] : {W Q K V M A : Type} → Eff W A → (A → Option M) → (M → Nat → V → M) → (M → List (K × V)) →
    (M → Q → Eff W (Option Nat)) → Prop
  | scan {W Q K V : Type} {x : Eff W (ScanMap K V)} (hx : ∀ mt : Q → K → Bool, AnyConstructor (ScanMap.impl mt) x some)
      {eqv : Q → K → Eff W Bool} (h : ∀ q k, SafeCode (eqv q k)) :
      AnyLife x some (ScanMap.impl (Q := Q) (fun _ _ => true)).write ScanMap.entries (ScanMap.searchE eqv)
  | ordered {W Q K V : Type} {x : Eff W (EytzingerMap K V)} (hx : ∀ qcmp : Q → K → Ordering, AnyConstructor (EytzingerMap.impl qcmp) x some)
      {qc : Q → K → Eff W Ordering} (h : ∀ q k, SafeCode (qc q k)) :
      AnyLife x some (EytzingerMap.impl (Q := Q) (fun _ _ => .eq)).write EytzingerMap.entries (EytzingerMap.searchE qc)
  | sparse {W Q K V : Type} {x : Eff W (SparseMap K V)} (hx : ∀ qindex : Q → Nat, AnyConstructor (SparseMap.impl qindex) x some)
      {ix : Q → Eff W Nat} (h : ∀ q, SafeCode (ix q)) :
      AnyLife x some (SparseMap.impl (Q := Q) (fun _ => 0)).write SparseMap.entries (SparseMap.searchE ix)
  | hash {W Q K V A : Type} {x : Eff W A} {safe : A → Option (HashMap K V)}
      (hx : ∀ (hQ : Q → Nat) (mt : Q → K → Bool), AnyConstructor (HashMap.impl (bridgeHash hQ) mt) x safe)
      {hE : Q → Eff W Nat} {eqv : Q → K → Eff W Bool} (hh : ∀ q, SafeCode (hE q)) (h : ∀ q k, SafeCode (eqv q k)) :
      AnyLife x safe (HashMap.impl (Q := Q) (bridgeHash (fun _ => 0)) (fun _ _ => true)).write (fun m => m.table.entries) (HashMap.searchE hE eqv)
  | fzScalar {W Q K V : Type} {x : Eff W (FzScalarMap K V)} {safe : FzScalarMap K V → Option (FzScalarMap K V)}
      (hx : ∀ (qindex : Q → Nat) (mt : Q → K → Bool), AnyConstructor (FzScalarMap.impl qindex mt) x safe)
      {ix : Q → Eff W Nat} {eqv : Q → K → Eff W Bool} (hi : ∀ q, SafeCode (ix q)) (h : ∀ q k, SafeCode (eqv q k)) :
      AnyLife x safe (FzScalarMap.impl (Q := Q) (fun _ => 0) (fun _ _ => true)).write FzScalarMap.entries (FzScalarMap.searchE ix eqv)
  | fzString {W V : Type} {sort : Sorter (Str × V)} {es : List (Str × V)} {b1 b2 c1 c2 : Str → Eff W Nat} (hs : SorterOk sort)
      (hn : es.length < sizeLimit) (h1 : ∀ s, SafeCode (b1 s)) (h2 : ∀ s, SafeCode (b2 s)) (h3 : ∀ s, SafeCode (c1 s))
      (h4 : ∀ s, SafeCode (c2 s)) :
      AnyLife (FzStringMap.withHasherE sort b1 b2 es) some FzStringMap.write FzStringMap.entries (FzStringMap.searchE c1 c2)
  | inline {W Q K V : Type} {x : Eff W (InlineMap K V)} {u : UserTraits W Q K}
      (hx : ∀ t : QueryTraits Q K, AnyConstructor (InlineMap.impl t) x some)
      (h1 : ∀ q k, SafeCode (u.equivalent q k)) (h2 : ∀ q k, SafeCode (u.compare q k)) (h3 : ∀ q, SafeCode (u.index q))
      (h4 : ∀ n q, SafeCode (u.fixedState n q)) (h5 : ∀ n s, SafeCode (u.fixedStateSlice n s)) :
      AnyLife x some InlineMap.write InlineMap.entries (InlineMap.searchE u)

end Frozen.Props
