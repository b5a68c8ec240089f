import Verif.Spec
import Verif.Model.Compile
import Verif.Model.Varying

/-!
# Memory safety without trust in trait implementations

Specification-level vocabulary for C50-C52.  Safe Rust code may implement `Eq`, `Ord`, `Hash`, `Equivalent`, `Comparable` and
`Scalar` in any way it likes; breaking their laws may give wrong answers or panics but must not give undefined behaviour.
Nothing in this file assumes a law of those traits.
-/

namespace Frozen.Props

open Frozen.Spec Frozen.Model

/-- The computation does not run into undefined behaviour (it may panic). -/
def NoUb {α : Type} (r : Res α) : Prop := ∀ what, r ≠ .error (.ub what)

/-- No query on `m` runs into undefined behaviour, and the reference handed out by `get_mut` points at an entry. -/
structure MemSafe {M Q K V : Type} (I : MapImpl M Q K V) (m : M) : Prop where
  get : ∀ q, NoUb (I.get m q)
  getKeyValue : ∀ q, NoUb (I.getKeyValue m q)
  containsKey : ∀ q, NoUb (I.containsKey m q)
  getMut : ∀ q, NoUb (I.getMut m q)
  inside : ∀ q i, I.getMut m q = .ok (some i) → i < (I.entries m).length

/-- `m'` comes out of `m` by stores through references into its entries. -/
inductive Stores {M Q K V : Type} (I : MapImpl M Q K V) (m : M) : M → Prop
  | refl : Stores I m m
  | write {m' : M} (i : Nat) (v : V) (h : Stores I m m') : Stores I m (I.write m' i v)

/-- `AnyMap I m`: `m` is a map obtained by one of the constructors of the crate, the trait implementations of keys and queries
being arbitrary functions.  Where a constructor sorts or removes duplicates first, the list `es` it goes on with is arbitrary: with an
unlawful `Ord`, `Eq` or `Hash` nothing is known on the outcome of `sort_by` or of a hashbrown table.  Indices are `usize`
values; lists live in memory. -/
inductive AnyMap [Target] : {Q K V M : Type} → MapImpl M Q K V → M → Prop
  /-- `ScanMap::new`, `ScanMap::default`, `InlineScanMap::new_raw` ... -/
  | scan {Q K V : Type} (mt : Q → K → Bool) (es : List (K × V)) : AnyMap (ScanMap.impl mt) ⟨es⟩
  /-- `EytzingerSearchMap::new`, `FzOrderedMap::new`, after sorting and deduplication -/
  | eytzinger {Q K V : Type} (qcmp : Q → K → Ordering) {es : List (K × V)} {m : EytzingerMap K V}
      (h : EytzingerMap.fromSortedAndDedupped es = .ok m) : AnyMap (EytzingerMap.impl qcmp) m
  /-- `DenseScalarLookupMap::new`, after sorting and deduplication -/
  | dense {Q K V : Type} {b : Build} {index : K → Nat} (qindex : Q → Nat) {es : List (K × V)} {m : DenseMap K V}
      (hi : ∀ k, index k ≤ usizeMax) (hn : es.length < sizeLimit)
      (h : DenseMap.newSorted b index index index index es = .ok (.ok m)) : AnyMap (DenseMap.impl qindex) m
  /-- `SparseScalarLookupMap::new`, after sorting and deduplication -/
  | sparse {Q K V : Type} {b : Build} {index : K → Nat} (qindex : Q → Nat) {es : List (K × V)} {m : SparseMap K V}
      (hi : ∀ k, index k ≤ usizeMax) (h : SparseMap.newSorted b index index (fun _ => index) es = .ok m) :
      AnyMap (SparseMap.impl qindex) m
  /-- `HashMap::with_hasher`, `FzHashMap::with_hasher`, after deduplication -/
  | hash {Q K V : Type} {cm : Magnitude} {sort : Sorter (K × V)} {hK : K → Nat} (hQ : Q → Nat) (mt : Q → K → Bool)
      {es : List (K × V)} {m : HashMap K V} (hs : SorterOk sort) (hn : es.length < sizeLimit)
      (h : HashMap.fromDedupped cm sort (bridgeHash hK) es = .ok (.ok m)) :
      AnyMap (HashMap.impl (bridgeHash hQ) mt) m
  /-- `FzScalarMap::new`, after sorting and deduplication -/
  | fzScalar {Q K V : Type} {b : Build} {sort : Sorter (K × V)} {index : K → Nat} (qindex : Q → Nat) (mt : Q → K → Bool)
      {es : List (K × V)} {a : ScalarAnalysis} {m : FzScalarMap K V} (hs : SorterOk sort)
      (hi : ∀ k, index k ≤ usizeMax) (hn : es.length < sizeLimit)
      (ha : analyzeScalarKeys b (es.map (fun x => index x.1)) = .ok a)
      (h : FzScalarMap.build b sort index es a = .ok m) : AnyMap (FzScalarMap.impl qindex mt) m
  /-- `FzStringMap::with_hasher`, after deduplication, for whatever range the analysis returned -/
  | fzString {V : Type} {sort : Sorter (Str × V)} {bhStr bhSlice : Str → Nat} {es : List (Str × V)} {a : SliceAnalysis}
      {m : FzStringMap V} (hs : SorterOk sort) (hn : es.length < sizeLimit)
      (h : FzStringMap.build sort bhStr bhSlice es a = .ok m) : AnyMap (FzStringMap.impl bhStr bhSlice) m
  /-- The `Default` instances -/
  | default {Q K V : Type} (qindex : Q → Nat) (mt : Q → K → Bool) :
      AnyMap (FzScalarMap.impl qindex mt) (FzScalarMap.default : FzScalarMap K V)
  /-- Code emitted for an ordered collection, or for a small one, compiled and run with arbitrary run-time trait
  implementations `t`, `eq'`, `cmp'` -/
  | emitPlain {B Q K V F : Type} (t : QueryTraits Q K) {g : Generator} {es : List (CollectionEntry B K V)}
      {e : Emitted K V} {eq' : K → K → Bool} {cmp' : K → K → Ordering} {fz : FzKind → List (K × V) → Option (Res F)}
      {m : InlineMap K V}
      (h : g.genEytzinger es = .ok e ∨ e = g.genScan es ∨ e = g.genScanVec es ∨ e = g.genEytzingerVec es)
      (hc : e.compile eq' cmp' fz = some (.ok (.inl m))) : AnyMap (InlineMap.impl t) m
  /-- Code emitted for a hash collection (whatever the hasher), compiled and run -/
  | emitHash {B Q K V F : Type} (t : QueryTraits Q K) {g : Generator} {sort : Sorter (CollectionEntry B K V)}
      {hash : B → Nat} {hasher : HasherTok} {es : List (CollectionEntry B K V)} {e : Emitted K V}
      {eq' : K → K → Bool} {cmp' : K → K → Ordering} {fz : FzKind → List (K × V) → Option (Res F)}
      {m : InlineMap K V} (hs : SorterOk sort) (hn : es.length < sizeLimit) (h : g.genHash sort es hash hasher = .ok e)
      (hc : e.compile eq' cmp' fz = some (.ok (.inl m))) : AnyMap (InlineMap.impl t) m
  /-- Code emitted for a scalar collection, compiled and run -/
  | emitScalar {B Q K V F : Type} (t : QueryTraits Q K) {g : Generator} {b : Build}
      {sort : Sorter (CollectionEntry B K V)} {index : B → Nat} {es : List (CollectionEntry B K V)}
      {a : ScalarAnalysis} {e : Emitted K V} {eq' : K → K → Bool} {cmp' : K → K → Ordering}
      {fz : FzKind → List (K × V) → Option (Res F)} {m : InlineMap K V} (hs : SorterOk sort)
      (hi : ∀ k, index k ≤ usizeMax) (hn : es.length < sizeLimit)
      (ha : analyzeScalarKeys b (es.map (fun x => index x.key)) = .ok a) (h : g.genScalar b sort index es a = .ok e)
      (hc : e.compile eq' cmp' fz = some (.ok (.inl m))) : AnyMap (InlineMap.impl t) m

end Frozen.Props
