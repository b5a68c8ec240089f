import Verif.Spec
import Verif.Model.Compile

/-!
# What a frozen map is supposed to do

Specification-level vocabulary for the map properties: the answers of the four query functions
(`Lookups`), the content seen by iteration (`Contents`), and the maps that the public constructors produce
(`Built`).
-/

namespace Frozen.Props

open Frozen.Spec Frozen.Model

/-- The four query functions answer according to the **last** entry of `es` whose key matches the query, without a
panic or an out-of-bounds access.  `get_mut` designates the position, in the map's iteration order, of that entry. -/
structure Lookups {M Q K V : Type} (I : MapImpl M Q K V) (m : M) (mt : Q → K → Bool) (es : List (K × V)) : Prop where
  get : ∀ q, I.get m q = .ok ((lastMatch mt es q).map (fun e => e.2))
  getKeyValue : ∀ q, I.getKeyValue m q = .ok (lastMatch mt es q)
  containsKey : ∀ q, I.containsKey m q = .ok (lastMatch mt es q).isSome
  getMut : ∀ q, ∃ p, I.getMut m q = .ok p ∧ (p = none ↔ lastMatch mt es q = none) ∧
    ∀ i, p = some i → (I.entries m)[i]? = lastMatch mt es q

/-- `R` lists each of the different keys of `es` once (as some representative of its equality class). -/
structure Representatives {K V : Type} (eqK : K → K → Bool) (es : List (K × V)) (R : List K) : Prop where
  distinct : Distinct eqK R
  covers : ∀ e ∈ es, ∃ k ∈ R, eqK e.1 k = true
  only : ∀ k ∈ R, ∃ e ∈ es, eqK e.1 k = true

/-- Iteration yields exactly one entry per key of `es`, namely the last one given for that key. -/
structure Contents {M Q K V : Type} (I : MapImpl M Q K V) (m : M) (eqK : K → K → Bool) (es : List (K × V)) :
    Prop where
  mem : ∀ e, e ∈ I.entries m ↔ lastMatch eqK es e.1 = some e
  distinct : Distinct eqK ((I.entries m).map (fun e => e.1))

/-- The entries that a macro call or an emitter call writes down: the value of the key expression, with the value of the
value expression (for a set: `unit`). -/
def written {B K V : Type} (em : Emitter) (unit : V) (entries : List (CollectionEntry B K V)) : List (K × V) :=
  entries.map (fun e => (e.keyExpr, if em.hasValueType then e.valueExpr else unit))

/-- `Built eqK mt es I m`: `m` is a map obtained from the entries `es` by one of the constructors of the crate's
general-purpose and public (`Fz*`) map types, or by compiling and running code emitted for `es`; `I` are the functions of that type, `eqK` is equality of keys and `mt` says
which keys a query matches.  The side conditions are the trait contracts of the key and query types, and a bound
on the number of entries (they live in memory). -/
inductive Built [Target] : {Q K V M : Type} → (K → K → Bool) → (Q → K → Bool) → List (K × V) → MapImpl M Q K V → M → Prop
  /-- `ScanMap::new` -/
  | scan {Q K V : Type} {eqK : K → K → Bool} {mt : Q → K → Bool} {es : List (K × V)} (he : LawfulEq' eqK)
      (hq : LawfulQuery eqK mt) : Built eqK mt es (ScanMap.impl mt) (ScanMap.new eqK es)
  /-- `EytzingerSearchMap::new` -/
  | eytzinger {Q K V : Type} {cmp : K → K → Ordering} {qcmp : Q → K → Ordering} {es : List (K × V)}
      {m : EytzingerMap K V} (hc : LawfulCmp cmp) (hq : LawfulQueryCmp cmp qcmp)
      (h : EytzingerMap.new cmp es = .ok m) :
      Built (fun a b => cmp a b == .eq) (fun q k => qcmp q k == .eq) es (EytzingerMap.impl qcmp) m
  /-- `DenseScalarLookupMap::new` returning `Ok` -/
  | dense {Q K V : Type} {b : Build} {cmp : K → K → Ordering} {index : K → Nat} {qindex : Q → Nat} {es : List (K × V)}
      {m : DenseMap K V} (hs : LawfulScalar cmp index) (hn : es.length < sizeLimit)
      (h : DenseMap.new b cmp index es = .ok (.ok m)) :
      Built (fun a b => cmp a b == .eq) (scalarMatch index qindex) es (DenseMap.impl qindex) m
  /-- `SparseScalarLookupMap::new` -/
  | sparse {Q K V : Type} {b : Build} {cmp : K → K → Ordering} {index : K → Nat} {qindex : Q → Nat}
      {es : List (K × V)} {m : SparseMap K V} (hs : LawfulScalar cmp index)
      (h : SparseMap.new b cmp index es = .ok m) :
      Built (fun a b => cmp a b == .eq) (scalarMatch index qindex) es (SparseMap.impl qindex) m
  /-- `HashMap::with_hasher` returning `Ok`, any magnitude -/
  | hash {Q K V : Type} {cm : Magnitude} {find : HbFind} {sort : Sorter (K × V)} {eqK : K → K → Bool}
      {mt : Q → K → Bool} {hK : K → Nat} {hQ : Q → Nat} {es : List (K × V)} {m : HashMap K V} (hf : HbFindOk find)
      (hs : SorterOk sort) (he : LawfulEq' eqK) (hq : LawfulQuery eqK mt) (hh : LawfulHash eqK mt hK hQ)
      (hn : es.length < sizeLimit) (h : HashMap.withHasher cm find sort eqK (bridgeHash hK) es = .ok (.ok m)) :
      Built eqK mt es (HashMap.impl (bridgeHash hQ) mt) m
  /-- `FzHashMap::with_hasher` -/
  | fzHash {Q K V : Type} {find : HbFind} {sort : Sorter (K × V)} {eqK : K → K → Bool} {mt : Q → K → Bool}
      {hK : K → Nat} {hQ : Q → Nat} {es : List (K × V)} {m : HashMap K V} (hf : HbFindOk find) (hs : SorterOk sort)
      (he : LawfulEq' eqK) (hq : LawfulQuery eqK mt) (hh : LawfulHash eqK mt hK hQ) (hn : es.length < sizeLimit)
      (h : FzHashMap.withHasher find sort eqK hK es = .ok m) :
      Built eqK mt es (FzHashMap.impl hQ mt) m
  /-- `FzOrderedMap::new` -/
  | fzOrdered {Q K V : Type} {cmp : K → K → Ordering} {qcmp : Q → K → Ordering} {es : List (K × V)}
      {m : EytzingerMap K V} (hc : LawfulCmp cmp) (hq : LawfulQueryCmp cmp qcmp)
      (h : FzOrderedMap.new cmp es = .ok m) :
      Built (fun a b => cmp a b == .eq) (fun q k => qcmp q k == .eq) es (FzOrderedMap.impl qcmp) m
  /-- `FzScalarMap::new` -/
  | fzScalar {Q K V : Type} {b : Build} {sort : Sorter (K × V)} {cmp : K → K → Ordering} {index : K → Nat}
      {qindex : Q → Nat} {es : List (K × V)} {m : FzScalarMap K V} (hso : SorterOk sort)
      (hs : LawfulScalar cmp index) (hn : es.length < tableLimit) (h : FzScalarMap.new b sort cmp index es = .ok m) :
      Built (fun a b => cmp a b == .eq) (scalarMatch index qindex) es
        (FzScalarMap.impl qindex (scalarMatch index qindex)) m
  /-- `FzStringMap::with_hasher` -/
  | fzString {V : Type} {sort : Sorter (Str × V)} {bhStr bhSlice : Str → Nat} {es : List (Str × V)}
      {m : FzStringMap V} (hso : SorterOk sort) (hn : es.length < sizeLimit)
      (h : FzStringMap.withHasher sort bhStr bhSlice es = .ok m) :
      Built (fun a b => a == b) (fun a b => a == b) es (FzStringMap.impl bhStr bhSlice) m
  /-- `InlineScanMap::new` not panicking -/
  | inlineScan {Q K V : Type} {t : QueryTraits Q K} {eqK : K → K → Bool} {sz : Nat} {es : List (K × V)}
      {m : InlineMap K V} (he : LawfulEq' eqK) (hq : LawfulQuery eqK t.equivalent)
      (h : InlineMap.scanNew sz eqK es = .ok m) : Built eqK t.equivalent es (InlineMap.impl t) m
  /-- `InlineEytzingerSearchMap::new` not panicking -/
  | inlineEytzinger {Q K V : Type} {t : QueryTraits Q K} {cmp : K → K → Ordering} {sz : Nat} {es : List (K × V)}
      {m : InlineMap K V} (hc : LawfulCmp cmp) (hq : LawfulQueryCmp cmp t.compare)
      (h : InlineMap.eytzingerNew sz cmp es = .ok m) :
      Built (fun a b => cmp a b == .eq) (fun q k => t.compare q k == .eq) es (InlineMap.impl t) m
  /-- Code emitted by `emit_hash_collection`, compiled and run. The emitter's keys `key` and their traits have to agree with
  the run-time keys `keyExpr` and theirs. -/
  | emitHash {B Q K V F : Type} {t : QueryTraits Q K} {em : Emitter} {unit : V} {find : HbFind}
      {sort : Sorter (CollectionEntry B K V)} {eqB : B → B → Bool} {eqK : K → K → Bool} {fixedState : Nat → B → Nat}
      {seed : Nat} {hk : K → Nat} {entries : List (CollectionEntry B K V)} {item : Item (Emitted K V)}
      {eq' : K → K → Bool} {cmp' : K → K → Ordering} {fz : FzKind → List (K × V) → Option (Res F)}
      {m : InlineMap K V} (hfind : HbFindOk find) (hsort : SorterOk sort) (heB : LawfulEq' eqB) (he : LawfulEq' eqK)
      (hq : LawfulQuery eqK t.equivalent) (hseed : seed < 2 ^ 64)
      (hB : ∀ a b, eqB a b = true → fixedState seed a = fixedState seed b)
      (hh : LawfulHash eqK t.equivalent hk (t.fixedState seed))
      (hag : ∀ x ∈ entries, ∀ y ∈ entries, eqB x.key y.key = eqK x.keyExpr y.keyExpr)
      (hhash : ∀ x ∈ entries, hk x.keyExpr = fixedState seed x.key) (hn : entries.length < sizeLimit)
      (h : em.emitHash unit find sort eqB fixedState seed entries = .ok (.ok item))
      (hc : item.ctor.compile eq' cmp' fz = some (.ok (.inl m))) :
      Built eqK t.equivalent (written em unit entries) (InlineMap.impl t) m
  /-- Code emitted by `emit_ordered_collection`, compiled and run -/
  | emitOrdered {B Q K V F : Type} {t : QueryTraits Q K} {em : Emitter} {unit : V} {cmpB : B → B → Ordering}
      {cmp : K → K → Ordering} {entries : List (CollectionEntry B K V)} {item : Item (Emitted K V)}
      {eq' : K → K → Bool} {cmp' : K → K → Ordering} {fz : FzKind → List (K × V) → Option (Res F)}
      {m : InlineMap K V} (hB : LawfulCmp cmpB) (hcm : LawfulCmp cmp) (hq : LawfulQueryCmp cmp t.compare)
      (heqv : t.equivalent = fun q k => t.compare q k == .eq)
      (hag : ∀ x ∈ entries, ∀ y ∈ entries, cmpB x.key y.key = cmp x.keyExpr y.keyExpr) (hn : entries.length < sizeLimit)
      (h : em.emitOrdered unit cmpB entries = .ok (.ok item))
      (hc : item.ctor.compile eq' cmp' fz = some (.ok (.inl m))) :
      Built (fun a b => cmp a b == .eq) (fun q k => t.compare q k == .eq) (written em unit entries)
        (InlineMap.impl t) m
  /-- Code emitted by `emit_scalar_collection`, compiled and run -/
  | emitScalar {B Q K V F : Type} {t : QueryTraits Q K} {em : Emitter} {unit : V} {b : Build}
      {sort : Sorter (CollectionEntry B K V)} {cmpB : B → B → Ordering} {index : B → Nat} {cmp : K → K → Ordering}
      {indexK : K → Nat} {entries : List (CollectionEntry B K V)} {item : Item (Emitted K V)}
      {eq' : K → K → Bool} {cmp' : K → K → Ordering} {fz : FzKind → List (K × V) → Option (Res F)}
      {m : InlineMap K V} (hsort : SorterOk sort) (hB : LawfulScalar cmpB index) (hk : LawfulScalar cmp indexK)
      (heqv : t.equivalent = scalarMatch indexK t.index) (hag : ∀ x ∈ entries, indexK x.keyExpr = index x.key)
      (hn : entries.length < tableLimit)
      (h : em.emitScalar unit b sort cmpB index entries = .ok (.ok item))
      (hc : item.ctor.compile eq' cmp' fz = some (.ok (.inl m))) :
      Built (fun a b => cmp a b == .eq) (scalarMatch indexK t.index) (written em unit entries) (InlineMap.impl t) m
  /-- Code emitted by `emit_string_collection`, compiled and run; `bytesK` are the bytes of a run-time key. -/
  | emitString {Q K V F : Type} {t : QueryTraits Q K} {em : Emitter} {unit : V}
      {sort : Sorter (CollectionEntry Str K V)} {fsStr fsSlice : Nat → Str → Nat} {seed : Nat} {bytesK : K → Str}
      {entries : List (CollectionEntry Str K V)} {item : Item (Emitted K V)} {eq' : K → K → Bool}
      {cmp' : K → K → Ordering} {fz : FzKind → List (K × V) → Option (Res F)} {m : InlineMap K V}
      (hsort : SorterOk sort) (hseed : seed < 2 ^ 64) (heqv : t.equivalent = fun q k => t.bytes q == bytesK k)
      (hstr : ∀ q, t.fixedState seed q = fsStr seed (t.bytes q)) (hslice : t.fixedStateSlice seed = fsSlice seed)
      (hag : ∀ x ∈ entries, bytesK x.keyExpr = x.key) (hn : entries.length < sizeLimit)
      (hkl : ∀ x ∈ entries, x.key.length ≤ usizeMax)
      (h : em.emitString unit sort fsStr fsSlice seed entries = .ok (.ok item))
      (hc : item.ctor.compile eq' cmp' fz = some (.ok (.inl m))) :
      Built (fun a b => bytesK a == bytesK b) t.equivalent (written em unit entries) (InlineMap.impl t) m

end Frozen.Props
