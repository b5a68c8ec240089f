import Verif.Lemmas.Clones
import Verif.Props.MapSpec
import Verif.Props.Equality
import Verif.Props.Sets

/-!
# C81: a clone of a collection is a faithful copy

Nothing is assumed about how the collection came to be: the theorems hold for every value of the collection types.  Of the user's `Clone` for keys it is
asked that a clone is equal to its original, and of the `Clone` for hashers that a clone hashes like its original.
-/

namespace Frozen.Props
open Frozen Frozen.Spec Frozen.Model

variable {M Q K V T : Type} {ck : K → Res K} {cv : V → Res V} {f : K → K} {g : V → V}

/-- How a pair is copied. -/
abbrev both (f : K → K) (g : V → V) (e : K × V) : K × V := (f e.1, g e.2)

theorem foldl_get (mt : K → Bool) (es : List (K × V)) (hk : ∀ e ∈ es, mt (f e.1) = mt e.1) (r : Option V) :
    (es.map (both f g)).foldl (fun r e => if mt e.1 then some e.2 else r) (r.map g) =
    (es.foldl (fun r e => if mt e.1 then some e.2 else r) r).map g := by
  induction es generalizing r with
  | nil => rfl
  | cons e es ih =>
    simp only [List.map_cons, List.foldl_cons, hk e (by simp)]
    rw [← ih (fun e' he => hk e' (by simp [he]))]
    cases mt e.1 <;> rfl

theorem foldl_getKeyValue (mt : K → Bool) (es : List (K × V)) (hk : ∀ e ∈ es, mt (f e.1) = mt e.1) (r : Option (K × V)) :
    (es.map (both f g)).foldl (fun r e => if mt e.1 then some (e.1, e.2) else r) (r.map (both f g)) =
    (es.foldl (fun r e => if mt e.1 then some (e.1, e.2) else r) r).map (both f g) := by
  induction es generalizing r with
  | nil => rfl
  | cons e es ih =>
    simp only [List.map_cons, List.foldl_cons, hk e (by simp)]
    rw [← ih (fun e' he => hk e' (by simp [he]))]
    cases mt e.1 <;> rfl

theorem scanMutLoop_map (mt : Q → K → Bool) (q : Q) (es : List (K × V)) (hk : ∀ e ∈ es, mt q (f e.1) = mt q e.1) (i : Nat) (r : Option Nat) :
    scanMutLoop mt q (es.map (both f g)) i r = scanMutLoop mt q es i r := by
  induction es generalizing i r with
  | nil => rfl
  | cons e es ih =>
    simp only [List.map_cons, scanMutLoop, hk e (by simp)]
    exact ih (fun e' he => hk e' (by simp [he])) _ _

theorem scan_copy {mt : Q → K → Bool} {es : List (K × V)} (hk : ∀ e ∈ es, ∀ q, mt q (f e.1) = mt q e.1) :
    CopyOf f g (ScanMap.impl mt) (ScanMap.impl mt) ⟨es⟩ ⟨es.map (both f g)⟩ where
  entries := rfl
  len := List.length_map ..
  get := fun q => congrArg Except.ok (foldl_get (mt q) es (fun e he => hk e he q) none)
  getMut := fun q => congrArg Except.ok (scanMutLoop_map mt q es (fun e he => hk e he q) 0 none)
  getKeyValue := fun q => congrArg Except.ok (foldl_getKeyValue (mt q) es (fun e he => hk e he q) none)
  containsKey := fun q => by
    have := foldl_get (g := g) (mt q) es (fun e he => hk e he q) none
    simp only [ScanMap.impl, ScanMap.containsKey, ScanMap.get, bind, Except.bind]
    rw [Option.map_none] at this
    rw [this, Option.isSome_map]

theorem eytzinger_copy {qcmp : Q → K → Ordering} {es : List (K × V)} (hk : ∀ e ∈ es, ∀ q, qcmp q (f e.1) = qcmp q e.1) :
    CopyOf f g (EytzingerMap.impl qcmp) (EytzingerMap.impl qcmp) ⟨es⟩ ⟨es.map (both f g)⟩ := by
  have hs : ∀ q, eytzingerSearchBy (es.map (both f g)) (fun e => (qcmp q e.1).swap) = eytzingerSearchBy es (fun e => (qcmp q e.1).swap) :=
    fun q => eytzingerSearch_map (both f g) es _ _ fun e he => by simp only [hk e he q]
  have hget : ∀ q, (EytzingerMap.mk (es.map (both f g))).get qcmp q = ((EytzingerMap.mk es).get qcmp q).map (Option.map g) := by
    intro q
    simp only [EytzingerMap.get, hs, bind, Except.bind]
    cases eytzingerSearchBy es (fun e => (qcmp q e.1).swap) with
    | none => rfl
    | some i =>
      simp only []
      rw [getUnchecked_map]
      cases getUnchecked es i <;> rfl
  refine ⟨rfl, List.length_map .., hget, fun q => ?_, fun q => ?_, fun q => ?_⟩
  · simp only [EytzingerMap.impl, EytzingerMap.getMut, hs, bind, Except.bind]
    cases eytzingerSearchBy es (fun e => (qcmp q e.1).swap) with
    | none => rfl
    | some i =>
      simp only []
      rw [getUnchecked_map]
      cases getUnchecked es i <;> rfl
  · simp only [EytzingerMap.impl, EytzingerMap.getKeyValue, hs, bind, Except.bind]
    cases eytzingerSearchBy es (fun e => (qcmp q e.1).swap) with
    | none => rfl
    | some i =>
      simp only []
      rw [getUnchecked_map]
      cases getUnchecked es i <;> rfl
  · simp only [EytzingerMap.impl, EytzingerMap.containsKey, bind, Except.bind, hget]
    cases (EytzingerMap.mk es).get qcmp q with
    | error e => rfl
    | ok r => simp only [Except.map, Option.isSome_map]

theorem dense_copy {qindex : Q → Nat} {lo hi : Nat} {es : List (K × V)} :
    CopyOf f g (DenseMap.impl qindex) (DenseMap.impl qindex) ⟨lo, hi, es⟩ ⟨lo, hi, es.map (both f g)⟩ := by
  have hget : ∀ q, (DenseMap.mk lo hi (es.map (both f g))).get qindex q = ((DenseMap.mk lo hi es).get qindex q).map (Option.map g) := by
    intro q
    simp only [DenseMap.get, bind, Except.bind, getUnchecked_map]
    by_cases hb : qindex q ≥ lo ∧ qindex q ≤ hi
    · rw [if_pos hb, if_pos hb]
      cases getUnchecked es (qindex q - lo) <;> rfl
    · rw [if_neg hb, if_neg hb]; rfl
  refine ⟨rfl, List.length_map .., hget, fun q => ?_, fun q => ?_, fun q => ?_⟩
  · simp only [DenseMap.impl, DenseMap.getMut, bind, Except.bind, getUnchecked_map]
    cases getUnchecked es (qindex q - lo) <;> rfl
  · simp only [DenseMap.impl, DenseMap.getKeyValue, bind, Except.bind, getUnchecked_map]
    by_cases hb : qindex q ≥ lo ∧ qindex q ≤ hi
    · rw [if_pos hb, if_pos hb]
      cases getUnchecked es (qindex q - lo) <;> rfl
    · rw [if_neg hb, if_neg hb]; rfl
  · simp only [DenseMap.impl, DenseMap.containsKey, bind, Except.bind, hget]
    cases (DenseMap.mk lo hi es).get qindex q with
    | error e => rfl
    | ok r => simp only [Except.map, Option.isSome_map]

theorem sparse_copy {qindex : Q → Nat} {lo hi : Nat} {lookup : List Nat} {es : List (K × V)} :
    CopyOf f g (SparseMap.impl qindex) (SparseMap.impl qindex) ⟨lo, hi, lookup, es⟩ ⟨lo, hi, lookup, es.map (both f g)⟩ := by
  have hget : ∀ q, (SparseMap.mk lo hi lookup (es.map (both f g))).get qindex q =
      ((SparseMap.mk lo hi lookup es).get qindex q).map (Option.map g) := by
    intro q
    simp only [SparseMap.get, bind, Except.bind, getUnchecked_map]
    by_cases hb : qindex q ≥ lo ∧ qindex q ≤ hi
    · rw [if_pos hb, if_pos hb]
      cases getUnchecked lookup (qindex q - lo) with
      | error e => rfl
      | ok i =>
        simp only []
        by_cases hi : i > 0
        · rw [if_pos hi, if_pos hi]
          cases getUnchecked es (i - 1) <;> rfl
        · rw [if_neg hi, if_neg hi]; rfl
    · rw [if_neg hb, if_neg hb]; rfl
  refine ⟨rfl, List.length_map .., hget, fun q => ?_, fun q => ?_, fun q => ?_⟩
  · simp only [SparseMap.impl, SparseMap.getMut, bind, Except.bind, getUnchecked_map]
    cases getUnchecked lookup (qindex q - lo) with
    | error e => rfl
    | ok i =>
      simp only []
      cases getUnchecked es (i - 1) <;> rfl
  · simp only [SparseMap.impl, SparseMap.getKeyValue, bind, Except.bind, getUnchecked_map]
    by_cases hb : qindex q ≥ lo ∧ qindex q ≤ hi
    · rw [if_pos hb, if_pos hb]
      cases getUnchecked lookup (qindex q - lo) with
      | error e => rfl
      | ok i =>
        simp only []
        by_cases hi : i > 0
        · rw [if_pos hi, if_pos hi]
          cases getUnchecked es (i - 1) <;> rfl
        · rw [if_neg hi, if_neg hi]; rfl
    · rw [if_neg hb, if_neg hb]; rfl
  · simp only [SparseMap.impl, SparseMap.containsKey, bind, Except.bind, hget]
    cases (SparseMap.mk lo hi lookup es).get qindex q with
    | error e => rfl
    | ok r => simp only [Except.map, Option.isSome_map]

theorem hash_copy {hQ hQ' : Q → Res Nat} (hh : ∀ q, hQ' q = hQ q) {mt : Q → K → Bool} {t : HashTable (K × V)}
    (hk : ∀ e ∈ t.entries, ∀ q, mt q (f e.1) = mt q e.1) :
    CopyOf f g (HashMap.impl hQ mt) (HashMap.impl hQ' mt) ⟨t⟩ ⟨⟨t.slots, t.entries.map (both f g), t.mask⟩⟩ := by
  cases funext hh
  have hf : ∀ q h, HashTable.find ⟨t.slots, t.entries.map (both f g), t.mask⟩ h (fun e => mt q e.1) =
      (t.find h (fun e => mt q e.1)).map (Option.map (both f g)) :=
    fun q h => find_map (both f g) t _ _ (fun e he => hk e he q) h
  have hget : ∀ q, (HashMap.mk ⟨t.slots, t.entries.map (both f g), t.mask⟩).get hQ mt q = ((HashMap.mk t).get hQ mt q).map (Option.map g) := by
    intro q
    simp only [HashMap.get, bind, Except.bind]
    cases hQ q with
    | error e => rfl
    | ok h =>
      simp only [hf]
      cases t.find h (fun e => mt q e.1) with
      | error e => rfl
      | ok r => cases r <;> rfl
  refine ⟨rfl, List.length_map .., hget, fun q => ?_, fun q => ?_, fun q => ?_⟩
  · simp only [HashMap.impl, HashMap.getMut, bind, Except.bind]
    cases hQ q with
    | error e => rfl
    | ok h => exact findMut_map (both f g) t _ _ (fun e he => hk e he q) h
  · simp only [HashMap.impl, HashMap.getKeyValue, bind, Except.bind]
    cases hQ q with
    | error e => rfl
    | ok h =>
      simp only [hf]
      cases t.find h (fun e => mt q e.1) with
      | error e => rfl
      | ok r => cases r <;> rfl
  · simp only [HashMap.impl, HashMap.containsKey, bind, Except.bind, hget]
    cases (HashMap.mk t).get hQ mt q with
    | error e => rfl
    | ok r => simp only [Except.map, Option.isSome_map]

theorem hashNC_copy {hQ hQ' : Q → Res Nat} (hh : ∀ q, hQ' q = hQ q) {mt : Q → K → Bool} {t : HashTableNC (K × V)}
    (hk : ∀ e ∈ t.entries, ∀ q, mt q (f e.1) = mt q e.1) :
    CopyOf f g (HashMapNC.impl hQ mt) (HashMapNC.impl hQ' mt) ⟨t⟩ ⟨⟨t.slots, t.entries.map (both f g), t.mask⟩⟩ := by
  cases funext hh
  have hf : ∀ q h, HashTableNC.find ⟨t.slots, t.entries.map (both f g), t.mask⟩ h (fun e => mt q e.1) =
      (t.find h (fun e => mt q e.1)).map (Option.map (both f g)) :=
    fun q h => findNC_map (both f g) t _ _ (fun e he => hk e he q) h
  have hget : ∀ q, (HashMapNC.mk ⟨t.slots, t.entries.map (both f g), t.mask⟩).get hQ mt q = ((HashMapNC.mk t).get hQ mt q).map (Option.map g) := by
    intro q
    simp only [HashMapNC.get, bind, Except.bind]
    cases hQ q with
    | error e => rfl
    | ok h =>
      simp only [hf]
      cases t.find h (fun e => mt q e.1) with
      | error e => rfl
      | ok r => cases r <;> rfl
  refine ⟨rfl, List.length_map .., hget, fun q => ?_, fun q => ?_, fun q => ?_⟩
  · simp only [HashMapNC.impl, HashMapNC.getMut, bind, Except.bind]
    cases hQ q with
    | error e => rfl
    | ok h => exact findMutNC_map (both f g) t _ _ (fun e he => hk e he q) h
  · simp only [HashMapNC.impl, HashMapNC.getKeyValue, bind, Except.bind]
    cases hQ q with
    | error e => rfl
    | ok h =>
      simp only [hf]
      cases t.find h (fun e => mt q e.1) with
      | error e => rfl
      | ok r => cases r <;> rfl
  · simp only [HashMapNC.impl, HashMapNC.containsKey, bind, Except.bind, hget]
    cases (HashMapNC.mk t).get hQ mt q with
    | error e => rfl
    | ok r => simp only [Except.map, Option.isSome_map]

theorem hash_clone {m : HashMap K V} (h : ClonesTo ck cv f g m.table.entries) :
    m.clone ck cv = .ok ⟨⟨m.table.slots, m.table.entries.map (both f g), m.table.mask⟩⟩ := by
  simp only [HashMap.clone, HashTable.clone, bind, Except.bind, cloneEntries_ok h]

/-! ## The general map types -/

/-- **C81** A clone of a scan map. -/
theorem c81_scan {eqK : K → K → Bool} {mt : Q → K → Bool} (he : LawfulEq' eqK) (hq : LawfulQuery eqK mt) {m : ScanMap K V}
    (h : ClonesTo ck cv f g m.entries) (hc : ∀ e ∈ m.entries, eqK (f e.1) e.1 = true) :
    ∃ m', m.clone ck cv = .ok m' ∧ CopyOf f g (ScanMap.impl mt) (ScanMap.impl mt) m m' :=
  ⟨_, by simp only [ScanMap.clone, bind, Except.bind, cloneEntries_ok h], scan_copy fun e hm => match_eq he hq (hc e hm)⟩

/-- **C81** A clone of an ordered map (`EytzingerSearchMap`, `FzOrderedMap`). -/
theorem c81_ordered {cmp : K → K → Ordering} {qcmp : Q → K → Ordering} (hl : LawfulCmp cmp) (hq : LawfulQueryCmp cmp qcmp) {m : EytzingerMap K V}
    (h : ClonesTo ck cv f g m.entries) (hc : ∀ e ∈ m.entries, cmp (f e.1) e.1 = .eq) :
    ∃ m', m.clone ck cv = .ok m' ∧ CopyOf f g (FzOrderedMap.impl qcmp) (FzOrderedMap.impl qcmp) m m' :=
  ⟨_, by simp only [EytzingerMap.clone, bind, Except.bind, cloneEntries_ok h], eytzinger_copy fun e hm => qcmp_eq hl hq (hc e hm)⟩

/-- **C81** Clones of dense and sparse scalar maps.  Nothing is asked of the clones of the keys, since lookups do not look at them. -/
theorem c81_lookup (qindex : Q → Nat) :
    (∀ m : DenseMap K V, ClonesTo ck cv f g m.entries → ∃ m', m.clone ck cv = .ok m' ∧ CopyOf f g (DenseMap.impl qindex) (DenseMap.impl qindex) m m') ∧
    ∀ m : SparseMap K V, ClonesTo ck cv f g m.entries → ∃ m', m.clone ck cv = .ok m' ∧ CopyOf f g (SparseMap.impl qindex) (SparseMap.impl qindex) m m' :=
  ⟨fun _ h => ⟨_, by simp only [DenseMap.clone, bind, Except.bind, cloneEntries_ok h], dense_copy⟩,
    fun _ h => ⟨_, by simp only [SparseMap.clone, bind, Except.bind, cloneEntries_ok h], sparse_copy⟩⟩

/-- **C81** A clone of a hash map with any hasher.  `hQ` and `hQ'` are the hasher and its clone on queries. -/
theorem c81_hash {eqK : K → K → Bool} {mt : Q → K → Bool} (he : LawfulEq' eqK) (hq : LawfulQuery eqK mt) {hQ hQ' : Q → Res Nat}
    (hh : ∀ q, hQ' q = hQ q) {m : HashMap K V} (h : ClonesTo ck cv f g m.table.entries) (hc : ∀ e ∈ m.table.entries, eqK (f e.1) e.1 = true) :
    ∃ m', m.clone ck cv = .ok m' ∧ CopyOf f g (HashMap.impl hQ mt) (HashMap.impl hQ' mt) m m' :=
  ⟨_, hash_clone h, hash_copy hh fun e hm => match_eq he hq (hc e hm)⟩

/-! ## The public map types -/

/-- **C81** A clone of an `FzHashMap` with any `BuildHasher`. -/
theorem c81_fz_hash_map {eqK : K → K → Bool} {mt : Q → K → Bool} (he : LawfulEq' eqK) (hq : LawfulQuery eqK mt) {bh bh' : Q → Nat}
    (hh : ∀ q, bh' q = bh q) {m : HashMap K V} (h : ClonesTo ck cv f g m.table.entries) (hc : ∀ e ∈ m.table.entries, eqK (f e.1) e.1 = true) :
    ∃ m', m.clone ck cv = .ok m' ∧ CopyOf f g (FzHashMap.impl bh mt) (FzHashMap.impl bh' mt) m m' :=
  c81_hash he hq (fun q => by simp only [bridgeHash, hh]) h hc

/-- **C81** A clone of an `FzScalarMap`. -/
theorem c81_fz_scalar_map {eqK : K → K → Bool} {mt : Q → K → Bool} (he : LawfulEq' eqK) (hq : LawfulQuery eqK mt) (qindex : Q → Nat)
    {m : FzScalarMap K V} (h : ClonesTo ck cv f g m.entries) (hc : ∀ e ∈ m.entries, eqK (f e.1) e.1 = true) :
    ∃ m', m.clone ck cv = .ok m' ∧ CopyOf f g (FzScalarMap.impl qindex mt) (FzScalarMap.impl qindex mt) m m' := by
  cases m with
  | hash m =>
    have h : ClonesTo ck cv f g m.table.entries := h
    have c := hash_copy (g := g) (hQ := scalarHash qindex) (fun _ => rfl) fun e hm => match_eq he hq (hc e hm)
    exact ⟨.hash ⟨⟨m.table.slots, m.table.entries.map (both f g), m.table.mask⟩⟩, by simp only [FzScalarMap.clone, bind, Except.bind, hash_clone h], ⟨c.1, c.2, c.3, c.4, c.5, c.6⟩⟩
  | dense m =>
    have h : ClonesTo ck cv f g m.entries := h
    have c := dense_copy (f := f) (g := g) (qindex := qindex) (lo := m.min) (hi := m.max) (es := m.entries)
    exact ⟨.dense ⟨m.min, m.max, m.entries.map (both f g)⟩, by simp only [FzScalarMap.clone, DenseMap.clone, bind, Except.bind, cloneEntries_ok h], ⟨c.1, c.2, c.3, c.4, c.5, c.6⟩⟩
  | sparse m =>
    have h : ClonesTo ck cv f g m.entries := h
    have c := sparse_copy (f := f) (g := g) (qindex := qindex) (lo := m.min) (hi := m.max) (lookup := m.lookup) (es := m.entries)
    exact ⟨.sparse ⟨m.min, m.max, m.lookup, m.entries.map (both f g)⟩, by simp only [FzScalarMap.clone, SparseMap.clone, bind, Except.bind, cloneEntries_ok h], ⟨c.1, c.2, c.3, c.4, c.5, c.6⟩⟩

/-- **C81** A clone of an `FzStringMap` with any `BuildHasher`. -/
theorem c81_fz_string_map {bhStr bhStr' bhSlice bhSlice' : Str → Nat} (h1 : ∀ s, bhStr' s = bhStr s) (h2 : ∀ s, bhSlice' s = bhSlice s)
    {m : FzStringMap V} (h : ∀ e ∈ m.entries, cv e.2 = .ok (g e.2)) :
    ∃ m', m.clone cv = .ok m' ∧ CopyOf id g (FzStringMap.impl bhStr bhSlice) (FzStringMap.impl bhStr' bhSlice') m m' := by
  cases funext h1
  cases funext h2
  cases m with
  | leftRange r m =>
    have h : ClonesTo (fun k => .ok k) cv id g m.table.entries := fun e he => ⟨rfl, h e he⟩
    have c := hash_copy (f := id) (g := g) (hQ := leftRangeHash bhSlice r) (mt := strEq) (t := m.table) (fun _ => rfl) fun _ _ _ => rfl
    exact ⟨.leftRange r ⟨⟨m.table.slots, m.table.entries.map (both id g), m.table.mask⟩⟩, by simp only [FzStringMap.clone, bind, Except.bind, hash_clone h], ⟨c.1, c.2, c.3, c.4, c.5, c.6⟩⟩
  | rightRange r m =>
    have h : ClonesTo (fun k => .ok k) cv id g m.table.entries := fun e he => ⟨rfl, h e he⟩
    have c := hash_copy (f := id) (g := g) (hQ := rightRangeHash bhSlice r) (mt := strEq) (t := m.table) (fun _ => rfl) fun _ _ _ => rfl
    exact ⟨.rightRange r ⟨⟨m.table.slots, m.table.entries.map (both id g), m.table.mask⟩⟩, by simp only [FzStringMap.clone, bind, Except.bind, hash_clone h], ⟨c.1, c.2, c.3, c.4, c.5, c.6⟩⟩
  | hash m =>
    have h : ClonesTo (fun k => .ok k) cv id g m.table.entries := fun e he => ⟨rfl, h e he⟩
    have c := hash_copy (f := id) (g := g) (hQ := bridgeHash bhStr) (mt := strEq) (t := m.table) (fun _ => rfl) fun _ _ _ => rfl
    exact ⟨.hash ⟨⟨m.table.slots, m.table.entries.map (both id g), m.table.mask⟩⟩, by simp only [FzStringMap.clone, bind, Except.bind, hash_clone h], ⟨c.1, c.2, c.3, c.4, c.5, c.6⟩⟩

/-- **C81** A clone of any of the six inline map types.  A map asks only for some of the query traits; the others may be chosen trivial. -/
theorem c81_inline_map {eqK : K → K → Bool} {cmp : K → K → Ordering} {t : QueryTraits Q K} (he : LawfulEq' eqK) (hq : LawfulQuery eqK t.equivalent)
    (hl : LawfulCmp cmp) (hqc : LawfulQueryCmp cmp t.compare) {m : InlineMap K V} (h : ClonesTo ck cv f g m.entries)
    (hc : ∀ e ∈ m.entries, eqK (f e.1) e.1 = true ∧ cmp (f e.1) e.1 = .eq) :
    ∃ m', m.clone ck cv = .ok m' ∧ CopyOf f g (InlineMap.impl t) (InlineMap.impl t) m m' := by
  obtain ⟨sz, r⟩ := m
  cases r with
  | scan m =>
    have h : ClonesTo ck cv f g m.entries := h
    have c := scan_copy (g := g) fun e hm => match_eq he hq (hc e hm).1
    exact ⟨⟨sz, .scan ⟨m.entries.map (both f g)⟩⟩, by simp only [InlineMap.clone, InlineRepr.clone, ScanMap.clone, bind, Except.bind, cloneEntries_ok h], ⟨c.1, rfl, c.3, c.4, c.5, c.6⟩⟩
  | eytzinger m =>
    have h : ClonesTo ck cv f g m.entries := h
    have c := eytzinger_copy (g := g) fun e hm => qcmp_eq hl hqc (hc e hm).2
    exact ⟨⟨sz, .eytzinger ⟨m.entries.map (both f g)⟩⟩, by simp only [InlineMap.clone, InlineRepr.clone, EytzingerMap.clone, bind, Except.bind, cloneEntries_ok h], ⟨c.1, rfl, c.3, c.4, c.5, c.6⟩⟩
  | dense m =>
    have h : ClonesTo ck cv f g m.entries := h
    have c := dense_copy (f := f) (g := g) (qindex := t.index) (lo := m.min) (hi := m.max) (es := m.entries)
    exact ⟨⟨sz, .dense ⟨m.min, m.max, m.entries.map (both f g)⟩⟩, by simp only [InlineMap.clone, InlineRepr.clone, DenseMap.clone, bind, Except.bind, cloneEntries_ok h], ⟨c.1, rfl, c.3, c.4, c.5, c.6⟩⟩
  | sparse m =>
    have h : ClonesTo ck cv f g m.entries := h
    have c := sparse_copy (f := f) (g := g) (qindex := t.index) (lo := m.min) (hi := m.max) (lookup := m.lookup) (es := m.entries)
    exact ⟨⟨sz, .sparse ⟨m.min, m.max, m.lookup, m.entries.map (both f g)⟩⟩, by simp only [InlineMap.clone, InlineRepr.clone, SparseMap.clone, bind, Except.bind, cloneEntries_ok h], ⟨c.1, rfl, c.3, c.4, c.5, c.6⟩⟩
  | hash ha m =>
    have h : ClonesTo ck cv f g m.table.entries := h
    have c := hash_copy (g := g) (hQ := ha.hashOne t) (fun _ => rfl) fun e hm => match_eq he hq (hc e hm).1
    exact ⟨⟨sz, .hash ha ⟨⟨m.table.slots, m.table.entries.map (both f g), m.table.mask⟩⟩⟩, by simp only [InlineMap.clone, InlineRepr.clone, bind, Except.bind, hash_clone h], ⟨c.1, rfl, c.3, c.4, c.5, c.6⟩⟩
  | hashNC ha m =>
    have h : ClonesTo ck cv f g m.table.entries := h
    have c := hashNC_copy (g := g) (hQ := ha.hashOne t) (fun _ => rfl) fun e hm => match_eq he hq (hc e hm).1
    exact ⟨⟨sz, .hashNC ha ⟨⟨m.table.slots, m.table.entries.map (both f g), m.table.mask⟩⟩⟩, by simp only [InlineMap.clone, InlineRepr.clone, HashMapNC.clone, HashTableNC.clone, bind, Except.bind, cloneEntries_ok h],
      ⟨c.1, rfl, c.3, c.4, c.5, c.6⟩⟩

/-! ## Sets -/

/-- **C81** A clone of a set is a clone of the map underneath; so it is a faithful copy if that is one.  (Both kinds of sets: `Fz*Set` and `Inline*Set`.) -/
theorem c81_sets {f : T → T} {g : Unit → Unit} {I J : MapImpl M Q T Unit} {m m' : M} (h : CopyOf f g I J m m') :
    SetCopyOf f (fzSetImpl I) (fzSetImpl J) m m' ∧ SetCopyOf f (inlineSetImpl I) (inlineSetImpl J) m m' := by
  have hi : (J.iter m').rest.map (fun e => e.1) = ((I.iter m).rest.map fun e => e.1).map f := by
    simp only [MapImpl.iter, mapIterNew, h.entries, List.map_map]
    rfl
  have hg : ∀ q, getOfMap J m' q = (getOfMap I m q).map (Option.map f) := by
    intro q
    simp only [getOfMap, bind, Except.bind, h.getKeyValue]
    cases I.getKeyValue m q with
    | error e => rfl
    | ok r => cases r <;> rfl
  refine ⟨⟨hi, h.len, hg, h.containsKey⟩, ⟨hi, h.len, hg, fun q => ?_⟩⟩
  simp only [inlineSetImpl, bind, Except.bind, hg]
  cases getOfMap I m q with
  | error e => rfl
  | ok r => cases r <;> rfl

/-! ## Panics -/

/-- **C81** Cloning a map panics exactly if cloning one of its keys or values does. -/
theorem c81_panics (ck : K → Res K) (cv : V → Res V) :
    (∀ m : ScanMap K V, (∃ x, m.clone ck cv = .error x) ↔ ∃ e ∈ m.entries, (∃ x, ck e.1 = .error x) ∨ ∃ x, cv e.2 = .error x) ∧
    (∀ m : EytzingerMap K V, (∃ x, m.clone ck cv = .error x) ↔ ∃ e ∈ m.entries, (∃ x, ck e.1 = .error x) ∨ ∃ x, cv e.2 = .error x) ∧
    (∀ m : HashMap K V, (∃ x, m.clone ck cv = .error x) ↔ ∃ e ∈ m.table.entries, (∃ x, ck e.1 = .error x) ∨ ∃ x, cv e.2 = .error x) ∧
    (∀ m : FzScalarMap K V, (∃ x, m.clone ck cv = .error x) ↔ ∃ e ∈ m.entries, (∃ x, ck e.1 = .error x) ∨ ∃ x, cv e.2 = .error x) ∧
    (∀ m : FzStringMap V, (∃ x, m.clone cv = .error x) ↔ ∃ e ∈ m.entries, ∃ x, cv e.2 = .error x) ∧
    ∀ m : InlineMap K V, (∃ x, m.clone ck cv = .error x) ↔ ∃ e ∈ m.entries, (∃ x, ck e.1 = .error x) ∨ ∃ x, cv e.2 = .error x := by
  have key : ∀ {K : Type} (ck : K → Res K) (es : List (K × V)), (∃ x, cloneList (cloneEntry ck cv) es = .error x) ↔
      ∃ e ∈ es, (∃ x, ck e.1 = .error x) ∨ ∃ x, cv e.2 = .error x := by
    intro K ck es
    rw [cloneList_error]
    exact ⟨fun ⟨e, h1, h2⟩ => ⟨e, h1, cloneEntry_error.1 h2⟩, fun ⟨e, h1, h2⟩ => ⟨e, h1, cloneEntry_error.2 h2⟩⟩
  have keyS : ∀ (es : List (Str × V)), (∃ x, cloneList (cloneEntry (fun k => .ok k) cv) es = .error x) ↔ ∃ e ∈ es, ∃ x, cv e.2 = .error x := by
    intro es
    rw [key]
    exact ⟨fun ⟨e, h1, h2⟩ => ⟨e, h1, h2.resolve_left (by rintro ⟨x, h⟩; cases h)⟩, fun ⟨e, h1, h2⟩ => ⟨e, h1, .inr h2⟩⟩
  have bind_error : ∀ {α β : Type} (r : Res α) (f : α → β), (∃ x, (r >>= fun a => (.ok (f a) : Res β)) = .error x) ↔ ∃ x, r = .error x := by
    intro α β r f
    cases r with
    | error e => exact ⟨fun _ => ⟨e, rfl⟩, fun _ => ⟨e, rfl⟩⟩
    | ok a => exact ⟨(by rintro ⟨x, h⟩; cases h), (by rintro ⟨x, h⟩; cases h)⟩
  refine ⟨fun m => ?_, fun m => ?_, fun m => ?_, fun m => ?_, fun m => ?_, fun m => ?_⟩
  · exact (bind_error _ _).trans (key ck _)
  · exact (bind_error _ _).trans (key ck _)
  · exact (bind_error _ _).trans ((bind_error _ _).trans (key ck _))
  · cases m with
    | hash m => exact (bind_error _ _).trans ((bind_error _ _).trans ((bind_error _ _).trans (key ck _)))
    | dense m => exact (bind_error _ _).trans ((bind_error _ _).trans (key ck _))
    | sparse m => exact (bind_error _ _).trans ((bind_error _ _).trans (key ck _))
  · cases m with
    | leftRange r m => exact (bind_error _ _).trans ((bind_error _ _).trans ((bind_error _ _).trans (keyS _)))
    | rightRange r m => exact (bind_error _ _).trans ((bind_error _ _).trans ((bind_error _ _).trans (keyS _)))
    | hash m => exact (bind_error _ _).trans ((bind_error _ _).trans ((bind_error _ _).trans (keyS _)))
  · obtain ⟨sz, r⟩ := m
    refine (bind_error _ _).trans ?_
    cases r with
    | scan m => exact (bind_error _ _).trans ((bind_error _ _).trans (key ck _))
    | eytzinger m => exact (bind_error _ _).trans ((bind_error _ _).trans (key ck _))
    | dense m => exact (bind_error _ _).trans ((bind_error _ _).trans (key ck _))
    | sparse m => exact (bind_error _ _).trans ((bind_error _ _).trans (key ck _))
    | hash _ m => exact (bind_error _ _).trans ((bind_error _ _).trans ((bind_error _ _).trans (key ck _)))
    | hashNC _ m => exact (bind_error _ _).trans ((bind_error _ _).trans ((bind_error _ _).trans (key ck _)))

/-! ## Equality -/

/-- **C81** A map that was built by a constructor of the crate or by emitted code is equal to its clone, and its clone to it, if clones of values are
equal to their originals. -/
theorem c81_equal [Target] {eqK : K → K → Bool} {es : List (K × V)} {I J : MapImpl M K K V} {m m' : M} {eqV : V → V → Bool}
    (hb : Built eqK eqK es I m) (h : CopyOf f g I J m m') (hf : ∀ e ∈ I.entries m, eqK (f e.1) e.1 = true) (hv : ∀ e ∈ I.entries m, eqV e.2 (g e.2) = true ∧ eqV (g e.2) e.2 = true) :
    I.eq J eqV m m' = .ok true ∧ J.eq I eqV m' m = .ok true := by
  obtain ⟨Inv, F⟩ := hb.facts
  have he := F.eq
  have hm := F.lookups
  have hcon := F.contents
  have hself : ∀ e ∈ I.entries m, I.get m e.1 = .ok (some e.2) ∧ I.get m (f e.1) = .ok (some e.2) := by
    intro e hme
    have h1 := (hcon.mem e).1 hme
    have h2 : lastMatch eqK es (f e.1) = lastMatch eqK es e.1 := by
      have : ∀ b, eqK (f e.1) b = eqK e.1 b := fun b => by
        have hfe := hf e hme
        cases h3 : eqK e.1 b with
        | true => exact he.trans _ _ _ hfe h3
        | false =>
          cases h4 : eqK (f e.1) b with
          | false => rfl
          | true => rw [he.trans _ _ _ (he.symm _ _ hfe) h4] at h3; cases h3
      simp only [lastMatch, this]
    rw [hm.get, hm.get, h2, h1]
    exact ⟨rfl, rfl⟩
  have hall : ∀ l, (∀ e ∈ l, e ∈ I.entries m) → allEntriesIn J eqV m' l = .ok true ∧ allEntriesIn I eqV m (l.map (both f g)) = .ok true := by
    intro l
    induction l with
    | nil => intro _; exact ⟨rfl, rfl⟩
    | cons e l ih =>
      intro hl
      obtain ⟨i1, i2⟩ := ih fun e' he' => hl e' (by simp [he'])
      obtain ⟨s1, s2⟩ := hself e (hl e (by simp))
      obtain ⟨v1, v2⟩ := hv e (hl e (by simp))
      simp only [allEntriesIn, bind, Except.bind, h.get, s1, s2, Except.map, Option.map_some, List.map_cons, v1, v2, i1, i2, if_true, and_self]
  unfold MapImpl.eq
  rw [h.len]
  simp only [bne_self_eq_false, Bool.false_eq_true, if_false]
  obtain ⟨h1, h2⟩ := hall (I.entries m) fun _ he => he
  exact ⟨h1, by rw [h.entries]; exact h2⟩

/-! ## Cases -/

/-- A scan map with two entries, values that are cloned by a counter-like function, and a lookup in the clone. -/
example : ∃ m', (ScanMap.mk [(3, 10), (5, 20)]).clone (fun k : Nat => .ok k) (fun v : Nat => .ok (v + 1)) = .ok m' ∧
    CopyOf id (· + 1) (ScanMap.impl fun a b : Nat => a == b) (ScanMap.impl fun a b : Nat => a == b) ⟨[(3, 10), (5, 20)]⟩ m' ∧
    m'.get (fun a b : Nat => a == b) 5 = .ok (some 21) := by
  have he : LawfulEq' (fun a b : Nat => a == b) :=
    ⟨fun a => by simp, fun a b h => by simp at h ⊢; exact h.symm, fun a b c h h' => by simp at h h' ⊢; exact h.trans h'⟩
  have hq : LawfulQuery (fun a b : Nat => a == b) (fun a b : Nat => a == b) :=
    ⟨fun q a b h => by simp at h ⊢; rw [h]⟩
  obtain ⟨m', h1, h2⟩ := c81_scan (ck := fun k : Nat => .ok k) (cv := fun v : Nat => .ok (v + 1)) (f := id) (g := (· + 1)) he hq
    (m := ⟨[(3, 10), (5, 20)]⟩) (fun _ _ => ⟨rfl, rfl⟩) (fun e _ => by simp)
  exact ⟨m', h1, h2, h2.get 5⟩

/-- Cloning a value panics: so does cloning the map. -/
example : ∃ x, (ScanMap.mk [(3, 10), (5, 20)]).clone (fun k : Nat => .ok k) (fun v : Nat => if v = 20 then .error (.panic "no") else .ok v) = .error x :=
  ((c81_panics _ _).1 _).2 ⟨(5, 20), by simp, .inr ⟨_, rfl⟩⟩

attribute [local instance] w64 in
/-- An ordered map equals its clone. -/
example : ∃ m m', EytzingerMap.new natCmp [(5, 'b'), (3, 'a')] = .ok m ∧ m.clone (fun k => .ok k) (fun v => .ok v) = .ok m' ∧
    (EytzingerMap.impl natCmp).eq (EytzingerMap.impl natCmp) (fun a b : Char => a == b) m m' = .ok true := by
  obtain ⟨m, h1, _⟩ := EytzingerMap.new_spec natCmp_lawful [(5, 'b'), (3, 'a')]
  obtain ⟨m', h2, h3⟩ := c81_ordered (f := id) (g := id) natCmp_lawful natCmp_query (m := m) (fun _ _ => ⟨rfl, rfl⟩) (fun e _ => natCmp_lawful.refl _)
  have hb : Built _ _ _ (EytzingerMap.impl natCmp) m := .eytzinger natCmp_lawful natCmp_query h1
  exact ⟨m, m', h1, h2, (c81_equal hb h3 (fun e _ => by simp [natCmp_lawful.refl]) (fun e _ => by simp)).1⟩

end Frozen.Props
