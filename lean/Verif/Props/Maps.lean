import Verif.Lemmas.Built
import Verif.Props.Dedup
import Verif.Props.HashTable

/-!
# Property theorems: map lookups, length, iteration, construction (C01-C06, C14, C33, C36, C45, C46)
-/

namespace Frozen.Props

open Frozen.Spec Frozen.Model

variable {M Q K V : Type}

/-! ## Ingredients of the examples -/

/-- Equality of natural numbers. -/
def natEq (a b : Nat) : Bool := a == b

theorem natEq_lawful : LawfulEq' natEq where
  refl a := by simp [natEq]
  symm a b h := by simp only [natEq, beq_iff_eq] at *; omega
  trans a b c h1 h2 := by simp only [natEq, beq_iff_eq] at *; omega

theorem natEq_query : LawfulQuery natEq natEq where
  congr q a b h := by simp only [natEq, beq_iff_eq] at *; omega

theorem natEq_hash (f : Nat → Nat) : LawfulHash natEq natEq f f where
  key a b h := by simp only [natEq, beq_iff_eq] at h; rw [h]
  query a b h := by simp only [natEq, beq_iff_eq] at h; rw [h]

/-- Case-insensitive-like equality: numbers are equal when they agree modulo 10. -/
def mod10Eq (a b : Nat) : Bool := a % 10 == b % 10

theorem mod10Eq_lawful : LawfulEq' mod10Eq where
  refl a := by simp [mod10Eq]
  symm a b h := by simp only [mod10Eq, beq_iff_eq] at *; omega
  trans a b c h1 h2 := by simp only [mod10Eq, beq_iff_eq] at *; omega

theorem mod10Eq_query : LawfulQuery mod10Eq mod10Eq where
  congr q a b h := by simp only [mod10Eq, beq_iff_eq] at *; omega

/-- The order of natural numbers. -/
def natCmp (a b : Nat) : Ordering := compare a b

theorem natCmp_lawful : LawfulCmp natCmp where
  refl a := by simp [natCmp]
  swap a b := by simp [natCmp, ← Nat.compare_swap a b]
  trans a b c h1 h2 := by
    simp only [natCmp, ne_eq, Nat.compare_eq_gt] at *
    omega

theorem natCmp_query : LawfulQueryCmp natCmp natCmp where
  congr q a b h := by
    simp only [natCmp, Nat.compare_eq_eq] at h
    rw [h]
  lt q a b h1 h2 := by
    simp only [natCmp, ne_eq, Nat.compare_eq_gt, Nat.compare_eq_lt] at *
    omega
  gt q a b h1 h2 := by
    simp only [natCmp, ne_eq, Nat.compare_eq_gt] at *
    omega

/-- Order and index of 64-bit unsigned keys. -/
def u64Cmp (a b : UInt64) : Ordering := compare a.toNat b.toNat

attribute [local instance] w64 in
theorem u64_scalar : LawfulScalar u64Cmp UInt64.toNat where
  cmp _ _ := rfl
  bound a := by have := a.toNat_lt; have hu : usizeMax = 18446744073709551615 := rfl; omega

/-- Order and index of 32-bit unsigned keys, on every target. -/
def u32Cmp (a b : UInt32) : Ordering := compare a.toNat b.toNat

theorem u32_scalar [Target] : LawfulScalar u32Cmp UInt32.toNat where
  cmp _ _ := rfl
  bound a := by have := a.toNat_lt; have hu := target_cases; omega

/-! ## C01 -/

/-- **C01** (`FzHashMap`).  For every entry list, every hash function consistent with equality, every internal sorting and
probing order: construction succeeds, and `get`, `get_key_value`, `contains_key` and `get_mut` answer according to the
last input entry matching the query. -/
theorem c01_fz_hash_map [Target] {find : HbFind} (hfind : HbFindOk find) {sort : Sorter (K × V)} (hsort : SorterOk sort)
    {eqK : K → K → Bool} (he : LawfulEq' eqK) {mt : Q → K → Bool} (hq : LawfulQuery eqK mt) {hK : K → Nat}
    {hQ : Q → Nat} (hh : LawfulHash eqK mt hK hQ) (es : List (K × V)) (hn : es.length < sizeLimit) :
    ∃ m, FzHashMap.withHasher find sort eqK hK es = .ok m ∧ Lookups (FzHashMap.impl hQ mt) m mt es := by
  obtain ⟨m, h1, -, -⟩ := FzHashMap.withHasher_spec hfind hsort he hh.key es hn
  obtain ⟨_, F⟩ := (Built.fzHash (m := m) hfind hsort he hq hh hn h1).facts
  exact ⟨m, h1, F.lookups⟩

/-- **C01** (general `HashMap`, all three magnitudes): whenever construction returns a map, it answers according to the
last matching input entry. -/
theorem c01_hash_map [Target] {cm : Magnitude} {find : HbFind} (hfind : HbFindOk find) {sort : Sorter (K × V)}
    (hsort : SorterOk sort) {eqK : K → K → Bool} (he : LawfulEq' eqK) {mt : Q → K → Bool} (hq : LawfulQuery eqK mt)
    {hK : K → Nat} {hQ : Q → Nat} (hh : LawfulHash eqK mt hK hQ) (es : List (K × V)) (hn : es.length < sizeLimit)
    {m : HashMap K V} (hm : HashMap.withHasher cm find sort eqK (bridgeHash hK) es = .ok (.ok m)) :
    Lookups (HashMap.impl (bridgeHash hQ) mt) m mt es := by
  obtain ⟨_, F⟩ := (Built.hash hfind hsort he hq hh hn hm).facts
  exact F.lookups

attribute [local instance] w64 in
/-- Keys `3` and `13` are equal, the hash function is constant: the last entry wins. -/
example : ∃ m, FzHashMap.withHasher listFind slotSort mod10Eq (fun _ => 7) [(3, "a"), (4, "b"), (13, "c")] = .ok m ∧
    (FzHashMap.impl (fun _ => 7) mod10Eq).getKeyValue m 23 = .ok (some (13, "c")) ∧
    (FzHashMap.impl (fun _ => 7) mod10Eq).getKeyValue m 5 = .ok none := by
  obtain ⟨m, h1, h2⟩ := c01_fz_hash_map (Q := Nat) (hQ := fun _ => 7) listFind_ok slotSort_ok mod10Eq_lawful
    mod10Eq_query (hK := fun _ => 7) ⟨fun _ _ _ => rfl, fun _ _ _ => rfl⟩ [(3, "a"), (4, "b"), (13, "c")] (by decide)
  refine ⟨m, h1, ?_, ?_⟩
  · rw [h2.getKeyValue]; decide
  · rw [h2.getKeyValue]; decide

/-! ## C02 -/

/-- **C02** (`FzOrderedMap`). -/
theorem c02_fz_ordered_map [Target] {cmp : K → K → Ordering} (hc : LawfulCmp cmp) {qcmp : Q → K → Ordering}
    (hq : LawfulQueryCmp cmp qcmp) (es : List (K × V)) :
    ∃ m, FzOrderedMap.new cmp es = .ok m ∧ Lookups (FzOrderedMap.impl qcmp) m (fun q k => qcmp q k == .eq) es := by
  obtain ⟨m, h1, -, -⟩ := FzOrderedMap.new_spec hc es
  obtain ⟨_, F⟩ := (Built.fzOrdered hc hq h1).facts
  exact ⟨m, h1, F.lookups⟩

/-- **C02** (`EytzingerSearchMap`). -/
theorem c02_eytzinger_map [Target] {cmp : K → K → Ordering} (hc : LawfulCmp cmp) {qcmp : Q → K → Ordering}
    (hq : LawfulQueryCmp cmp qcmp) (es : List (K × V)) :
    ∃ m, EytzingerMap.new cmp es = .ok m ∧ Lookups (EytzingerMap.impl qcmp) m (fun q k => qcmp q k == .eq) es := by
  obtain ⟨m, h1, -, -⟩ := EytzingerMap.new_spec hc es
  obtain ⟨_, F⟩ := (Built.eytzinger hc hq h1).facts
  exact ⟨m, h1, F.lookups⟩

attribute [local instance] w64 in
example : ∃ m, FzOrderedMap.new natCmp [(5, "a"), (2, "b"), (9, "c"), (5, "d"), (1, "e")] = .ok m ∧
    (FzOrderedMap.impl natCmp).get m 5 = .ok (some "d") ∧ (FzOrderedMap.impl natCmp).get m 7 = .ok none := by
  obtain ⟨m, h1, h2⟩ := c02_fz_ordered_map natCmp_lawful natCmp_query [(5, "a"), (2, "b"), (9, "c"), (5, "d"), (1, "e")]
  exact ⟨m, h1, by rw [h2.get]; decide, by rw [h2.get]; decide⟩

/-! ## C03 -/

/-- **C03** (`FzScalarMap`, debug and release arithmetic).  `scalarMatch` compares indices, i.e. the query is equal to the
key. -/
theorem c03_fz_scalar_map [Target] (b : Build) {sort : Sorter (K × V)} (hsort : SorterOk sort) {cmp : K → K → Ordering}
    {index : K → Nat} (hs : LawfulScalar cmp index) (qindex : Q → Nat) (es : List (K × V))
    (hn : es.length < tableLimit) (hspan : ∀ x ∈ es, ∀ y ∈ es, index x.1 - index y.1 < usizeMax) :
    ∃ m, FzScalarMap.new b sort cmp index es = .ok m ∧
      Lookups (FzScalarMap.impl qindex (scalarMatch index qindex)) m (scalarMatch index qindex) es := by
  obtain ⟨m, h1, -, -⟩ := FzScalarMap.new_spec b hsort hs es hn hspan
  obtain ⟨_, F⟩ := (Built.fzScalar (qindex := qindex) hsort hs hn h1).facts
  exact ⟨m, h1, F.lookups⟩

/-- The sparse map, wherever its constructor returns. -/
theorem c03_sparse_map [Target] {b : Build} {cmp : K → K → Ordering} {index : K → Nat} (hs : LawfulScalar cmp index)
    (qindex : Q → Nat) (es : List (K × V)) {m : SparseMap K V} (hm : SparseMap.new b cmp index es = .ok m) :
    Lookups (SparseMap.impl qindex) m (scalarMatch index qindex) es := by
  obtain ⟨_, F⟩ := (Built.sparse (qindex := qindex) hs hm).facts
  exact F.lookups

/-- Dense, sparse and hashed representations are all reached. -/
def scalarRepr : Res (FzScalarMap K V) → String
  | .ok (.dense _) => "dense"
  | .ok (.sparse _) => "sparse"
  | .ok (.hash _) => "hash"
  | .error _ => "error"

attribute [local instance] w64 in
example : scalarRepr (FzScalarMap.new .debug slotSort u64Cmp UInt64.toNat [(7, "a"), (6, "b"), (7, "c")]) = "dense" := by
  cbv
attribute [local instance] w64 in
example : scalarRepr (FzScalarMap.new .debug slotSort u64Cmp UInt64.toNat [(7, "a"), (60, "b"), (7, "c")]) =
    "sparse" := by cbv
attribute [local instance] w64 in
example : scalarRepr (FzScalarMap.new .debug slotSort u64Cmp UInt64.toNat [(7, "a"), (60000, "b"), (7, "c")]) =
    "hash" := by cbv

attribute [local instance] w64 in
example : ∃ m, FzScalarMap.new .debug slotSort u64Cmp UInt64.toNat [(7, "a"), (60000, "b"), (7, "c")] = .ok m ∧
    (FzScalarMap.impl UInt64.toNat (scalarMatch UInt64.toNat UInt64.toNat)).get m 7 = .ok (some "c") := by
  obtain ⟨m, h1, h2⟩ := c03_fz_scalar_map .debug slotSort_ok u64_scalar UInt64.toNat
    [(7, "a"), (60000, "b"), (7, "c")] (by decide) (by decide)
  exact ⟨m, h1, by rw [h2.get]; decide⟩

/-! ## C04 -/

/-- **C04** (`FzStringMap`): for all hash functions on strings and on byte slices. -/
theorem c04_fz_string_map [Target] {sort : Sorter (Str × V)} (hsort : SorterOk sort) (bhStr bhSlice : Str → Nat)
    (es : List (Str × V)) (hn : es.length < sizeLimit) :
    ∃ m, FzStringMap.withHasher sort bhStr bhSlice es = .ok m ∧
      Lookups (FzStringMap.impl bhStr bhSlice) m (fun a b => a == b) es := by
  obtain ⟨m, h1, -, -⟩ := FzStringMap.withHasher_spec hsort bhStr bhSlice es hn
  obtain ⟨_, F⟩ := (Built.fzString hsort hn h1).facts
  exact ⟨m, h1, F.lookups⟩

attribute [local instance] w64 in
/-- A query shorter than the hashed range, and a duplicated key. -/
example : ∃ m, FzStringMap.withHasher slotSort (fun _ => 1) (fun s => s.length)
      [([97, 98, 99], "a"), ([97, 98, 100], "b"), ([97, 98, 99], "c")] = .ok m ∧
    (FzStringMap.impl (fun _ => 1) (fun s => s.length)).get m [97, 98, 99] = .ok (some "c") ∧
    (FzStringMap.impl (fun _ => 1) (fun s => s.length)).get m [97] = .ok none := by
  obtain ⟨m, h1, h2⟩ := c04_fz_string_map slotSort_ok (fun _ => 1) (fun s => s.length)
    [([97, 98, 99], "a"), ([97, 98, 100], "b"), ([97, 98, 99], "c")] (by decide)
  exact ⟨m, h1, by rw [h2.get]; decide, by rw [h2.get]; decide⟩

/-! ## C45 -/

/-- **C45** (`ScanMap::new`). -/
theorem c45_scan_map [Target] {eqK : K → K → Bool} (he : LawfulEq' eqK) {mt : Q → K → Bool} (hq : LawfulQuery eqK mt)
    (es : List (K × V)) : Lookups (ScanMap.impl mt) (ScanMap.new eqK es) mt es := by
  obtain ⟨_, F⟩ := (Built.scan (es := es) he hq).facts
  exact F.lookups

theorem scanMutLoop_last (eqv : Q → K → Bool) (key : Q) (rest : List (K × V)) :
    ∀ (pre : List (K × V)) (r : Option Nat),
      (∀ i, r = some i → (pre ++ rest)[i]? = lastMatch eqv pre key) → (r = none ↔ lastMatch eqv pre key = none) →
      ((scanMutLoop eqv key rest pre.length r = none ↔ lastMatch eqv (pre ++ rest) key = none) ∧
        ∀ i, scanMutLoop eqv key rest pre.length r = some i → (pre ++ rest)[i]? = lastMatch eqv (pre ++ rest) key) := by
  induction rest with
  | nil => intro pre r h1 h2; rw [List.append_nil] at h1 ⊢; exact ⟨h2, h1⟩
  | cons e rest ih =>
    intro pre r h1 h2
    have hl : lastMatch eqv (pre ++ [e]) key = if eqv key e.1 then some e else lastMatch eqv pre key := by
      simp [lastMatch]
    have := ih (pre ++ [e]) (if eqv key e.1 then some pre.length else r) (by
      intro i hi
      rw [hl]
      split at hi
      · rename_i hm
        cases hi
        rw [if_pos hm]; simp
      · rename_i hm
        rw [if_neg hm, ← h1 i hi]; simp) (by
      rw [hl]
      split
      · simp
      · exact h2)
    simpa [scanMutLoop] using this

/-- **C45** (raw scan maps, e.g. inline ones, with duplicate keys in any order and any matching relation): the last stored
entry wins. -/
theorem c45_raw_scan_map (mt : Q → K → Bool) (es : List (K × V)) :
    Lookups (ScanMap.impl mt) { entries := es } mt es := by
  have hget : ∀ q, (ScanMap.impl mt).get { entries := es } q = .ok ((lastMatch mt es q).map (fun e => e.2)) := by
    intro q
    show Except.ok (es.foldl _ _) = _
    rw [foldl_last_match (fun e => mt q e.1) (fun e => e.2)]
    unfold lastMatch
    rw [show (fun acc (e : K × V) => if mt q e.1 = true then some e else acc) =
      (fun r e => if (fun e : K × V => mt q e.1) e = true then some (id e) else r) from rfl, foldl_last_match]
    simp
  refine ⟨hget, fun q => ?_, fun q => ?_, fun q => ?_⟩
  · rfl
  · have := hget q
    show (do let r ← (ScanMap.impl mt).get { entries := es } q; Except.ok r.isSome) = _
    rw [this]
    simp [bind, Except.bind]
  · have := scanMutLoop_last mt q es [] none (by simp) (by simp [lastMatch])
    exact ⟨_, rfl, this.1, this.2⟩

example : (ScanMap.impl natEq).get { entries := [(1, "a"), (2, "b"), (1, "c")] } 1 = .ok (some "c") := by decide
example : (ScanMap.impl natEq).getMut { entries := [(1, "a"), (2, "b"), (1, "c")] } 1 = .ok (some 2) := by decide

/-! ## C05 -/

/-- **C05**.  For every map of every type: `len` is the number of different keys of the input — the length of any
list that contains exactly one representative of each key — and such lists exist (the iterated keys are one);
`is_empty` is true exactly when the input was empty. -/
theorem c05_len [Target] {eqK : K → K → Bool} {mt : Q → K → Bool} {es : List (K × V)} {I : MapImpl M Q K V} {m : M}
    (hb : Built eqK mt es I m) :
    (∀ R, Representatives eqK es R → I.len m = R.length) ∧
    Representatives eqK es ((I.entries m).map (fun e => e.1)) ∧
    (I.isEmpty m = true ↔ es = []) := by
  obtain ⟨_, F⟩ := hb.facts
  have hrep : Representatives eqK es ((I.entries m).map (fun e => e.1)) := by
    refine ⟨F.contents.distinct, fun e he => ?_, fun k hk => ?_⟩
    · obtain ⟨e', h1, h2⟩ := exists_mem_keepLast F.eq.entry he
      exact ⟨e'.1, List.mem_map.2 ⟨e', F.perm.mem_iff.2 h1, rfl⟩, h2⟩
    · obtain ⟨e, he, rfl⟩ := List.mem_map.1 hk
      exact ⟨e, survivors_mem (F.perm.mem_iff.1 he), F.eq.refl _⟩
  refine ⟨fun R hR => F.len hR, hrep, ?_⟩
  unfold MapImpl.isEmpty
  rw [beq_iff_eq, F.len hrep]
  constructor
  · intro h0
    cases es with
    | nil => rfl
    | cons e es =>
      obtain ⟨k, hk, _⟩ := hrep.covers e (by simp)
      rw [List.length_eq_zero_iff.1 h0] at hk
      cases hk
  · rintro rfl
    rw [List.length_map, F.perm.length_eq]; rfl

attribute [local instance] w64 in
example : ∃ m, FzOrderedMap.new natCmp [(5, "a"), (2, "b"), (5, "d")] = .ok m ∧
    (FzOrderedMap.impl natCmp).len m = 2 := by
  obtain ⟨m, h1, h2⟩ := c02_fz_ordered_map natCmp_lawful natCmp_query [(5, "a"), (2, "b"), (5, "d")]
  refine ⟨m, h1, (c05_len (.fzOrdered natCmp_lawful natCmp_query h1)).1 [5, 2] ⟨?_, ?_, ?_⟩⟩
  · exact List.pairwise_pair.2 (by decide)
  · decide
  · decide

/-! ## C06 -/

/-- **C06**.  Iteration over every map of every type yields each key once, with the last key object and value given for it;
the number of items is `len`. -/
theorem c06_iteration [Target] {eqK : K → K → Bool} {mt : Q → K → Bool} {es : List (K × V)} {I : MapImpl M Q K V} {m : M}
    (hb : Built eqK mt es I m) :
    Contents I m eqK es ∧ (I.entries m).length = I.len m ∧ (I.entries m).Perm (survivors eqK es) := by
  obtain ⟨_, F⟩ := hb.facts
  exact ⟨F.contents, (F.lawful.len m F.inv).symm, F.perm⟩

example : (ScanMap.impl mod10Eq (V := String)).entries (ScanMap.new mod10Eq [(3, "a"), (4, "b"), (13, "c")]) =
    [(4, "b"), (13, "c")] := by decide
attribute [local instance] w64 in
example : Contents (ScanMap.impl mod10Eq (V := String)) (ScanMap.new mod10Eq [(3, "a"), (4, "b"), (13, "c")]) mod10Eq
    [(3, "a"), (4, "b"), (13, "c")] := (c06_iteration (Built.scan mod10Eq_lawful mod10Eq_query)).1

/-! ## C14 -/

/-- The documented capacities of the three magnitudes. -/
def capacityOf [Target] : Magnitude → Nat
  | .small => 255
  | .medium => 65535
  | .large => usizeMax

/-- **C14** (map level).  `HashMap::with_hasher` succeeds iff the number of different keys does not exceed the capacity of the
magnitude (255, 65535, or the whole `usize` range); otherwise it returns the documented error.  By `c01_hash_map` a
map that is returned answers all lookups correctly, so no stored index was truncated. -/
theorem c14_map_magnitude [Target] (cm : Magnitude) {find : HbFind} (hfind : HbFindOk find) {sort : Sorter (K × V)}
    (hsort : SorterOk sort) {eqK : K → K → Bool} (he : LawfulEq' eqK) {hK : K → Nat}
    (hh : ∀ a b, eqK a b = true → hK a = hK b) (es : List (K × V)) (hn : es.length < sizeLimit) {R : List K}
    (hR : Representatives eqK es R) :
    (R.length ≤ capacityOf cm →
      ∃ m, HashMap.withHasher cm find sort eqK (bridgeHash hK) es = .ok (.ok m)) ∧
    (capacityOf cm < R.length →
      HashMap.withHasher cm find sort eqK (bridgeHash hK) es =
        .ok (.error "too many entries for the selected collection magnitude")) := by
  obtain ⟨c1, c2⟩ := HashMap.withHasher_spec cm hfind hsort he (hK := bridgeHash hK) (hk := hK) (fun _ => rfl) hh es hn
  have hlen : (survivors eqK es).length = R.length := by
    have h1 := (c05_len (Built.scan (es := es) he he.query)).1 R hR
    obtain ⟨h2, h3, h4⟩ := c06_iteration (Built.scan (es := es) he he.query)
    rw [← h4.length_eq, h3, h1]
  have hcap : cm.maxCapacity = capacityOf cm := by
    cases cm <;> rfl
  rw [hlen, hcap] at c1 c2
  refine ⟨fun h => ?_, fun h => c2 h⟩
  obtain ⟨m, h1, _⟩ := c1 h
  exact ⟨m, h1⟩

attribute [local instance] w64 in
/-- 256 different keys do not fit a small collection; 300 entries with 2 different keys do. -/
example : HashMap.withHasher .small listFind slotSort natEq (bridgeHash fun k => k) ((List.range 256).map (fun i => (i, i)))
      = .ok (.error "too many entries for the selected collection magnitude") :=
  (c14_map_magnitude .small listFind_ok slotSort_ok natEq_lawful (fun a b h => by simpa [natEq] using h) _ (by simp)
    (R := List.range 256) ⟨by
      refine List.nodup_range.imp ?_
      intro a b h; simpa [natEq] using h, by intro e he; simp at he; obtain ⟨a, h1, rfl⟩ := he; exact ⟨a, by simpa using h1, by simp [natEq]⟩,
      by intro k hk; exact ⟨(k, k), by simpa using hk, by simp [natEq]⟩⟩).2 (by simp [capacityOf])

attribute [local instance] w64 in
example : ∃ m, HashMap.withHasher .small listFind slotSort natEq (bridgeHash fun k => k)
      ((List.range 300).map (fun i => (i % 2, i))) = .ok (.ok m) :=
  (c14_map_magnitude .small listFind_ok slotSort_ok natEq_lawful (fun a b h => by simpa [natEq] using h) _ (by simp)
    (R := [0, 1]) ⟨List.pairwise_pair.2 (by decide), by
      intro e he; simp at he; obtain ⟨a, h1, rfl⟩ := he
      rcases Nat.mod_two_eq_zero_or_one a with h | h <;> simp [natEq, h],
      by
        intro k hk
        simp at hk
        rcases hk with rfl | rfl
        · exact ⟨(0, 0), by simp, by simp [natEq]⟩
        · exact ⟨(1, 1), by simp, by simp [natEq]⟩⟩).1 (by simp [capacityOf])

/-! ## C33 -/

/-- **C33**.  `map[&q]` returns the value `get(&q)` returns when there is one, and panics exactly when `get(&q)` is `None`. -/
theorem c33_index [Target] {eqK : K → K → Bool} {mt : Q → K → Bool} {es : List (K × V)} {I : MapImpl M Q K V} {m : M}
    (hb : Built eqK mt es I m) (q : Q) :
    (∀ v, I.index m q = .ok v ↔ I.get m q = .ok (some v)) ∧
    (I.get m q = .ok none ↔ I.index m q = .error (.panic "index should be valid")) ∧
    (I.index m q = match lastMatch mt es q with
      | some e => .ok e.2
      | none => .error (.panic "index should be valid")) := by
  obtain ⟨_, F⟩ := hb.facts
  have hg := F.lookups.get q
  unfold MapImpl.index
  rw [hg]
  cases lastMatch mt es q with
  | none => simp [bind, Except.bind]
  | some e => simp [bind, Except.bind]

example : (ScanMap.impl natEq).index (ScanMap.new natEq [(1, "a"), (2, "b"), (1, "c")]) 1 = .ok "c" := by decide
example : (ScanMap.impl natEq).index (ScanMap.new natEq [(1, "a"), (2, "b"), (1, "c")]) 3 =
    .error (.panic "index should be valid") := by decide

/-! ## C36 -/

/-- A map that holds nothing: length zero, nothing to iterate over, and every query answered without panic or
out-of-bounds access. -/
structure EmptyMap (I : MapImpl M Q K V) (m : M) : Prop where
  len : I.len m = 0
  isEmpty : I.isEmpty m = true
  entries : I.entries m = []
  get : ∀ q, I.get m q = .ok none
  getMut : ∀ q, I.getMut m q = .ok none
  getKeyValue : ∀ q, I.getKeyValue m q = .ok none
  containsKey : ∀ q, I.containsKey m q = .ok false

theorem emptyHash (hQ : Q → Nat) (mt : Q → K → Bool) :
    EmptyMap (HashMap.impl (V := V) (bridgeHash hQ) mt) HashMap.default := by
  constructor <;> intros <;>
  simp [HashMap.impl, HashMap.default, HashTable.default, HashTable.len, MapImpl.isEmpty, HashMap.get, HashMap.getMut,
    HashMap.getKeyValue, HashMap.containsKey, HashTable.find, HashTable.findMut, bridgeHash, bind, Except.bind,
    getUnchecked, getUncheckedRange, scanBucket]

theorem emptyEytzinger (qcmp : Q → K → Ordering) : EmptyMap (EytzingerMap.impl (V := V) qcmp) EytzingerMap.default := by
  have : ∀ f : K × V → Ordering, eytzingerSearchBy [] f = none := by
    intro f; unfold eytzingerSearchBy searchLoop; simp
  constructor <;> intros <;>
  simp [EytzingerMap.impl, EytzingerMap.default, MapImpl.isEmpty, EytzingerMap.get, EytzingerMap.getMut,
    EytzingerMap.getKeyValue, EytzingerMap.containsKey, this, bind, Except.bind]

theorem emptyDense (qindex : Q → Nat) : EmptyMap (DenseMap.impl (K := K) (V := V) qindex) DenseMap.default := by
  have : ∀ q, ¬ (1 ≤ qindex q ∧ qindex q = 0) := by omega
  constructor <;> intros <;>
  simp [DenseMap.impl, DenseMap.default, MapImpl.isEmpty, DenseMap.get, DenseMap.getMut,
    DenseMap.getKeyValue, DenseMap.containsKey, this, bind, Except.bind]

theorem emptySparse (qindex : Q → Nat) : EmptyMap (SparseMap.impl (K := K) (V := V) qindex) SparseMap.default := by
  have : ∀ q, ¬ (1 ≤ qindex q ∧ qindex q = 0) := by omega
  constructor <;> intros <;>
  simp [SparseMap.impl, SparseMap.default, MapImpl.isEmpty, SparseMap.get, SparseMap.getMut,
    SparseMap.getKeyValue, SparseMap.containsKey, this, bind, Except.bind]

theorem emptyScan (mt : Q → K → Bool) : EmptyMap (ScanMap.impl (V := V) mt) ScanMap.default := by
  constructor <;> intros <;> rfl

/-- **C36** (maps).  The default map of each type is empty, for queries of any hash code or scalar index. -/
theorem c36_default_maps (hQ : Q → Nat) (mt : Q → K → Bool) (qcmp : Q → K → Ordering) (bhStr bhSlice : Str → Nat) :
    EmptyMap (FzHashMap.impl (V := V) hQ mt) FzHashMap.default ∧
    EmptyMap (FzOrderedMap.impl (V := V) qcmp) FzOrderedMap.default ∧
    EmptyMap (FzScalarMap.impl (V := V) hQ mt) FzScalarMap.default ∧
    EmptyMap (FzStringMap.impl (V := V) bhStr bhSlice) FzStringMap.default ∧
    EmptyMap (HashMap.impl (V := V) (bridgeHash hQ) mt) HashMap.default ∧
    EmptyMap (EytzingerMap.impl (V := V) qcmp) EytzingerMap.default ∧
    EmptyMap (DenseMap.impl (K := K) (V := V) hQ) DenseMap.default ∧
    EmptyMap (SparseMap.impl (K := K) (V := V) hQ) SparseMap.default ∧
    EmptyMap (ScanMap.impl (V := V) mt) ScanMap.default := by
  have hd := emptyDense (K := K) (V := V) hQ
  have hh := emptyHash (V := V) bhStr strEq
  exact ⟨emptyHash hQ mt, emptyEytzinger qcmp,
    ⟨hd.len, hd.isEmpty, hd.entries, hd.get, hd.getMut, hd.getKeyValue, hd.containsKey⟩,
    ⟨hh.len, hh.isEmpty, hh.entries, hh.get, hh.getMut, hh.getKeyValue, hh.containsKey⟩,
    emptyHash hQ mt, emptyEytzinger qcmp, hd, emptySparse hQ, emptyScan mt⟩

/-- Queries at both ends of the index range. -/
example : (FzScalarMap.impl (V := String) UInt64.toNat (scalarMatch UInt64.toNat UInt64.toNat)).get
    FzScalarMap.default 18446744073709551615 = .ok none ∧
    (FzScalarMap.impl (V := String) UInt64.toNat (scalarMatch UInt64.toNat UInt64.toNat)).get
    FzScalarMap.default 0 = .ok none := by decide

/-! ## C46 -/

/-- **C46**.  Construction of the hash, ordered, string and scan maps returns normally for every entry list, whatever the
hash functions, orders and sorting algorithm do within their contracts.  (`ScanMap::new` is a total function in the
model: it contains no operation that can fail.) -/
theorem c46_construction_total [Target] {find : HbFind} (hfind : HbFindOk find) {sort : Sorter (K × V)} (hsort : SorterOk sort)
    {sortS : Sorter (Str × V)} (hsortS : SorterOk sortS)
    {eqK : K → K → Bool} (he : LawfulEq' eqK) {hK : K → Nat} (hh : ∀ a b, eqK a b = true → hK a = hK b)
    {cmp : K → K → Ordering} (hc : LawfulCmp cmp) (bhStr bhSlice : Str → Nat) (es : List (K × V))
    (ss : List (Str × V)) (hn : es.length < sizeLimit) (hns : ss.length < sizeLimit) :
    (∃ m, FzHashMap.withHasher find sort eqK hK es = .ok m) ∧
    (∃ m, FzOrderedMap.new cmp es = .ok m) ∧
    (∃ m, EytzingerMap.new cmp es = .ok m) ∧
    (∃ m, FzStringMap.withHasher sortS bhStr bhSlice ss = .ok m) ∧
    (∀ cm, ∃ r, HashMap.withHasher cm find sort eqK (bridgeHash hK) es = .ok r) := by
  refine ⟨?_, ?_, ?_, ?_, fun cm => ?_⟩
  · obtain ⟨m, h, _⟩ := FzHashMap.withHasher_spec hfind hsort he hh es hn
    exact ⟨m, h⟩
  · obtain ⟨m, h, _⟩ := FzOrderedMap.new_spec hc es
    exact ⟨m, h⟩
  · obtain ⟨m, h, _⟩ := EytzingerMap.new_spec hc es
    exact ⟨m, h⟩
  · obtain ⟨m, h, _⟩ := FzStringMap.withHasher_spec hsortS bhStr bhSlice ss hns
    exact ⟨m, h⟩
  · obtain ⟨c1, c2⟩ := HashMap.withHasher_spec cm hfind hsort he (hK := bridgeHash hK) (hk := hK) (fun _ => rfl) hh es hn
    by_cases hcap : (survivors eqK es).length ≤ cm.maxCapacity
    · obtain ⟨m, h, _⟩ := c1 hcap
      exact ⟨_, h⟩
    · exact ⟨_, c2 (by omega)⟩

attribute [local instance] w64 in
example : ∃ m, FzHashMap.withHasher listFind slotSort mod10Eq (fun _ => 0) [(1, "a"), (11, "b"), (2, "c")] = .ok m :=
  (c46_construction_total listFind_ok slotSort_ok slotSort_ok mod10Eq_lawful (hK := fun _ => 0) (fun _ _ _ => rfl)
    natCmp_lawful (fun _ => 0) (fun _ => 0) [(1, "a"), (11, "b"), (2, "c")] [] (by decide) (by decide)).1

end Frozen.Props
