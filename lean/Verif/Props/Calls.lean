import Verif.Lemmas.Calls
import Verif.Lemmas.WellTyped
import Verif.Props.Emit

/-!
# C58: the calls of user code made by lookups
-/

namespace Frozen.Props

open Frozen.Model Frozen.Spec

variable {M Q K V : Type}

/-- **C58** (scan maps, whatever they contain).  A lookup compares the query with every stored key, once, in order. -/
theorem c58_scan (eqv : Q → K → Bool) (m : ScanMap K V) (q : Q) :
    SearchOf (ScanMap.impl eqv) m q (m.searchT eqv q) ∧
      ∃ r, m.searchT eqv q = .ok (r, (m.entries.map Prod.fst).map .equivalent) := by
  refine ⟨ScanMap.searchOf eqv m q, (scanLoopT eqv q m.entries 0 none).1, ?_⟩
  rw [List.map_map]
  show Except.ok (scanLoopT eqv q m.entries 0 none) = _
  rw [← Prod.eta (scanLoopT eqv q m.entries 0 none), scanLoopT_calls]
  rfl

example : ({ entries := [(1, "a"), (2, "b"), (1, "c")] } : ScanMap Nat String).searchT natEq 1 =
    .ok (some 2, [.equivalent 1, .equivalent 2, .equivalent 1]) := rfl

/-- **C58** (ordered maps, whatever they contain and whatever the comparison does).  A lookup neither hashes nor tests for
equality; it compares the query with at most `⌊log2 n⌋ + 1` of the `n` stored keys, each at most once, and stops at the
first that compares equal. -/
theorem c58_ordered (qcmp : Q → K → Ordering) (m : EytzingerMap K V) (q : Q) :
    SearchOf (EytzingerMap.impl qcmp) m q (m.searchT qcmp q) ∧
      ∃ (r : Option Nat) (ks : List K), m.searchT qcmp q = .ok (r, ks.map .compare) ∧ ks.Sublist (m.entries.map Prod.fst) ∧
        ks.length ≤ (if m.entries = [] then 0 else Nat.log2 m.entries.length + 1) ∧
        (∀ k ∈ ks.dropLast, qcmp q k ≠ .eq) := by
  refine ⟨EytzingerMap.searchOf qcmp m q, (searchLoopT m.entries (fun e => (qcmp q e.1).swap) 0).1,
    (searchLoopT m.entries (fun e => (qcmp q e.1).swap) 0).2.map Prod.fst, ?_, ?_, ?_, ?_⟩
  · rw [List.map_map]; rfl
  · have := searchLoopT_sublist m.entries (fun e => (qcmp q e.1).swap) 0
    rw [List.drop_zero] at this
    exact this.map _
  · rw [List.length_map]
    have h1 := (searchLoopT_fst m.entries (fun e => (qcmp q e.1).swap) 0 0).2
    have h2 := searchLoop_cost m.entries (fun e => (qcmp q e.1).swap) 0 0 (.inl ⟨rfl, rfl⟩)
    by_cases he : m.entries = []
    · rw [if_pos he]
      rw [if_pos (by simp [he])] at h2
      omega
    · rw [if_neg he]
      rw [if_neg (by simpa using he)] at h2
      omega
  · intro k hk
    rw [← List.map_dropLast] at hk
    obtain ⟨e, he, rfl⟩ := List.mem_map.1 hk
    intro heq
    apply searchLoopT_stop m.entries (fun e => (qcmp q e.1).swap) 0 e he
    rw [heq]; rfl

attribute [local instance] w64 in
example : (do
      let m ← FzOrderedMap.new natCmp [(5, "a"), (2, "b"), (9, "c"), (5, "d"), (1, "e"), (7, "f"), (8, "g"), (3, "h")]
      m.searchT natCmp 8) = .ok (some 2, [.compare 5, .compare 8]) := by cbv
attribute [local instance] w64 in
example : (do
      let m ← FzOrderedMap.new natCmp [(5, "a"), (2, "b"), (9, "c"), (5, "d"), (1, "e"), (7, "f"), (8, "g"), (3, "h")]
      m.searchT natCmp 6) = .ok (none, [.compare 5, .compare 8, .compare 7]) := by cbv

/-- **C58** (`FzHashMap`; the hash function and the equality need not obey any law).  There is a number of slots,
reasonable for the hash codes of the stored keys, such that every lookup hashes the query once and then compares it
only with keys in its slot, one after the other, up to the first match. -/
theorem c58_fz_hash_map [Target] {find : HbFind} {sort : Sorter (K × V)} (hsort : SorterOk sort) {eqK : K → K → Bool}
    {hK : K → Nat} {es : List (K × V)} (hn : es.length < sizeLimit) {m : HashMap K V}
    (hm : FzHashMap.withHasher find sort eqK hK es = .ok m) (hQ : Q → Nat) (mt : Q → K → Bool) :
    ∃ s, SlotCount (m.table.entries.map (fun e => hK e.1)) s ∧ ∀ q,
      SearchOf (FzHashMap.impl hQ mt) m q (m.searchT (bridgeHashT hQ) mt q) ∧
      ∃ (r : Option Nat) (ks : List K), m.searchT (bridgeHashT hQ) mt q = .ok (r, .hash :: ks.map .equivalent) ∧
        BucketProbes hK s (hQ q) (mt q) (m.table.entries.map Prod.fst) ks := by
  unfold FzHashMap.withHasher at hm
  simp only [bind, Except.bind] at hm
  split at hm
  · cases hm
  · rename_i S hS
    split at hm
    · cases hm
    · rename_i r hr
      cases r with
      | error e => cases hm
      | ok m' =>
        cases hm
        have hlen := usingHash_length hS
        obtain ⟨h1, -, h3⟩ := HashMap.fromDedupped_slots hsort (hk := hK) (fun _ => rfl) (by omega) hr
        exact ⟨_, h3, fun q => ⟨HashMap.searchOf (bridgeHashT_of hQ) mt m q,
          HashMap.searchT_calls (pre := [.hash]) h1 (hT := bridgeHashT hQ) (q := q) rfl mt⟩⟩

attribute [local instance] w64 in
example : (do
      let m ← FzHashMap.withHasher listFind slotSort natEq (fun k => k / 10) [(31, "a"), (42, "b"), (33, "c"), (75, "d")]
      m.searchT (bridgeHashT fun k => k / 10) natEq 33) =
    .ok (some 1, [.hash, .equivalent 31, .equivalent 33]) := by cbv

/-- **C58** (at most one comparison).  In an `FzHashMap` with fewer than 128 keys whose hash codes are different modulo some
power of two between twice and ten times their number, a lookup compares the query with at most one key. -/
theorem c58_fz_hash_map_perfect [Target] {find : HbFind} {sort : Sorter (K × V)} (hsort : SorterOk sort)
    {eqK : K → K → Bool} {hK : K → Nat} {es : List (K × V)} (hn : es.length < sizeLimit) {m : HashMap K V}
    (hm : FzHashMap.withHasher find sort eqK hK es = .ok m) (hsmall : m.table.entries.length < 128) {b : Nat}
    (hb1 : 2 * m.table.entries.length ≤ 2 ^ b) (hb2 : 2 ^ b ≤ 10 * m.table.entries.length)
    (hd : (m.table.entries.map (fun e => hK e.1 % 2 ^ b)).Nodup) (hQ : Q → Nat) (mt : Q → K → Bool) (q : Q) :
    ∃ r calls, m.searchT (bridgeHashT hQ) mt q = .ok (r, calls) ∧ (compared calls).length ≤ 1 := by
  obtain ⟨s, hs, hall⟩ := c58_fz_hash_map hsort hn hm hQ mt
  obtain ⟨-, r, ks, h1, h2⟩ := hall q
  refine ⟨r, _, h1, ?_⟩
  have hd' := hs.perfect (by simpa using hsmall) b (by simpa using hb1) (by simpa using hb2)
    (by rw [List.map_map]; exact hd)
  have hc := (nodup_iff_card _).1 hd'
  have hf := h2.few
  have e1 : compared (Call.hash :: ks.map Call.equivalent) = ks := compared_equivalent ks
  rw [e1]
  simp only [List.map_map, List.length_map] at hc hf
  have e2 : ((fun x => x % s) ∘ fun e : K × V => hK e.1) = ((fun k => hK k % s) ∘ Prod.fst) := rfl
  rw [e2] at hc
  omega

attribute [local instance] w64 in
example : (do
      let m ← FzHashMap.withHasher listFind slotSort natEq (fun k => k) [(31, "a"), (42, "b"), (33, "c"), (75, "d")]
      m.searchT (bridgeHashT fun k => k) natEq 65) = .ok (none, [.hash, .equivalent 33]) := by cbv

/-- **C58** (`FzScalarMap`).  A lookup asks the query for its index once.  Then either it never compares keys, whatever the
query; or it proceeds like a hash map. The first is the case whenever the stored keys span fewer than 128 indices. -/
theorem c58_fz_scalar_map [Target] {b : Build} {sort : Sorter (K × V)} (hsort : SorterOk sort) {cmp : K → K → Ordering}
    {index : K → Nat} (hs : LawfulScalar cmp index) {es : List (K × V)} (hn : es.length < tableLimit)
    {m : FzScalarMap K V} (hm : FzScalarMap.new b sort cmp index es = .ok m) (qindex : Q → Nat) :
    (∀ q, SearchOf (FzScalarMap.impl qindex (scalarMatch index qindex)) m q
      (m.searchT qindex (scalarMatch index qindex) q)) ∧
    ((∀ q, ∃ r, m.searchT qindex (scalarMatch index qindex) q = .ok (r, [.index])) ∨
      ∃ s, SlotCount (m.entries.map (fun e => index e.1)) s ∧ ∀ q, ∃ (r : Option Nat) (ks : List K),
        m.searchT qindex (scalarMatch index qindex) q = .ok (r, .index :: ks.map .equivalent) ∧
        BucketProbes index s (qindex q) (scalarMatch index qindex q) (m.entries.map Prod.fst) ks) ∧
    ((∀ x ∈ es, ∀ y ∈ es, index x.1 - index y.1 < 128) →
      ∀ q, ∃ r, m.searchT qindex (scalarMatch index qindex) q = .ok (r, [.index])) := by
  have hu := target_cases
  have hspan : ∀ x ∈ es, ∀ y ∈ es, index x.1 - index y.1 < usizeMax := by
    intro x hx y hy
    by_contra hge
    have := hs.bound x.1
    obtain ⟨e, he⟩ := FzScalarMap.new_over b sort hs hx hy (by omega)
    rw [he] at hm; cases hm
  obtain ⟨m', h1, h2, h3⟩ := FzScalarMap.new_spec b hsort hs es hn hspan
  rw [hm] at h1
  cases h1
  obtain ⟨_, F⟩ := (Built.fzScalar (qindex := qindex) hsort hs hn hm).facts
  have hso := fun q => FzScalarMap.searchOf qindex (scalarMatch index qindex) m q
  have hok : ∀ q, ∃ r, m.searchT qindex (scalarMatch index qindex) q = .ok r := by
    intro q
    have hg := F.lookups.get q
    have := (hso q).get
    cases hsr : m.searchT qindex (scalarMatch index qindex) q with
    | ok r => exact ⟨r, rfl⟩
    | error e =>
      rw [hg, hsr] at this
      cases this
  refine ⟨hso, ?_⟩
  have hp := sortedAndDedupped_survivors hs.lawfulCmp es
  have hst := sortedAndDedupped_strict (hs.lawfulCmp.entry (V := V)) es
  have hsl := survivors_length_le (fun a b => cmp a b == .eq) es
  have hmem : ∀ e ∈ sortedAndDedupped es (fun x y => cmp x.1 y.1), e ∈ es := fun e he =>
    survivors_mem (hp.mem_iff.1 he)
  have hl := hp.length_eq
  unfold FzScalarMap.new at hm
  generalize sortedAndDedupped es (fun x y => cmp x.1 y.1) = S at *
  simp only [bind, Except.bind] at hm
  split at hm
  · cases hm
  · rename_i a ha
    cases m with
    | dense d =>
      have hd : ∀ q, ∃ r, (FzScalarMap.dense d).searchT qindex (scalarMatch index qindex) q = .ok (r, [.index]) := by
        intro q
        obtain ⟨r, hr⟩ := hok q
        have hr' : d.searchT qindex q = .ok r := hr
        refine ⟨r.1, ?_⟩
        show d.searchT qindex q = _
        unfold DenseMap.searchT at hr' ⊢
        by_cases hv : qindex q ≥ d.min ∧ qindex q ≤ d.max
        · simp only [if_pos hv, bind, Except.bind] at hr' ⊢
          cases hg : getUnchecked d.entries (qindex q - d.min) with
          | error e => rw [hg] at hr'; cases hr'
          | ok e => rw [hg] at hr'; cases hr'; rfl
        · rw [if_neg hv] at hr' ⊢
          cases hr'; rfl
      exact ⟨.inl hd, fun _ => hd⟩
    | sparse d =>
      have hd : ∀ q, ∃ r, (FzScalarMap.sparse d).searchT qindex (scalarMatch index qindex) q = .ok (r, [.index]) := by
        intro q
        obtain ⟨r, hr⟩ := hok q
        have hr' : d.searchT qindex q = .ok r := hr
        refine ⟨r.1, ?_⟩
        show d.searchT qindex q = _
        unfold SparseMap.searchT at hr' ⊢
        by_cases hv : qindex q ≥ d.min ∧ qindex q ≤ d.max
        · simp only [if_pos hv, bind, Except.bind] at hr' ⊢
          cases hg : getUnchecked d.lookup (qindex q - d.min) with
          | error e => rw [hg] at hr'; cases hr'
          | ok v =>
            rw [hg] at hr'
            by_cases hv2 : v > 0
            · simp only [if_pos hv2] at hr' ⊢
              cases hg2 : getUnchecked d.entries (v - 1) with
              | error e => rw [hg2] at hr'; cases hr'
              | ok e => rw [hg2] at hr'; cases hr'; rfl
            · simp only [if_neg hv2] at hr' ⊢
              cases hr'; rfl
        · rw [if_neg hv] at hr' ⊢
          cases hr'; rfl
      exact ⟨.inl hd, fun _ => hd⟩
    | hash d =>
      cases a with
      | denseRange =>
        simp only [FzScalarMap.build, bind, Except.bind] at hm
        split at hm <;> cases hm
      | sparseRange =>
        simp only [FzScalarMap.build, bind, Except.bind] at hm
        split at hm <;> cases hm
      | general =>
        simp only [FzScalarMap.build, bind, Except.bind] at hm
        split at hm
        · cases hm
        · rename_i r hr
          cases r with
          | error e => cases hm
          | ok d' =>
            simp only [unwrapR] at hm
            cases hm
            obtain ⟨g1, g2, g3⟩ := HashMap.fromDedupped_slots hsort (hk := index) (fun _ => rfl) (by omega) hr
            have hbuck : ∀ q, ∃ (r : Option Nat) (ks : List K),
                (FzScalarMap.hash d).searchT qindex (scalarMatch index qindex) q =
                  .ok (r, .index :: ks.map .equivalent) ∧
                BucketProbes index d.table.slots.length (qindex q) (scalarMatch index qindex q)
                  (d.table.entries.map Prod.fst) ks := fun q =>
              HashMap.searchT_calls (pre := [.index]) g1 (hT := scalarHashT qindex) (q := q) rfl (scalarMatch index qindex)
            refine ⟨.inr ⟨_, g3, hbuck⟩, ?_⟩
            intro h128 q
            have hempty : S = [] := by
              by_contra hne
              obtain ⟨f, l, hf, hl', hfl, hall⟩ := ascending_ends hs hst hne
              have hfm := List.mem_of_getElem? hf
              have hlm := List.mem_of_getElem? hl'
              have hA := analyzeScalarKeys_spec b (l := S.map (fun e => index e.1)) (by
                  intro x hx
                  obtain ⟨e, _, rfl⟩ := List.mem_map.1 hx
                  exact hs.bound _) (mn := index f.1) (mx := index l.1)
                (List.mem_map.2 ⟨f, hfm, rfl⟩) (List.mem_map.2 ⟨l, hlm, rfl⟩) (by
                  intro x hx
                  obtain ⟨e, he, rfl⟩ := List.mem_map.1 hx
                  obtain ⟨i, hi⟩ := List.getElem?_of_mem he
                  have := hall i e hi
                  omega) (hspan l (hmem l hlm) f (hmem f hfm))
              rw [ha] at hA
              have hd := h128 l (hmem l hlm) f (hmem f hfm)
              unfold scalarDecide alwaysSparseThreshold at hA
              split at hA
              · cases hA
              · rw [if_pos (.inl (by omega))] at hA
                cases hA
            obtain ⟨r, ks, hk1, hk2⟩ := hbuck q
            have he : d.table.entries = [] := by
              rw [hempty] at g2
              exact g2.eq_nil
            have hks := hk2.once
            rw [he] at hks
            have : ks = [] := List.sublist_nil.1 hks
            subst this
            exact ⟨r, hk1⟩

attribute [local instance] w64 in
example : (do
      let m ← FzScalarMap.new .debug slotSort u64Cmp UInt64.toNat [(7, "a"), (60, "b"), (7, "c")]
      m.searchT UInt64.toNat (scalarMatch UInt64.toNat UInt64.toNat) 60) = .ok (some 1, [.index]) := by cbv
attribute [local instance] w64 in
example : (do
      let m ← FzScalarMap.new .debug slotSort u64Cmp UInt64.toNat [(7, "a"), (60000, "b"), (7, "c")]
      m.searchT UInt64.toNat (scalarMatch UInt64.toNat UInt64.toNat) 15) =
    .ok (none, [.index, .equivalent 7]) := by cbv

/-- **C58** (`FzStringMap`).  A lookup hashes the query, or one contiguous part of it, at most once; then it compares the
query only with keys in its slot, one after the other, up to the first match. -/
theorem c58_fz_string_map [Target] {sort : Sorter (Str × V)} (hsort : SorterOk sort) {bhStr bhSlice : Str → Nat}
    {es : List (Str × V)} (hn : es.length < sizeLimit) {m : FzStringMap V}
    (hm : FzStringMap.withHasher sort bhStr bhSlice es = .ok m) :
    ∃ (h : Str → Nat) (s : Nat), SlotCount (m.entries.map (fun e => h e.1)) s ∧ ∀ q,
      SearchOf (FzStringMap.impl bhStr bhSlice) m q (m.searchT bhStr bhSlice q) ∧
      ∃ (r : Option Nat) (pre : List (Call Str)) (ks : List Str), m.searchT bhStr bhSlice q = .ok (r, pre ++ ks.map .equivalent) ∧
        (pre = [.hash] ∧ h q = bhStr q ∨ (∃ part, part <:+: q ∧ pre = [.hashPart part] ∧ h q = bhSlice part) ∨
          pre = [] ∧ h q = 0) ∧
        BucketProbes h s (h q) (fun k => q == k) (m.entries.map Prod.fst) ks := by
  have hp := sortedAndDedupped_survivors strCmp_lawful es
  have hsl := survivors_length_le (fun a b => strCmp a b == .eq) es
  have hl := hp.length_eq
  have hso := fun q => FzStringMap.searchOf bhStr bhSlice m q
  unfold FzStringMap.withHasher usingCmp at hm
  generalize sortedAndDedupped es (fun x y => strCmp x.1 y.1) = S at *
  simp only [bind, Except.bind] at hm
  obtain ⟨a, ha, -, hL, hR⟩ := analyzeSliceKeys_spec (fun x y : UInt8 => x == y) bhSlice (S.map (fun x => x.1))
  rw [ha] at hm
  simp only at hm
  have general : ∀ {d : HashMap Str V}, HashMap.fromDedupped .large sort (bridgeHash bhStr) S = .ok (.ok d) →
      m = .hash d → ∃ (h : Str → Nat) (s : Nat), SlotCount (m.entries.map (fun e => h e.1)) s ∧ ∀ q,
      SearchOf (FzStringMap.impl bhStr bhSlice) m q (m.searchT bhStr bhSlice q) ∧
      ∃ (r : Option Nat) (pre : List (Call Str)) (ks : List Str), m.searchT bhStr bhSlice q = .ok (r, pre ++ ks.map .equivalent) ∧
        (pre = [.hash] ∧ h q = bhStr q ∨ (∃ part, part <:+: q ∧ pre = [.hashPart part] ∧ h q = bhSlice part) ∨
          pre = [] ∧ h q = 0) ∧
        BucketProbes h s (h q) (fun k => q == k) (m.entries.map Prod.fst) ks := by
    intro d hd hmd
    subst hmd
    obtain ⟨g1, -, g3⟩ := HashMap.fromDedupped_slots hsort (hk := bhStr) (fun _ => rfl) (by omega) hd
    refine ⟨bhStr, _, g3, fun q => ⟨hso q, ?_⟩⟩
    obtain ⟨r, ks, h1, h2⟩ := HashMap.searchT_calls (pre := [.hash]) g1 (hT := bridgeHashT bhStr) (q := q) rfl strEq
    exact ⟨r, _, ks, h1, .inl ⟨rfl, rfl⟩, h2⟩
  cases a with
  | general =>
    simp only [FzStringMap.build, bind, Except.bind] at hm
    split at hm
    · cases hm
    · rename_i r hr
      cases r with
      | error e => cases hm
      | ok d => cases hm; exact general hr rfl
  | length =>
    simp only [FzStringMap.build, bind, Except.bind] at hm
    split at hm
    · cases hm
    · rename_i r hr
      cases r with
      | error e => cases hm
      | ok d => cases hm; exact general hr rfl
  | left rg =>
    have hrg : rg.lo ≤ rg.hi := by have := (hL rg rfl).1; omega
    simp only [FzStringMap.build, bind, Except.bind] at hm
    split at hm
    · cases hm
    · rename_i r hr
      cases r with
      | error e => cases hm
      | ok d =>
        cases hm
        obtain ⟨g1, -, g3⟩ := HashMap.fromDedupped_slots hsort (hk := rangeHk true bhSlice rg)
          (leftRangeHash_ok bhSlice rg hrg) (by omega) hr
        refine ⟨rangeHk true bhSlice rg, _, g3, fun q => ⟨hso q, ?_⟩⟩
        have hq0 : leftRangeHash bhSlice rg q = .ok (rangeHk true bhSlice rg q) := leftRangeHash_ok bhSlice rg hrg q
        have hT := leftRangeHashT_of (K := Str) bhSlice rg q
        by_cases hlen : q.length < rg.hi
        · have e1 : leftRangeHashT (K := Str) bhSlice rg q = .ok (0, []) := by
            unfold leftRangeHashT; rw [if_pos hlen]
          have e2 : rangeHk true bhSlice rg q = 0 := by unfold rangeHk; rw [if_pos hlen]
          obtain ⟨r, ks, h1, h2⟩ := HashMap.searchT_calls (pre := []) g1 e1 strEq
          exact ⟨r, [], ks, h1, .inr (.inr ⟨rfl, e2⟩), by rw [e2]; exact h2⟩
        · have e1 : leftRangeHashT (K := Str) bhSlice rg q =
              .ok (bhSlice ((q.drop rg.lo).take (rg.hi - rg.lo)),
                [.hashPart ((q.drop rg.lo).take (rg.hi - rg.lo))]) := by
            unfold leftRangeHashT idxRange
            rw [if_neg hlen, if_pos ⟨hrg, by omega⟩]
            rfl
          rw [hq0, e1] at hT
          have e2 : rangeHk true bhSlice rg q = bhSlice ((q.drop rg.lo).take (rg.hi - rg.lo)) := by
            simpa [Except.map] using hT
          obtain ⟨r, ks, h1, h2⟩ := HashMap.searchT_calls g1 e1 strEq
          refine ⟨r, _, ks, h1, .inr (.inl ⟨_, ?_, rfl, e2⟩), by rw [e2]; exact h2⟩
          exact (List.take_prefix _ _).isInfix.trans (List.drop_suffix _ _).isInfix
  | right rg =>
    have hrg : rg.lo ≤ rg.hi := by have := (hR rg rfl).1; omega
    simp only [FzStringMap.build, bind, Except.bind] at hm
    split at hm
    · cases hm
    · rename_i r hr
      cases r with
      | error e => cases hm
      | ok d =>
        cases hm
        obtain ⟨g1, -, g3⟩ := HashMap.fromDedupped_slots hsort (hk := rangeHk false bhSlice rg)
          (rightRangeHash_ok bhSlice rg hrg) (by omega) hr
        refine ⟨rangeHk false bhSlice rg, _, g3, fun q => ⟨hso q, ?_⟩⟩
        have hq0 : rightRangeHash bhSlice rg q = .ok (rangeHk false bhSlice rg q) := rightRangeHash_ok bhSlice rg hrg q
        have hT := rightRangeHashT_of (K := Str) bhSlice rg q
        by_cases hlen : q.length < rg.hi
        · have e1 : rightRangeHashT (K := Str) bhSlice rg q = .ok (0, []) := by
            unfold rightRangeHashT; rw [if_pos hlen]
          have e2 : rangeHk false bhSlice rg q = 0 := by unfold rangeHk; rw [if_pos hlen]
          obtain ⟨r, ks, h1, h2⟩ := HashMap.searchT_calls (pre := []) g1 e1 strEq
          exact ⟨r, [], ks, h1, .inr (.inr ⟨rfl, e2⟩), by rw [e2]; exact h2⟩
        · have e1 : ∃ part, part <:+: q ∧ rightRangeHashT (K := Str) bhSlice rg q =
              .ok (bhSlice part, [.hashPart part]) := by
            unfold rightRangeHashT idxRange csub
            rw [if_neg hlen, if_pos (by omega), if_pos (by omega)]
            simp only [bind, Except.bind]
            rw [if_pos ⟨by omega, by omega⟩]
            exact ⟨_, (List.take_prefix _ _).isInfix.trans (List.drop_suffix _ _).isInfix, rfl⟩
          obtain ⟨part, hpart, e1⟩ := e1
          rw [hq0, e1] at hT
          have e2 : rangeHk false bhSlice rg q = bhSlice part := by simpa [Except.map] using hT
          obtain ⟨r, ks, h1, h2⟩ := HashMap.searchT_calls g1 e1 strEq
          exact ⟨r, _, ks, h1, .inr (.inl ⟨part, hpart, rfl, e2⟩), by rw [e2]; exact h2⟩

attribute [local instance] w64 in
example : (do
      let m ← FzStringMap.withHasher slotSort (fun _ => 1) (fun s => (s.map UInt8.toNat).sum)
        [([97, 98, 99], "a"), ([97, 98, 100], "b"), ([97, 98, 99], "c"), ([97, 98, 104], "d")]
      m.searchT (fun _ => 1) (fun s => (s.map UInt8.toNat).sum) [97, 99, 100]) =
    .ok (none, [.hashPart [100], .equivalent [97, 98, 100]]) := by cbv

/-- What a lookup in an inline map may compare, by representation, when there are `n` stored keys. -/
def comparisonBound (m : InlineMap K V) (n : Nat) : Nat :=
  match m.repr with
  | .scan _ => n
  | .eytzinger _ => if n = 0 then 0 else Nat.log2 n + 1
  | .dense _ => 0
  | .sparse _ => 0
  | .hash _ _ => n
  | .hashNC _ _ => 1

/-- **C58** (inline maps, whatever they contain).  A lookup that returns has hashed the query, or asked for its index, at
most once. It has compared it with stored keys only, each at most once: with at most one in a collision-free hash map,
at most `⌊log2 n⌋ + 1` in a sorted map, and none in a dense or sparse scalar map. -/
theorem c58_inline (t : QueryTraits Q K) (m : InlineMap K V) (q : Q) :
    SearchOf (InlineMap.impl t) m q (m.searchT t q) ∧
    ∀ r calls, m.searchT t q = .ok (r, calls) →
      hashings calls ≤ 1 ∧ (compared calls).Sublist (m.entries.map Prod.fst) ∧
      (compared calls).length ≤ comparisonBound m m.entries.length := by
  refine ⟨InlineMap.searchOf t m q, fun r calls h => ?_⟩
  obtain ⟨sz, rep⟩ := m
  cases rep with
  | scan d =>
    obtain ⟨-, r', h'⟩ := c58_scan t.equivalent d q
    have h'' : d.searchT t.equivalent q = .ok (r, calls) := h
    rw [h'] at h''
    cases h''
    rw [hashings_equivalent, compared_equivalent]
    exact ⟨by omega, List.Sublist.refl _, by simp [comparisonBound, InlineMap.entries]⟩
  | eytzinger d =>
    obtain ⟨-, r', ks, h', h1, h2, -⟩ := c58_ordered t.compare d q
    have h'' : d.searchT t.compare q = .ok (r, calls) := h
    rw [h'] at h''
    cases h''
    rw [hashings_compare, compared_compare]
    refine ⟨by omega, h1, ?_⟩
    simpa [comparisonBound, InlineMap.entries] using h2
  | dense d =>
    have hc := DenseMap.searchT_index (m := d) (qindex := t.index) h
    cases hc
    exact ⟨Nat.le_refl _, List.nil_sublist _, Nat.zero_le _⟩
  | sparse d =>
    have hc := SparseMap.searchT_index (m := d) (qindex := t.index) h
    cases hc
    exact ⟨Nat.le_refl _, List.nil_sublist _, Nat.zero_le _⟩
  | hash hs d =>
    have h'' : d.searchT (hs.hashOneT t) t.equivalent q = .ok (r, calls) := h
    obtain ⟨hc, pre, ks, h1, rfl, h2⟩ := HashMap.searchT_sub h''
    obtain ⟨h3, h4⟩ := InlineHasher.hashOneT_pre h1
    rw [hashings_append, hashings_equivalent, compared_append, compared_equivalent, h4, List.nil_append]
    exact ⟨by omega, h2, by simpa [comparisonBound, InlineMap.entries] using h2.length_le⟩
  | hashNC hs d =>
    have h'' : d.searchT (hs.hashOneT t) t.equivalent q = .ok (r, calls) := h
    obtain ⟨hc, pre, ks, h1, rfl, h2, h5⟩ := HashMapNC.searchT_sub h''
    obtain ⟨h3, h4⟩ := InlineHasher.hashOneT_pre h1
    rw [hashings_append, hashings_equivalent, compared_append, compared_equivalent, h4, List.nil_append]
    exact ⟨by omega, h2, h5⟩

/-- A collision-free inline map with two keys. -/
def callsDemo : InlineMap Nat String where
  sz := 2
  repr := .hashNC .scalar { table := { slots := [1, 0, 0, 2], entries := [(4, "a"), (7, "b")], mask := 3 } }

example : callsDemo.searchT natTraits 11 = .ok (none, [.index, .equivalent 7]) := by decide
example : callsDemo.searchT natTraits 7 = .ok (some 1, [.index, .equivalent 7]) := by decide
example : callsDemo.searchT natTraits 5 = .ok (none, [.index]) := by decide

end Frozen.Props
