import Verif.Lemmas.CostCongr
import Verif.Props.StrategySpec

/-!
# C69 and C70: the work done while building collections
-/

namespace Frozen.Props

open Frozen.Spec Frozen.Model

variable {T K V : Type}

/-- The number of elements in all keys together. -/
def totalSize (keys : List (List T)) : Nat := (keys.map List.length).sum

/-! ## C69 -/

/-- **C69** (analysis of slice keys).  Whatever the keys and whatever the hasher, the analysis ends with a result, and on the
way it compares at most two pairs of elements for each element of the keys, and hashes at most 32 sub-slices for each
element of the keys; more exactly, 32 times the number of keys for each element of the shortest key.  Every sub-slice hashed
is a piece of a key with at most 16 elements, and not empty.  The record is complete: the result depends on nothing but how
the pairs recorded compare and how the pieces recorded hash. -/
theorem c69_slice_analysis [Target] (eqT : T → T → Bool) (bh : List T → Nat) (keys : List (List T)) :
    ∃ r w, analyzeSliceKeysT eqT bh keys = .ok (r, w) ∧ analyzeSliceKeys eqT bh keys = .ok r ∧
      w.compared.length ≤ 2 * totalSize keys ∧
      (∀ k ∈ keys, w.hashed.length ≤ 32 * (k.length * keys.length)) ∧
      w.hashed.length ≤ 32 * totalSize keys ∧
      (∀ x ∈ w.hashed, 1 ≤ x.length ∧ x.length ≤ 16 ∧ ∃ k ∈ keys, x <:+: k) ∧
      ∀ (eqT' : T → T → Bool) (bh' : List T → Nat), (∀ x ∈ w.compared, eqT' x.1 x.2 = eqT x.1 x.2) →
        (∀ x ∈ w.hashed, bh' x = bh x) → analyzeSliceKeys eqT' bh' keys = .ok r := by
  obtain ⟨r, hr, -⟩ := analyzeSliceKeys_spec eqT bh keys
  obtain ⟨w, hw⟩ := ok_of_map_fst (analyzeSliceKeysT_fst eqT bh keys) hr
  obtain ⟨h1, h2, h3, h4⟩ := analyzeSliceKeysT_le hw
  refine ⟨r, w, hw, hr, h1, h2, h3, h4, fun eqT' bh' hc hh => ?_⟩
  rw [← analyzeSliceKeysT_fst, analyzeSliceKeysT_congr hw hc hh]
  rfl

attribute [local instance] w64 in
/-- Two keys that differ in their last byte only: the prefix is skipped, and one sub-slice of each key is hashed. -/
example : (analyzeSliceKeysT (fun a b => a == b) (fun s => s.sum) [[1, 2, 3, 4], [1, 2, 3, 5]]) =
    .ok (.left ⟨3, 4⟩, {
      compared := [(1, 1), (2, 2), (3, 3), (4, 4), (4, 4), (3, 3), (2, 2), (1, 1), (1, 1), (2, 2), (3, 3), (5, 4), (5, 4)]
      hashed := [[4], [5]] }) := by decide +kernel

attribute [local instance] w64 in
/-- A hasher that does not tell anything apart: every position is tried. -/
example : (analyzeSliceKeysT (fun a b => a == b) (fun _ => 0) [[1, 2, 3], [4, 5, 6]]) =
    .ok (.general, {
      compared := [(1, 1), (2, 2), (3, 3), (3, 3), (2, 2), (1, 1), (4, 1), (6, 3)]
      hashed := [[1], [4], [2], [5], [3], [6], [1, 2], [4, 5], [2, 3], [5, 6], [1, 2, 3], [4, 5, 6]] }) := by
  decide +kernel

/-- The strategy of a string map with a given result of the analysis. -/
def analysisUses : SliceAnalysis → Strategy → Prop
  | .general, s => s = .classicHashing
  | .length, s => s = .classicHashing
  | .left r, s => s = .leftSubstring r.lo r.hi
  | .right r, s => s = .rightSubstring r.lo r.hi

theorem build_kind [Target] {sort : Sorter (Str × V)} {bhStr bhSlice : Str → Nat} {es : List (Str × V)} {a : SliceAnalysis}
    {m : FzStringMap V} (h : FzStringMap.build sort bhStr bhSlice es a = .ok m) {s : Strategy} :
    StringMapUses m s ↔ analysisUses a s := by
  cases a <;> simp only [FzStringMap.build, bind, Except.bind] at h <;> split at h <;> try cases h
  all_goals
    split at h
    · cases h
    · cases h; exact Iff.rfl

/-- **C69** (string maps).  Building a string map from any entries succeeds; the analysis of the keys compares at most two
pairs of bytes, and hashes at most 32 pieces of at most 16 bytes, for each byte of the keys given.  The pieces recorded are all
that matter: another hasher that agrees on them leads to the same kind of map. -/
theorem c69_string_map [Target] {sort : Sorter (Str × V)} (hsort : SorterOk sort) (bhStr bhSlice : Str → Nat) (es : List (Str × V))
    (hsz : es.length < sizeLimit) :
    ∃ m w, FzStringMap.withHasherT sort bhStr bhSlice es = .ok (m, w) ∧
      FzStringMap.withHasher sort bhStr bhSlice es = .ok m ∧
      w.compared.length ≤ 2 * totalSize (es.map Prod.fst) ∧ w.hashed.length ≤ 32 * totalSize (es.map Prod.fst) ∧
      (∀ x ∈ w.hashed, 1 ≤ x.length ∧ x.length ≤ 16 ∧ ∃ e ∈ es, x <:+: e.1) ∧
      ∀ bhSlice' : Str → Nat, (∀ x ∈ w.hashed, bhSlice' x = bhSlice x) → ∀ m', FzStringMap.withHasher sort bhStr bhSlice' es = .ok m' →
        ∀ s, StringMapUses m' s ↔ StringMapUses m s := by
  obtain ⟨m, hm, -⟩ := FzStringMap.withHasher_spec hsort bhStr bhSlice es hsz
  obtain ⟨w, hw⟩ := ok_of_map_fst (FzStringMap.withHasherT_fst sort bhStr bhSlice es) hm
  refine ⟨m, w, hw, hm, ?_⟩
  unfold FzStringMap.withHasherT at hw
  simp only [bind, Except.bind] at hw
  generalize ha : analyzeSliceKeysT _ _ _ = a at hw
  cases a with
  | error e => cases hw
  | ok a =>
    simp only at hw
    generalize hb : FzStringMap.build sort bhStr bhSlice _ a.1 = b at hw
    cases b with
    | error e => cases hw
    | ok b =>
      have ew : a.2 = w := by cases hw; rfl
      have em : b = m := by cases hw; rfl
      subst em
      subst ew
      obtain ⟨h1, -, h3, h4⟩ := analyzeSliceKeysT_le ha
      have hp := sortedAndDedupped_perm (strCmp_lawful.entry (V := V)) es
      have hsub : (keepLast (fun a b : Str × V => strCmp a.1 b.1 == .eq) es).Sublist es := keepLast_sublist _ _
      have hle : (((usingCmp es (fun x y => strCmp x.1 y.1)).map (fun x => x.1)).map List.length).sum ≤
          totalSize (es.map Prod.fst) := by
        have e1 := ((hp.map (fun x : Str × V => x.1)).map List.length).sum_nat
        have e2 := sum_le_of_sublist ((hsub.map (fun x : Str × V => x.1)).map List.length)
        exact (Nat.le_of_eq e1).trans e2
      refine ⟨by omega, by omega, fun x hx => ?_, fun bhSlice' hh m' hm' s => ?_⟩
      · obtain ⟨c1, c2, k, hk, c3⟩ := h4 x hx
        obtain ⟨e, he, rfl⟩ := List.mem_map.mp hk
        exact ⟨c1, c2, e, hsub.subset (hp.mem_iff.mp he), c3⟩
      · have hc := analyzeSliceKeysT_congr (eqT' := fun x y => x == y) (bh' := bhSlice') ha (fun _ _ => rfl) hh
        unfold FzStringMap.withHasher at hm'
        simp only [bind, Except.bind] at hm'
        rw [← analyzeSliceKeysT_fst, hc] at hm'
        rw [build_kind hb, build_kind hm']

/-- **C69** (hash codes).  Choosing the size of a hash table tries at most five sizes (four from 128 codes on, three from 1000
on), and for each size looks at each code at most once.  The record is complete: the result depends on nothing but the
remainders of the first codes, as many as recorded, modulo the sizes recorded. -/
theorem c69_hash_codes [T : Target] (codes : List Nat) (hsz : codes.length < sizeLimit) :
    ∃ r w, analyzeHashCodesT codes = .ok (r, w) ∧ analyzeHashCodes codes = .ok r ∧
      w.length ≤ (if codes.length < 128 then 5 else if codes.length < 1000 then 4 else 3) ∧
      (∀ c ∈ w, c.2 ≤ codes.length) ∧ (w.map Prod.snd).sum ≤ 5 * codes.length ∧
      ∀ codes' : List Nat, codes'.length = codes.length →
        (∀ p ∈ w, ∀ i, i < p.2 → (codes'[i]?).map (· % p.1) = (codes[i]?).map (· % p.1)) → analyzeHashCodes codes' = .ok r := by
  have hr : ∃ r, analyzeHashCodes codes = .ok r := by
    by_cases hne : codes = []
    · subst hne; exact ⟨(0, 0), by clear hsz; obtain ⟨_, rfl | rfl⟩ := T <;> decide +kernel⟩
    · obtain ⟨s, c, _, _, h, _⟩ := analyzeHashCodes_spec codes hne hsz
      exact ⟨_, h⟩
  obtain ⟨r, hr⟩ := hr
  obtain ⟨w, hw⟩ := ok_of_map_fst (analyzeHashCodesT_fst codes) hr
  obtain ⟨h1, h2⟩ := analyzeHashCodesT_le hw
  refine ⟨r, w, hw, hr, h1, h2, ?_, fun codes' hl hc => by rw [← analyzeHashCodesT_fst, analyzeHashCodesT_congr hw hl hc]; rfl⟩
  have hs : (w.map Prod.snd).sum ≤ w.length * codes.length := by
    have := sum_le_of_forall_le (l := w.map Prod.snd) (m := codes.length) (fun x hx => by
      obtain ⟨c, hc, rfl⟩ := List.mem_map.1 hx
      exact h2 c hc)
    rwa [List.length_map] at this
  have h5 : w.length ≤ 5 := by
    refine h1.trans ?_
    split
    · omega
    · split <;> omega
  exact hs.trans (Nat.mul_le_mul_right _ h5)

attribute [local instance] w64 in
/-- Five codes of which two are equal: all four sizes from 8 to 64 are tried; all but the first are given up at once. -/
example : analyzeHashCodesT [7, 7, 1, 2, 3] = .ok ((8, 1), [(8, 5), (16, 2), (32, 2), (64, 2)]) := by decide +kernel

/-! ## C70 -/

/-- What it would mean for removing duplicates by hash to take time proportional to the number of entries (beside the work of
the hash table): a constant bounds the number of comparisons per entry, for keys that are numbers and hash to themselves. -/
def LinearDedup (find : HbFind) : Prop :=
  ∃ c, ∀ (es kept : List (Nat × Nat)) (w : Nat),
    usingHashT find es (fun x => x.1) (fun x y => x.1 == y.1) = .ok (kept, w) → w ≤ c * es.length

/-- The comparisons of positions made by `using_hash`, exactly. -/
theorem usingHashT_cost {T : Type} {find : HbFind} (hfind : HbFindOk find) {hasher : T → Nat} {eq : T → T → Bool}
    (heq : LawfulEq' eq) (hhash : ∀ a b, eq a b = true → hasher a = hasher b) (entries : List T) :
    ∃ w d, usingHashT find entries hasher eq = .ok (keepLast eq entries, w) ∧
      d + (keepLast eq entries).length = entries.length ∧ 2 * w + d * (d - 1) = 2 * (d * entries.length) := by
  have hk := usingHash_eq_keepLast hfind heq hhash entries
  obtain ⟨w, hw⟩ := ok_of_map_fst (usingHashT_fst find entries hasher eq) hk
  refine ⟨w, entries.length - (keepLast eq entries).length, hw, ?_, ?_⟩
  · have := (keepLast_sublist eq entries).length_le
    omega
  · unfold usingHashT at hw
    unfold usingHash at hk
    by_cases h2 : entries.length ≥ 2
    · rw [if_pos h2] at hw hk
      obtain ⟨D, hD, hmem⟩ := usingHashLoop_spec hfind heq hhash entries entries 0 [] [] rfl (Nat.zero_le _)
        (fun h j hj => by cases hj) (fun j => ⟨fun ⟨_, hj⟩ => (by cases hj), fun hj => absurd hj.1 (Nat.not_lt_zero _)⟩)
        (fun j => ⟨fun hj => (by cases hj), fun hj => absurd hj.1 (Nat.not_lt_zero _)⟩)
      have hnd := usingHashLoop_nodup hfind entries entries 0 [] [] D (fun e he => by cases he) (fun d hd => by cases hd)
        List.nodup_nil hD
      have hlt : ∀ d ∈ D, d < entries.length := fun d hd => ((hmem d).mp hd).1
      simp only [hD, bind, Except.bind] at hw hk
      by_cases he : D.isEmpty = true
      · rw [if_pos he] at hw hk
        have e1 : keepLast eq entries = entries := (Except.ok.inj hk).symm
        have e2 : w = 0 := (congrArg Prod.snd (Except.ok.inj hw)).symm
        rw [e1, e2]
        simp
      · rw [if_neg he] at hw hk
        have e1 : keepLast eq entries = retainNotIn D entries 0 := (Except.ok.inj hk).symm
        have e2 : w = (retainNotInT D entries 0).2 := (congrArg Prod.snd (Except.ok.inj hw)).symm
        have hlen := retainNotIn_length D entries 0
        have hfl := filter_not_mem_length D (List.range' 0 entries.length) List.nodup_range' hnd (fun d hd => by
          rw [List.mem_range'_1]
          exact ⟨Nat.zero_le _, by have := hlt d hd; omega⟩)
        rw [← hlen, List.length_range', ← e1] at hfl
        have hD' : entries.length - (keepLast eq entries).length = D.length := by omega
        rw [hD', e2, retainNotInT_cost]
        exact lookupCost_exact _ D hnd hlt
    · rw [if_neg h2] at hw
      have e2 : w = 0 := (congrArg Prod.snd (Except.ok.inj hw)).symm
      rw [e2, keepLast_short eq entries h2]
      simp

/-- **C70** (exact count).  Building a hash map from `n` entries of which `d` are superseded by later entries with the same
key makes `d * n - d * (d - 1) / 2` comparisons of positions to remove these, in whatever order they come. -/
theorem c70_count [Target] {find : HbFind} (hfind : HbFindOk find) {sort : Sorter (K × V)} (hsort : SorterOk sort)
    {eqK : K → K → Bool} (he : LawfulEq' eqK) {bh : K → Nat} (hh : ∀ a b, eqK a b = true → bh a = bh b)
    (es : List (K × V)) (hsz : es.length < sizeLimit) :
    ∃ m w d, FzHashMap.withHasherT find sort eqK bh es = .ok (m, w) ∧ FzHashMap.withHasher find sort eqK bh es = .ok m ∧
      d + m.table.entries.length = es.length ∧ 2 * w + d * (d - 1) = 2 * (d * es.length) := by
  obtain ⟨m, hm, -, hperm⟩ := FzHashMap.withHasher_spec hfind hsort he hh es hsz
  obtain ⟨w', hw'⟩ := ok_of_map_fst (FzHashMap.withHasherT_fst find sort eqK bh es) hm
  obtain ⟨w, d, h1, h2, h3⟩ := usingHashT_cost (T := K × V) hfind (hasher := fun x => bh x.1)
    (eq := fun x y => eqK x.1 y.1)
    ⟨fun a => he.refl _, fun a b => he.symm _ _, fun a b c => he.trans _ _ _⟩ (fun a b => hh _ _) es
  have e : w' = w := by
    unfold FzHashMap.withHasherT at hw'
    simp only [h1, bind, Except.bind] at hw'
    generalize HashMap.fromDedupped .large sort (bridgeHash bh) _ = b at hw'
    cases b with
    | error e => cases hw'
    | ok b =>
      simp only at hw'
      generalize unwrapR b = c at hw'
      cases c with
      | error e => cases hw'
      | ok c => cases hw'; rfl
  subst e
  refine ⟨m, w', d, hw', hm, ?_, h3⟩
  rw [hperm.length_eq]
  exact h2

/-- Six entries, four of them superseded: 4 * 6 - 6 = 18 comparisons.  (The table is searched by walking its contents.) -/
example : usingHashT (fun _ tbl h p => (tbl.find? (fun e => e.1 == h && p e.2)).map Prod.snd)
    [(1, 0), (2, 1), (1, 2), (1, 3), (2, 4), (1, 5)] (fun x => x.1) (fun x y => x.1 == y.1) =
    .ok ([(2, 4), (1, 5)], 18) := by decide +kernel

/-- **C70** (no duplicates).  Without superseded entries nothing is compared; with `d` of them at most `d` positions are
compared for each entry, so the work is linear as long as the number of duplicates stays bounded.  What is missing is the bound
for many duplicates, where the claim is false (`c70_violated`). -/
theorem c70_few_partial [Target] {find : HbFind} (hfind : HbFindOk find) {sort : Sorter (K × V)} (hsort : SorterOk sort)
    {eqK : K → K → Bool} (he : LawfulEq' eqK) {bh : K → Nat} (hh : ∀ a b, eqK a b = true → bh a = bh b)
    (es : List (K × V)) (hsz : es.length < sizeLimit) :
    ∃ m w, FzHashMap.withHasherT find sort eqK bh es = .ok (m, w) ∧
      (w = 0 ↔ Distinct eqK (es.map Prod.fst)) ∧ w ≤ (es.length - m.table.entries.length) * es.length := by
  obtain ⟨m, w, d, h1, h2, h3, h4⟩ := c70_count hfind hsort he hh es hsz
  obtain ⟨m', hm', -, hperm⟩ := FzHashMap.withHasher_spec hfind hsort he hh es hsz
  have em : m' = m := by rw [h2] at hm'; cases hm'; rfl
  subst em
  have ed : es.length - m'.table.entries.length = d := by omega
  refine ⟨m', w, h1, ?_, by rw [ed]; omega⟩
  have hl := hperm.length_eq
  have hdist : Distinct eqK (es.map Prod.fst) ↔ Distinct (fun a b : K × V => eqK a.1 b.1) es := by
    unfold Distinct
    rw [List.pairwise_map]
  rw [hdist]
  constructor
  · intro hw
    subst hw
    have hd0 : d = 0 := by
      by_contra hne
      have hle : d ≤ es.length := by omega
      obtain ⟨c, rfl⟩ : ∃ c, d = c + 1 := ⟨d - 1, by omega⟩
      simp only [Nat.add_sub_cancel] at h4
      have : (c + 1) * c < (c + 1) * es.length := Nat.mul_lt_mul_of_pos_left (by omega) (by omega)
      omega
    have hs : survivors eqK es = es := (keepLast_sublist _ es).eq_of_length (by
      show (survivors eqK es).length = es.length
      omega)
    rw [← hs]
    exact keepLast_distinct _
  · intro hdis
    have hs : survivors eqK es = es := keepLast_of_distinct hdis
    rw [hs] at hl
    have hd0 : d = 0 := by omega
    subst hd0
    omega

/-- **C70** (many duplicates).  As soon as half of the entries are superseded, the number of comparisons is quadratic: at
least three eighths of the square of the number of entries. -/
theorem c70_quadratic [Target] {find : HbFind} (hfind : HbFindOk find) {sort : Sorter (K × V)} (hsort : SorterOk sort)
    {eqK : K → K → Bool} (he : LawfulEq' eqK) {bh : K → Nat} (hh : ∀ a b, eqK a b = true → bh a = bh b)
    (es : List (K × V)) (hsz : es.length < sizeLimit) (hhalf : 2 * (survivors eqK es).length ≤ es.length) :
    ∃ m w, FzHashMap.withHasherT find sort eqK bh es = .ok (m, w) ∧ 3 * es.length ^ 2 ≤ 8 * w := by
  obtain ⟨m, w, d, h1, h2, h3, h4⟩ := c70_count hfind hsort he hh es hsz
  obtain ⟨m', hm', -, hperm⟩ := FzHashMap.withHasher_spec hfind hsort he hh es hsz
  have em : m' = m := by rw [h2] at hm'; cases hm'; rfl
  subst em
  have hl := hperm.length_eq
  refine ⟨m', w, h1, ?_⟩
  generalize es.length = n at *
  have hd1 : n ≤ 2 * d := by omega
  have hd2 : d ≤ n := by omega
  cases d with
  | zero =>
    have : n = 0 := by omega
    subst this
    simp
  | succ c =>
    simp only [Nat.add_sub_cancel] at h4
    nlinarith

/-- **C70** (false).  No constant bounds the number of comparisons per entry. -/
theorem c70_violated {find : HbFind} (hfind : HbFindOk find) : ¬ LinearDedup find := by
  rintro ⟨c, hc⟩
  obtain ⟨w, d, h1, h2, h3⟩ := usingHashT_cost (T := Nat × Nat) hfind (hasher := fun x => x.1)
    (eq := fun x y => x.1 == y.1) ⟨fun a => by simp, fun a b h => by simpa using (by simpa using h : a.1 = b.1).symm,
      fun a b d h1 h2 => by simpa using (by simpa using h1 : a.1 = b.1).trans (by simpa using h2)⟩
    (fun a b h => by simpa using h) (List.replicate (2 * c + 2) (0, 0))
  have hk : ∀ n, (keepLast (fun x y : Nat × Nat => x.1 == y.1) (List.replicate (n + 1) (0, 0))).length = 1 := by
    intro n
    induction n with
    | zero => rfl
    | succ n ih =>
      rw [List.replicate_succ, keepLast, if_pos (by simp [List.replicate_succ])]
      exact ih
  have := hc _ _ w h1
  rw [hk (2 * c + 1), List.length_replicate] at h2
  rw [List.length_replicate] at h3 this
  have hd : d = 2 * c + 1 := by omega
  subst hd
  simp only [Nat.add_sub_cancel] at h3
  nlinarith

/-- **C70** (scan maps).  Duplicate removal by comparing all pairs, as done for scan maps, calls the comparison at most
`n * (n - 1) / 2` times, and exactly so often if the entries are distinct; its result is that of the uncounted function. -/
theorem c70_pairwise {T : Type} (eq : T → T → Bool) (es : List T) :
    (usingEqT es eq).1 = usingEq es eq ∧ 2 * (usingEqT es eq).2 ≤ es.length * (es.length - 1) ∧
      (Distinct eq es → 2 * (usingEqT es eq).2 = es.length * (es.length - 1)) := by
  refine ⟨usingEqT_fst es eq, ?_, fun hd => ?_⟩
  · unfold usingEqT
    split
    · exact usingEqDupesT_snd_le eq es 0
    · exact Nat.zero_le _
  · unfold usingEqT
    split
    · exact usingEqDupesT_snd_distinct eq es 0 hd
    · rename_i h
      have : es.length = 0 ∨ es.length = 1 := by omega
      rcases this with h | h <;> simp [h]

example : (usingEqT [3, 1, 2, 1] (fun a b : Nat => a == b)) = ([3, 2, 1], 6) := by decide +kernel

end Frozen.Props
