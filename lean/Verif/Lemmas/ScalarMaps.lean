import Verif.Model.ScalarAnalyzer
import Verif.Lemmas.Maps

/-!
# Dense and sparse scalar maps: construction lemmas; the scalar analyzer
-/

namespace Frozen.Model

open Frozen.Spec

variable {Q K V : Type}

theorem subM_ok [Target] (b : Build) {x y : Nat} (h : y ≤ x) : subM b x y = .ok (x - y) := by
  unfold subM; rw [if_pos h]

theorem addM_ok [Target] (b : Build) {x y : Nat} (h : x + y ≤ usizeMax) : addM b x y = .ok (x + y) := by
  unfold addM; rw [if_pos h]

/-! ## Dense -/

/-- On a strictly ascending list whose indices fill the range, the dense map is built and is valid. -/
theorem DenseMap.fromSortedAndDedupped_spec [Target] (b : Build) {cmp : K → K → Ordering} {index : K → Nat}
    (h : LawfulScalar cmp index) {S : List (K × V)} (hs : S.Pairwise (fun a b => cmp a.1 b.1 = .lt)) {f l : K × V}
    (hf : S[0]? = some f) (hl : S[S.length - 1]? = some l) (hc : index l.1 + 1 - index f.1 = S.length) :
    ∃ m, DenseMap.fromSortedAndDedupped b index S = .ok m ∧ DenseMap.Inv index m ∧ m.entries = S := by
  have hne : S ≠ [] := by rintro rfl; simp at hf
  have hlen : 0 < S.length := List.length_pos_iff.2 hne
  obtain ⟨f', l', hf', hl', _, hall⟩ := ascending_ends h hs hne
  rw [hf] at hf'; cases hf'
  rw [hl] at hl'; cases hl'
  refine ⟨⟨index f.1, index l.1, S⟩, by simp only [DenseMap.fromSortedAndDedupped, idx_ok hf, subM_ok b hlen, idx_ok hl, bind, Except.bind], ?_, rfl⟩
  constructor
  · intro i e he
    have h1 := hall i e he
    have h2 := (List.getElem?_eq_some_iff.1 he).1
    simp only at *
    omega
  · exact hc.symm

/-- The indices of the list fill the range between the first and the last exactly when every value in between is
the index of some entry. -/
theorem contiguous_iff [Target] {cmp : K → K → Ordering} {index : K → Nat}
    (h : LawfulScalar cmp index) {S : List (K × V)} (hs : S.Pairwise (fun a b => cmp a.1 b.1 = .lt)) {f l : K × V}
    (hf : S[0]? = some f) (hl : S[S.length - 1]? = some l) :
    index l.1 + 1 - index f.1 = S.length ↔
      ∀ a b c, a ∈ S.map (fun e => index e.1) → b ∈ S.map (fun e => index e.1) → a ≤ c → c ≤ b →
        c ∈ S.map (fun e => index e.1) := by
  have hne : S ≠ [] := by rintro rfl; simp at hf
  have hlen : 0 < S.length := List.length_pos_iff.2 hne
  obtain ⟨f', l', hf', hl', hfl, hall⟩ := ascending_ends h hs hne
  rw [hf] at hf'; cases hf'
  rw [hl] at hl'; cases hl'
  have hasc := index_ascending h hs
  constructor
  · intro hc a b c ha hb hac hcb
    rw [List.mem_map] at ha hb
    obtain ⟨ea, hea, rfl⟩ := ha
    obtain ⟨eb, heb, rfl⟩ := hb
    obtain ⟨i, hi⟩ := List.getElem?_of_mem hea
    obtain ⟨j, hj⟩ := List.getElem?_of_mem heb
    have h1 := hall i ea hi
    have h2 := hall j eb hj
    have hlt : c - index f.1 < S.length := by omega
    have h3 := hall _ _ (List.getElem?_eq_getElem hlt)
    rw [List.mem_map]
    exact ⟨S[c - index f.1], List.getElem_mem hlt, by omega⟩
  · intro hconv
    have hfm : index f.1 ∈ S.map (fun e => index e.1) := List.mem_map.2 ⟨f, List.mem_of_getElem? hf, rfl⟩
    have hlm : index l.1 ∈ S.map (fun e => index e.1) := List.mem_map.2 ⟨l, List.mem_of_getElem? hl, rfl⟩
    have hperm : (S.map (fun e => index e.1)).Perm (List.range' (index f.1) (index l.1 + 1 - index f.1)) := by
      rw [List.perm_ext_iff_of_nodup (hasc.imp (fun h => Nat.ne_of_lt h)) List.nodup_range']
      intro c
      rw [List.mem_range'_1]
      constructor
      · intro hcm
        rw [List.mem_map] at hcm
        obtain ⟨e, he, rfl⟩ := hcm
        obtain ⟨i, hi⟩ := List.getElem?_of_mem he
        have := hall i e hi
        omega
      · rintro ⟨h1, h2⟩
        exact hconv _ _ c hfm hlm h1 (by omega)
    have := hperm.length_eq
    rw [List.length_map, List.length_range'] at this
    exact this.symm

/-! ## Sparse -/

/-- Every slot of `lookup` says whether (and where) the entry with the corresponding index is. -/
structure SparseMap.Inv (index : K → Nat) (m : SparseMap K V) : Prop where
  size : m.lookup.length = m.max + 1 - m.min
  slot : ∀ j v, m.lookup[j]? = some v →
    (v = 0 ∧ ∀ e ∈ m.entries, index e.1 ≠ m.min + j) ∨
    (∃ i e, v = i + 1 ∧ m.entries[i]? = some e ∧ index e.1 = m.min + j)
  range : ∀ e ∈ m.entries, m.min ≤ index e.1 ∧ index e.1 ≤ m.max
  distinct : m.entries.Pairwise (fun a b => index a.1 ≠ index b.1)

theorem SparseMap.lawful [Target] {cmp : K → K → Ordering} {index : K → Nat} (h : LawfulScalar cmp index) (qindex : Q → Nat) :
    LawfulMap (SparseMap.impl (V := V) qindex) (fun a b => cmp a b == .eq) (scalarMatch index qindex)
      (SparseMap.Inv index) := by
  refine LawfulMap.of_pos (h.query qindex) ?_ ?_ (fun m _ => rfl) (fun m _ i v => rfl) ?_
  · intro m hm
    refine hm.distinct.imp ?_
    intro a b hab
    simp only [entryEq]
    rw [h.eq_iff]
    simpa using hab
  · intro m hm q
    simp only [SparseMap.impl, SparseMap.get, SparseMap.getMut, SparseMap.getKeyValue, SparseMap.containsKey]
    by_cases hr : qindex q ≥ m.min ∧ qindex q ≤ m.max
    · have hlt : qindex q - m.min < m.lookup.length := by rw [hm.size]; omega
      have hg : m.lookup[qindex q - m.min]? = some m.lookup[qindex q - m.min] := List.getElem?_eq_getElem hlt
      rcases hm.slot _ _ hg with ⟨h0, hn⟩ | ⟨i, e, h1, he, hi⟩
      · left
        rw [h0] at hg
        simp only [if_pos hr, getUnchecked_ok hg, bind, Except.bind]
        refine ⟨by trivial, by trivial, by trivial, by trivial, ?_⟩
        intro e he
        have := hn e he
        simp only [scalarMatch, beq_eq_false_iff_ne]
        omega
      · right
        rw [h1] at hg
        refine ⟨i, e, he, ?_, ?_⟩
        · simp only [scalarMatch, hi, beq_iff_eq]; omega
        · have hp : (i + 1 > 0) := by omega
          simp only [if_pos hr, getUnchecked_ok hg, bind, Except.bind, if_pos hp, Nat.add_sub_cancel, getUnchecked_ok he]
          exact ⟨by trivial, by trivial, by trivial, by trivial⟩
    · left
      simp only [if_neg hr, bind, Except.bind]
      refine ⟨by trivial, by trivial, by trivial, by trivial, ?_⟩
      intro e he
      have := hm.range e he
      simp only [scalarMatch, beq_eq_false_iff_ne]
      omega
  · intro m hm i v
    constructor
    · exact hm.size
    · intro j w hw
      rcases hm.slot j w hw with ⟨h0, hn⟩ | ⟨i', e, h1, he, hi⟩
      · left
        refine ⟨h0, ?_⟩
        intro e he
        obtain ⟨e', he', hk⟩ := writeAt_mem_key he
        rw [← hk]
        exact hn e' he'
      · right
        obtain ⟨e', he', hk⟩ := writeAt_key' i v he
        exact ⟨i', e', h1, he', by rw [hk]; exact hi⟩
    · intro e he
      obtain ⟨e', he', hk⟩ := writeAt_mem_key he
      rw [← hk]
      exact hm.range e' he'
    · have := hm.distinct
      simp only [SparseMap.impl]
      rw [← List.pairwise_map (f := Prod.fst) (R := fun a b => index a ≠ index b)] at this ⊢
      rw [writeAt_map_fst]; exact this

theorem SparseMap.default_inv (index : K → Nat) : SparseMap.Inv index (SparseMap.default : SparseMap K V) where
  size := rfl
  slot := by intro j v h; simp [SparseMap.default] at h
  range := by intro e h; simp [SparseMap.default] at h
  distinct := List.Pairwise.nil

theorem fillLookup_spec [Target] (b : Build) (index : K → Nat) (mn : Nat) :
    ∀ (rest : List (K × V)) (i : Nat) (L : List Nat),
      rest.Pairwise (fun a b => index a.1 ≠ index b.1) →
      (∀ e ∈ rest, mn ≤ index e.1 ∧ index e.1 - mn < L.length) →
      ∃ L', fillLookup b index mn rest i L = .ok L' ∧ L'.length = L.length ∧
        (∀ p e, rest[p]? = some e → L'[index e.1 - mn]? = some (i + p + 1)) ∧
        (∀ j, (∀ e ∈ rest, index e.1 ≠ mn + j) → L'[j]? = L[j]?)
  | [], i, L, _, _ => ⟨L, rfl, rfl, by simp, by simp⟩
  | e :: rest, i, L, hd, hb => by
    rw [List.pairwise_cons] at hd
    obtain ⟨h1, h2⟩ := hb e (by simp)
    obtain ⟨L', hL', hlen, hpos, hother⟩ := fillLookup_spec b index mn rest (i + 1) (L.set (index e.1 - mn) (i + 1)) hd.2
      (by
        intro e' he'
        rw [List.length_set]
        exact hb e' (by simp [he']))
    refine ⟨L', ?_, by simpa using hlen, ?_, ?_⟩
    · unfold fillLookup
      simp only [subM_ok b h1, bind, Except.bind, setIdx, if_pos h2, hL']
    · intro p e' hp
      cases p with
      | zero =>
        simp only [List.getElem?_cons_zero, Option.some.injEq] at hp
        subst hp
        rw [hother]
        · rw [List.getElem?_set_self h2]
        · intro e'' he''
          have := hd.1 e'' he''
          omega
      | succ p =>
        rw [hpos p e' (by simpa using hp)]
        congr 1; omega
    · intro j hj
      rw [hother j (fun e' he' => hj e' (by simp [he']))]
      rw [List.getElem?_set_ne]
      have := hj e (by simp)
      omega

theorem SparseMap.fromSortedAndDedupped_spec [Target] (b : Build) {cmp : K → K → Ordering} {index : K → Nat}
    (h : LawfulScalar cmp index) {S : List (K × V)} (hs : S.Pairwise (fun a b => cmp a.1 b.1 = .lt)) {f l : K × V}
    (hf : S[0]? = some f) (hl : S[S.length - 1]? = some l) (hsz : index l.1 + 1 - index f.1 < wordLimit) :
    ∃ m, SparseMap.fromSortedAndDedupped b index S = .ok m ∧ SparseMap.Inv index m ∧ m.entries = S := by
  have hne : S ≠ [] := by rintro rfl; simp at hf
  have hlen : 0 < S.length := List.length_pos_iff.2 hne
  obtain ⟨f', l', hf', hl', hfl, hall⟩ := ascending_ends h hs hne
  rw [hf] at hf'; cases hf'
  rw [hl] at hl'; cases hl'
  have hle : index f.1 ≤ index l.1 := by omega
  have hadd : index l.1 - index f.1 + 1 ≤ usizeMax := by have hu := target_cases; omega
  have hdist : S.Pairwise (fun a b => index a.1 ≠ index b.1) := by
    have := index_ascending h hs
    rw [List.pairwise_map] at this
    exact this.imp (fun h => Nat.ne_of_lt h)
  have hrange : ∀ e ∈ S, index f.1 ≤ index e.1 ∧ index e.1 ≤ index l.1 := by
    intro e he
    obtain ⟨i, hi⟩ := List.getElem?_of_mem he
    have := hall i e hi
    omega
  obtain ⟨L', hL', hlen', hpos, hother⟩ := fillLookup_spec b index (index f.1) S 0
    (List.replicate (index l.1 - index f.1 + 1) 0) hdist (by
      intro e he
      have := hrange e he
      rw [List.length_replicate]
      omega)
  rw [List.length_replicate] at hlen'
  refine ⟨⟨index f.1, index l.1, L', S⟩, by simp only [SparseMap.fromSortedAndDedupped, idx_ok hf, subM_ok b hlen, idx_ok hl, subM_ok b hle,
    addM_ok b hadd, vecZeroed_eq, if_pos (show index l.1 - index f.1 + 1 < wordLimit by omega), hL', bind, Except.bind], ?_, rfl⟩
  constructor
  · simp only [hlen']; omega
  · intro j v hv
    simp only at hv ⊢
    by_cases hex : ∃ e ∈ S, index e.1 = index f.1 + j
    · right
      obtain ⟨e, he, hj⟩ := hex
      obtain ⟨p, hp⟩ := List.getElem?_of_mem he
      have h1 := hpos p e hp
      rw [hj, Nat.add_sub_cancel_left, hv, Option.some.injEq] at h1
      exact ⟨p, e, by omega, hp, hj⟩
    · left
      have hn : ∀ e ∈ S, index e.1 ≠ index f.1 + j := fun e he heq => hex ⟨e, he, heq⟩
      have h1 := hother j hn
      rw [hv] at h1
      obtain ⟨_, h3⟩ := List.getElem?_eq_some_iff.1 h1.symm
      rw [List.getElem_replicate] at h3
      exact ⟨h3.symm, hn⟩
  · exact hrange
  · exact hdist

/-! ## The analyzer -/

theorem scalarScan_foldl (l : List Nat) (mn mx c : Nat) :
    l.foldl (fun (mn, mx, c) i => (min mn i, max mx i, c + 1)) (mn, mx, c) =
      (l.foldl min mn, l.foldl max mx, c + l.length) := by
  induction l generalizing mn mx c with
  | nil => rfl
  | cons x xs ih => simp only [List.foldl_cons, ih, List.length_cons]; congr 2; omega

theorem foldl_min_spec (l : List Nat) (a : Nat) :
    (∀ x ∈ l, l.foldl min a ≤ x) ∧ l.foldl min a ≤ a ∧ (l.foldl min a = a ∨ l.foldl min a ∈ l) := by
  induction l generalizing a with
  | nil => simp
  | cons x xs ih =>
    obtain ⟨h1, h2, h3⟩ := ih (min a x)
    simp only [List.foldl_cons]
    refine ⟨?_, by omega, ?_⟩
    · intro y hy
      rw [List.mem_cons] at hy
      rcases hy with rfl | hy
      · omega
      · exact h1 y hy
    · rcases h3 with h3 | h3
      · rw [h3]
        rcases Nat.le_total a x with hle | hle
        · left; omega
        · right; rw [Nat.min_eq_right hle]; simp
      · right; exact List.mem_cons_of_mem _ h3

theorem foldl_max_spec (l : List Nat) (a : Nat) :
    (∀ x ∈ l, x ≤ l.foldl max a) ∧ a ≤ l.foldl max a ∧ (l.foldl max a = a ∨ l.foldl max a ∈ l) := by
  induction l generalizing a with
  | nil => simp
  | cons x xs ih =>
    obtain ⟨h1, h2, h3⟩ := ih (max a x)
    simp only [List.foldl_cons]
    refine ⟨?_, by omega, ?_⟩
    · intro y hy
      rw [List.mem_cons] at hy
      rcases hy with rfl | hy
      · omega
      · exact h1 y hy
    · rcases h3 with h3 | h3
      · rw [h3]
        rcases Nat.le_total a x with hle | hle
        · right; rw [Nat.max_eq_right hle]; simp
        · left; omega
      · right; exact List.mem_cons_of_mem _ h3

/-- `min`, `max` and `count` computed by the analyzer on a non-empty list of `usize`. -/
theorem scalarScan_spec [Target] {l : List Nat} (hne : l ≠ []) (hb : ∀ x ∈ l, x ≤ usizeMax) :
    ∃ mn mx, scalarScan l = (mn, mx, l.length) ∧ mn ∈ l ∧ mx ∈ l ∧ (∀ x ∈ l, mn ≤ x ∧ x ≤ mx) := by
  unfold scalarScan
  rw [scalarScan_foldl]
  obtain ⟨a1, a2, a3⟩ := foldl_min_spec l usizeMax
  obtain ⟨b1, b2, b3⟩ := foldl_max_spec l 0
  obtain ⟨x, hx⟩ := List.exists_mem_of_ne_nil l hne
  refine ⟨_, _, by rw [Nat.zero_add], ?_, ?_, fun y hy => ⟨a1 y hy, b1 y hy⟩⟩
  · rcases a3 with h | h
    · have h1 := a1 x hx
      have h2 := hb x hx
      rw [h] at h1
      rw [h, Nat.le_antisymm h1 h2]; exact hx
    · exact h
  · rcases b3 with h | h
    · have h1 := b1 x hx
      rw [h] at h1
      rw [h, ← Nat.le_zero.1 h1]; exact hx
    · exact h

/-- The analyzer on a non-empty list whose extremes do not span the whole of `usize`. -/
theorem analyzeScalarKeys_spec [Target] (b : Build) {l : List Nat} (hb : ∀ x ∈ l, x ≤ usizeMax)
    {mn mx : Nat} (hmn : mn ∈ l) (hmx : mx ∈ l) (hall : ∀ x ∈ l, mn ≤ x ∧ x ≤ mx) (hspan : mx - mn < usizeMax) :
    analyzeScalarKeys b l = .ok (scalarDecide (mx - mn + 1) l.length) := by
  have hne : l ≠ [] := List.ne_nil_of_mem hmn
  obtain ⟨mn', mx', h1, h2, h3, h4⟩ := scalarScan_spec hne hb
  have e1 : mn' = mn := Nat.le_antisymm (h4 mn hmn).1 (hall mn' h2).1
  have e2 : mx' = mx := Nat.le_antisymm (hall mx' h3).2 (h4 mx hmx).2
  subst e1 e2
  unfold analyzeScalarKeys
  rw [h1]
  have hle := (hall mx' h3).1
  have hl : l.length ≠ 0 := fun h => hne (List.length_eq_zero_iff.1 h)
  simp only [if_neg hl, subM_ok b hle, addM_ok b (show mx' - mn' + 1 ≤ usizeMax by omega), bind, Except.bind]

end Frozen.Model
