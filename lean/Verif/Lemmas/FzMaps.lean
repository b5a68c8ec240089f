import Verif.Lemmas.ScalarMaps
import Verif.Lemmas.SliceAnalyzer
import Verif.Model.FzMaps

/-! # Lemmas: the four public map types -/

namespace Frozen.Model

open Frozen Frozen.Spec

variable {Q K V : Type}

theorem survivors_distinct (eqK : K → K → Bool) (es : List (K × V)) : Distinct (entryEq eqK) (survivors eqK es) :=
  keepLast_distinct es

theorem survivors_length_le (eqK : K → K → Bool) (es : List (K × V)) : (survivors eqK es).length ≤ es.length :=
  (keepLast_sublist _ es).length_le

theorem survivors_mem {eqK : K → K → Bool} {es : List (K × V)} {e : K × V} (h : e ∈ survivors eqK es) : e ∈ es :=
  (keepLast_sublist _ es).subset h

/-! ## FzHashMap -/

theorem FzHashMap.withHasher_spec [Target] {find : HbFind} (hfind : HbFindOk find) {sort : Sorter (K × V)}
    (hsort : SorterOk sort) {eqK : K → K → Bool} (he : LawfulEq' eqK) {bh : K → Nat}
    (hh : ∀ a b, eqK a b = true → bh a = bh b) (es : List (K × V)) (hsz : es.length < sizeLimit) :
    ∃ m, FzHashMap.withHasher find sort eqK bh es = .ok m ∧ HashMap.Inv eqK bh m ∧
      m.table.entries.Perm (survivors eqK es) := by
  have hlen := survivors_length_le eqK es
  obtain ⟨m, h1, h2, h3⟩ := (HashMap.fromDedupped_spec .large hsort he (hK := bridgeHash bh) (hk := bh)
    (fun _ => rfl) (survivors_distinct eqK es) (by omega)).1 (by
      show _ ≤ usizeMax
      have hu := target_cases; omega)
  refine ⟨m, ?_, h2, h3⟩
  unfold FzHashMap.withHasher
  rw [usingHash_eq_keepLast hfind he.entry (fun a b h => hh _ _ h)]
  show (do let r ← HashMap.fromDedupped .large sort (bridgeHash bh) (survivors eqK es); unwrapR r) = _
  rw [h1]
  rfl

/-! ## FzScalarMap -/

/-- Invariant of `FzScalarMap`. -/
def FzScalarMap.Inv (cmp : K → K → Ordering) (index : K → Nat) : FzScalarMap K V → Prop
  | .hash m => HashMap.Inv (fun a b => cmp a b == .eq) index m
  | .dense m => DenseMap.Inv index m
  | .sparse m => SparseMap.Inv index m

theorem _root_.Frozen.Spec.LawfulScalar.hash [Target] {cmp : K → K → Ordering} {index : K → Nat} (h : LawfulScalar cmp index) (qindex : Q → Nat) :
    LawfulHash (fun a b => cmp a b == .eq) (scalarMatch index qindex) index qindex where
  key a b hab := by
    rw [h.eq_iff] at hab
    exact eq_of_beq hab
  query q a hqa := eq_of_beq hqa

theorem FzScalarMap.lawful [Target] {cmp : K → K → Ordering} {index : K → Nat} (h : LawfulScalar cmp index) (qindex : Q → Nat) :
    LawfulMap (FzScalarMap.impl (V := V) qindex (scalarMatch index qindex)) (fun a b => cmp a b == .eq)
      (scalarMatch index qindex) (FzScalarMap.Inv cmp index) := by
  have LH := HashMap.lawful (V := V) (h.query qindex) (h.hash qindex) (hQ := scalarHash qindex) (fun _ => rfl)
  have LD := DenseMap.lawful (V := V) h qindex
  have LS := SparseMap.lawful (V := V) h qindex
  constructor
  · intro m hm; cases m with
    | hash m => exact LH.get m hm
    | dense m => exact LD.get m hm
    | sparse m => exact LS.get m hm
  · intro m hm; cases m with
    | hash m => exact LH.getMut m hm
    | dense m => exact LD.getMut m hm
    | sparse m => exact LS.getMut m hm
  · intro m hm; cases m with
    | hash m => exact LH.getKeyValue m hm
    | dense m => exact LD.getKeyValue m hm
    | sparse m => exact LS.getKeyValue m hm
  · intro m hm; cases m with
    | hash m => exact LH.containsKey m hm
    | dense m => exact LD.containsKey m hm
    | sparse m => exact LS.containsKey m hm
  · intro m hm; cases m with
    | hash m => exact LH.len m hm
    | dense m => exact LD.len m hm
    | sparse m => exact LS.len m hm
  · intro m hm; cases m with
    | hash m => exact LH.distinct m hm
    | dense m => exact LD.distinct m hm
    | sparse m => exact LS.distinct m hm
  · intro m hm; cases m with
    | hash m => exact LH.write_entries m hm
    | dense m => exact LD.write_entries m hm
    | sparse m => exact LS.write_entries m hm
  · intro m hm; cases m with
    | hash m => exact LH.write_inv m hm
    | dense m => exact LD.write_inv m hm
    | sparse m => exact LS.write_inv m hm

theorem scalarDecide_sparse [Target] {needed count : Nat} (h : scalarDecide needed count = .sparseRange) :
    needed ≤ 128 ∨ needed < 10 * count := by
  unfold scalarDecide at h
  split at h
  · cases h
  · split at h
    · rename_i h1
      simp only [alwaysSparseThreshold, maxSparseMultiplier, satMul] at h1
      omega
    · cases h

theorem scalarDecide_dense [Target] {needed count : Nat} (h : scalarDecide needed count = .denseRange) : needed = count := by
  unfold scalarDecide at h
  split at h
  · assumption
  · split at h <;> cases h

theorem FzScalarMap.build_spec [Target] (b : Build) {sort : Sorter (K × V)} (hsort : SorterOk sort) {cmp : K → K → Ordering}
    {index : K → Nat} (h : LawfulScalar cmp index) {S : List (K × V)}
    (hs : S.Pairwise (fun a b => cmp a.1 b.1 = .lt)) {f l : K × V} (hf : S[0]? = some f)
    (hl : S[S.length - 1]? = some l) (hfl : index f.1 ≤ index l.1) (hsz : S.length < tableLimit) :
    ∃ m, FzScalarMap.build b sort index S (scalarDecide (index l.1 - index f.1 + 1) S.length) = .ok m ∧
      FzScalarMap.Inv cmp index m ∧ m.entries.Perm S := by
  have hu := target_cases
  cases hd : scalarDecide (index l.1 - index f.1 + 1) S.length with
  | denseRange =>
    have := scalarDecide_dense hd
    obtain ⟨m, h1, h2, h3⟩ := DenseMap.fromSortedAndDedupped_spec b h hs hf hl (by omega)
    refine ⟨.dense m, ?_, h2, by rw [← h3]; exact List.Perm.refl _⟩
    simp only [FzScalarMap.build, h1, bind, Except.bind]
  | sparseRange =>
    have := scalarDecide_sparse hd
    obtain ⟨m, h1, h2, h3⟩ := SparseMap.fromSortedAndDedupped_spec b h hs hf hl (by omega)
    refine ⟨.sparse m, ?_, h2, by rw [← h3]; exact List.Perm.refl _⟩
    simp only [FzScalarMap.build, h1, bind, Except.bind]
  | general =>
    obtain ⟨m, h1, h2, h3⟩ := (HashMap.fromDedupped_spec .large hsort (LawfulCmp'.eqLawful h.lawfulCmp)
      (hK := scalarHash index) (hk := index) (fun _ => rfl) (Pairwise_lt_distinct hs) (by omega)).1 (by
        show _ ≤ usizeMax
        have hu := target_cases; omega)
    refine ⟨.hash m, ?_, h2, h3⟩
    simp only [FzScalarMap.build, h1, bind, Except.bind, unwrapR]

theorem FzScalarMap.new_spec [Target] (b : Build) {sort : Sorter (K × V)} (hsort : SorterOk sort) {cmp : K → K → Ordering}
    {index : K → Nat} (h : LawfulScalar cmp index) (es : List (K × V)) (hsz : es.length < tableLimit)
    (hspan : ∀ x ∈ es, ∀ y ∈ es, index x.1 - index y.1 < usizeMax) :
    ∃ m, FzScalarMap.new b sort cmp index es = .ok m ∧ FzScalarMap.Inv cmp index m ∧
      m.entries.Perm (survivors (fun a b => cmp a b == .eq) es) := by
  have hp := sortedAndDedupped_survivors h.lawfulCmp es
  have hs := sortedAndDedupped_strict (h.lawfulCmp.entry (V := V)) es
  have hsl := survivors_length_le (fun a b => cmp a b == .eq) es
  have hmem : ∀ e ∈ sortedAndDedupped es (fun x y => cmp x.1 y.1), e ∈ es := fun e he =>
    survivors_mem (hp.mem_iff.1 he)
  have hl := hp.length_eq
  unfold FzScalarMap.new
  generalize sortedAndDedupped es (fun x y => cmp x.1 y.1) = S at *
  simp only []
  by_cases hne : S = []
  · subst hne
    obtain ⟨m, h1, h2, h3⟩ := (HashMap.fromDedupped_spec .large hsort (LawfulCmp'.eqLawful h.lawfulCmp)
      (hK := scalarHash index) (hk := index) (fun _ => rfl) (Pairwise_lt_distinct hs) (by simp)).1 (by simp)
    refine ⟨.hash m, ?_, h2, h3.trans hp⟩
    simp only [List.map_nil, analyzeScalarKeys, scalarScan, List.foldl_nil, bind, Except.bind, FzScalarMap.build, h1,
      unwrapR, if_true]
  · obtain ⟨f, l, hf, hl', hfl, hall⟩ := ascending_ends h hs hne
    have hfm := List.mem_of_getElem? hf
    have hlm := List.mem_of_getElem? hl'
    have hA := analyzeScalarKeys_spec b (l := S.map (fun e => index e.1)) (by
        intro x hx
        obtain ⟨e, _, rfl⟩ := List.mem_map.1 hx
        exact h.bound _) (mn := index f.1) (mx := index l.1)
      (List.mem_map.2 ⟨f, hfm, rfl⟩) (List.mem_map.2 ⟨l, hlm, rfl⟩) (by
        intro x hx
        obtain ⟨e, he, rfl⟩ := List.mem_map.1 hx
        obtain ⟨i, hi⟩ := List.getElem?_of_mem he
        have := hall i e hi
        omega) (hspan l (hmem l hlm) f (hmem f hfm))
    rw [hA]
    simp only [bind, Except.bind, List.length_map]
    obtain ⟨m, h1, h2, h3⟩ := FzScalarMap.build_spec b hsort h hs hf hl' (by omega) (by omega)
    exact ⟨m, h1, h2, h3.trans hp⟩

/-! ## FzStringMap -/

theorem strCmp_lawful : LawfulCmp strCmp where
  refl a := by
    induction a with
    | nil => rfl
    | cons x xs ih => simp [strCmp, ih]
  swap a := by
    induction a with
    | nil => intro b; cases b <;> rfl
    | cons x xs ih =>
      intro b
      cases b with
      | nil => rfl
      | cons y ys =>
        simp only [strCmp]
        by_cases h1 : x.toNat < y.toNat
        · rw [if_pos h1, if_neg (by omega), if_pos h1]; rfl
        · by_cases h2 : y.toNat < x.toNat
          · rw [if_neg h1, if_pos h2, if_pos h2]; rfl
          · rw [if_neg h1, if_neg h2, if_neg h2, if_neg h1, ih ys]
  trans a := by
    induction a with
    | nil => intro b c _ _; cases c <;> simp [strCmp]
    | cons x xs ih =>
      intro b c hab hbc
      cases b with
      | nil => simp [strCmp] at hab
      | cons y ys =>
        cases c with
        | nil => simp [strCmp] at hbc
        | cons z zs =>
          simp only [strCmp] at hab hbc ⊢
          have h1 : ¬ y.toNat < x.toNat := by
            intro h; rw [if_neg (by omega), if_pos h] at hab; exact hab rfl
          have h2 : ¬ z.toNat < y.toNat := by
            intro h; rw [if_neg (by omega), if_pos h] at hbc; exact hbc rfl
          by_cases h3 : x.toNat < z.toNat
          · rw [if_pos h3]; simp
          · rw [if_neg h3, if_neg (by omega)]
            rw [if_neg (by omega), if_neg h1] at hab
            rw [if_neg (by omega), if_neg h2] at hbc
            exact ih ys zs hab hbc

theorem strCmp_eq_iff (a b : Str) : strCmp a b = .eq ↔ a = b := by
  induction a generalizing b with
  | nil => cases b <;> simp [strCmp]
  | cons x xs ih =>
    cases b with
    | nil => simp [strCmp]
    | cons y ys =>
      simp only [strCmp]
      by_cases h1 : x.toNat < y.toNat
      · rw [if_pos h1]; simp; intro h; subst h; omega
      · rw [if_neg h1]
        by_cases h2 : y.toNat < x.toNat
        · rw [if_pos h2]; simp; intro h; subst h; omega
        · rw [if_neg h2, ih]
          have : x = y := UInt8.toNat_inj.1 (by omega)
          simp [this]

theorem strCmp_beq (a b : Str) : (strCmp a b == .eq) = strEq a b := by
  rw [Bool.eq_iff_iff]
  simp [strEq, strCmp_eq_iff]

theorem strCmp_beq' : (fun a b => strCmp a b == .eq) = strEq := by funext a b; exact strCmp_beq a b

theorem strEq_lawful : LawfulEq' strEq := by rw [← strCmp_beq']; exact LawfulCmp'.eqLawful strCmp_lawful

theorem strEq_query : LawfulQuery strEq strEq where
  congr q a b h := by
    have : q = a := eq_of_beq h
    subst this; rfl

theorem strEq_hash (hk : Str → Nat) : LawfulHash strEq strEq hk hk where
  key a b h := by have : a = b := eq_of_beq h; rw [this]
  query a b h := by have : a = b := eq_of_beq h; rw [this]

/-- The value computed by a range hasher. -/
def rangeHk (lj : Bool) (bh : Str → Nat) (r : Range) (s : Str) : Nat :=
  if s.length < r.hi then 0 else bh (subOf lj r.lo (r.hi - r.lo) s)

/-- Invariant of `FzStringMap`. -/
def FzStringMap.Inv (bhStr bhSlice : Str → Nat) : FzStringMap V → Prop
  | .leftRange r m => r.lo ≤ r.hi ∧ HashMap.Inv strEq (rangeHk true bhSlice r) m
  | .rightRange r m => r.lo ≤ r.hi ∧ HashMap.Inv strEq (rangeHk false bhSlice r) m
  | .hash m => HashMap.Inv strEq bhStr m

theorem FzStringMap.lawful (bhStr bhSlice : Str → Nat) :
    LawfulMap (FzStringMap.impl (V := V) bhStr bhSlice) strEq strEq (FzStringMap.Inv bhStr bhSlice) := by
  have LH := HashMap.lawful (V := V) strEq_query (strEq_hash bhStr) (hQ := bridgeHash bhStr) (fun _ => rfl)
  have LL := fun (r : Range) (hr : r.lo ≤ r.hi) => HashMap.lawful (V := V) strEq_query
    (strEq_hash (rangeHk true bhSlice r)) (hQ := leftRangeHash bhSlice r) (leftRangeHash_ok bhSlice r hr)
  have LR := fun (r : Range) (hr : r.lo ≤ r.hi) => HashMap.lawful (V := V) strEq_query
    (strEq_hash (rangeHk false bhSlice r)) (hQ := rightRangeHash bhSlice r) (rightRangeHash_ok bhSlice r hr)
  constructor
  · intro m hm; cases m with
    | leftRange r m => exact (LL r hm.1).get m hm.2
    | rightRange r m => exact (LR r hm.1).get m hm.2
    | hash m => exact LH.get m hm
  · intro m hm; cases m with
    | leftRange r m => exact (LL r hm.1).getMut m hm.2
    | rightRange r m => exact (LR r hm.1).getMut m hm.2
    | hash m => exact LH.getMut m hm
  · intro m hm; cases m with
    | leftRange r m => exact (LL r hm.1).getKeyValue m hm.2
    | rightRange r m => exact (LR r hm.1).getKeyValue m hm.2
    | hash m => exact LH.getKeyValue m hm
  · intro m hm; cases m with
    | leftRange r m => exact (LL r hm.1).containsKey m hm.2
    | rightRange r m => exact (LR r hm.1).containsKey m hm.2
    | hash m => exact LH.containsKey m hm
  · intro m hm; cases m with
    | leftRange r m => exact (LL r hm.1).len m hm.2
    | rightRange r m => exact (LR r hm.1).len m hm.2
    | hash m => exact LH.len m hm
  · intro m hm; cases m with
    | leftRange r m => exact (LL r hm.1).distinct m hm.2
    | rightRange r m => exact (LR r hm.1).distinct m hm.2
    | hash m => exact LH.distinct m hm
  · intro m hm; cases m with
    | leftRange r m => exact (LL r hm.1).write_entries m hm.2
    | rightRange r m => exact (LR r hm.1).write_entries m hm.2
    | hash m => exact LH.write_entries m hm
  · intro m hm i v; cases m with
    | leftRange r m => exact ⟨hm.1, (LL r hm.1).write_inv m hm.2 i v⟩
    | rightRange r m => exact ⟨hm.1, (LR r hm.1).write_inv m hm.2 i v⟩
    | hash m => exact LH.write_inv m hm i v

theorem FzStringMap.withHasher_spec [Target] {sort : Sorter (Str × V)} (hsort : SorterOk sort) (bhStr bhSlice : Str → Nat)
    (es : List (Str × V)) (hsz : es.length < sizeLimit) :
    ∃ m, FzStringMap.withHasher sort bhStr bhSlice es = .ok m ∧ FzStringMap.Inv bhStr bhSlice m ∧
      m.entries.Perm (survivors strEq es) := by
  have hp := sortedAndDedupped_survivors strCmp_lawful es
  have hs := sortedAndDedupped_strict (strCmp_lawful.entry (V := V)) es
  have hsl := survivors_length_le (fun a b => strCmp a b == .eq) es
  have hl := hp.length_eq
  have hd := Pairwise_lt_distinct hs
  rw [strCmp_beq'] at hp hd
  unfold FzStringMap.withHasher usingCmp
  generalize sortedAndDedupped es (fun x y => strCmp x.1 y.1) = S at *
  have hcap : S.length ≤ Magnitude.maxCapacity .large := by
    show _ ≤ usizeMax
    have hu := target_cases; omega
  obtain ⟨a, ha, -, hL, hR⟩ := analyzeSliceKeys_spec (fun x y : UInt8 => x == y) bhSlice (S.map (fun x => x.1))
  simp only [ha, bind, Except.bind]
  cases a with
  | general =>
    obtain ⟨m, h1, h2, h3⟩ := (HashMap.fromDedupped_spec .large hsort strEq_lawful (hK := bridgeHash bhStr)
      (hk := bhStr) (fun _ => rfl) hd (by omega)).1 hcap
    refine ⟨.hash m, ?_, h2, h3.trans hp⟩
    simp only [FzStringMap.build, h1, bind, Except.bind, unwrapR]
  | length =>
    obtain ⟨m, h1, h2, h3⟩ := (HashMap.fromDedupped_spec .large hsort strEq_lawful (hK := bridgeHash bhStr)
      (hk := bhStr) (fun _ => rfl) hd (by omega)).1 hcap
    refine ⟨.hash m, ?_, h2, h3.trans hp⟩
    simp only [FzStringMap.build, h1, bind, Except.bind, unwrapR]
  | left r =>
    have hr : r.lo ≤ r.hi := by have := (hL r rfl).1; omega
    obtain ⟨m, h1, h2, h3⟩ := (HashMap.fromDedupped_spec .large hsort strEq_lawful (hK := leftRangeHash bhSlice r)
      (hk := rangeHk true bhSlice r) (leftRangeHash_ok bhSlice r hr) hd (by omega)).1 hcap
    refine ⟨.leftRange r m, ?_, ⟨hr, h2⟩, h3.trans hp⟩
    simp only [FzStringMap.build, h1, bind, Except.bind, unwrapR]
  | right r =>
    have hr : r.lo ≤ r.hi := by have := (hR r rfl).1; omega
    obtain ⟨m, h1, h2, h3⟩ := (HashMap.fromDedupped_spec .large hsort strEq_lawful (hK := rightRangeHash bhSlice r)
      (hk := rangeHk false bhSlice r) (rightRangeHash_ok bhSlice r hr) hd (by omega)).1 hcap
    refine ⟨.rightRange r m, ?_, ⟨hr, h2⟩, h3.trans hp⟩
    simp only [FzStringMap.build, h1, bind, Except.bind, unwrapR]

end Frozen.Model
