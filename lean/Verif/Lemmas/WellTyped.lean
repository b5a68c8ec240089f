import Verif.Lemmas.Emit
import Verif.Props.MacroSpec

/-! # Lemmas: emitted code is well typed -/

namespace Frozen.Model

open Frozen Frozen.Spec Frozen.Props

variable {B K V : Type}

theorem numLit_iff {ty : String} {max : Nat} {t : Tok} {n : Nat} : litAs ty max t = some n ↔ NumLit ty max t n := by
  unfold litAs NumLit
  cases he : litEval t with
  | none => simp
  | some r =>
    obtain ⟨v, suf⟩ := r
    simp only [Option.some.injEq, Prod.mk.injEq]
    constructor
    · intro h
      split at h
      · rename_i hc
        cases h
        simp only [Bool.and_eq_true, Bool.or_eq_true, beq_iff_eq, decide_eq_true_eq] at hc
        exact ⟨suf, ⟨rfl, rfl⟩, hc.1, hc.2⟩
      · cases h
    · rintro ⟨s, ⟨rfl, rfl⟩, h1, h2⟩
      rw [if_pos]
      simp only [Bool.and_eq_true, Bool.or_eq_true, beq_iff_eq, decide_eq_true_eq]
      exact ⟨h1, h2⟩

theorem genHash_wt [Target] {sort : Sorter (CollectionEntry B K V)} (hsort : SorterOk sort) {hash : B → Nat} {g : Generator}
    {S : List (CollectionEntry B K V)} (hg : litUsize g.len = some S.length) (hne : S ≠ []) (hsz : S.length < sizeLimit)
    {hasher : HasherTok} (hh : HasherTyped hasher) : ∃ e, g.genHash sort S hash hasher = .ok e ∧ WellTyped e := by
  have hu := target_cases
  obtain ⟨ht, hnew, hok, hperm, hmax⟩ := (HashTable.new_spec .large hsort S (fun x => hash x.key) hsz).1
    (by show S.length ≤ usizeMax; omega)
  obtain ⟨hshape, hslots⟩ := HashTable.new_shape hsort hnew
  have hslots := hslots hne hsz
  have hsl : ht.slots.length ≤ usizeMax := by
    have := growth_le S.length
    omega
  have hlen := hperm.length_eq
  obtain ⟨r, hr⟩ := hasCollisions_ok hok
  have hcap := collectionMagnitude_le ht.entries.length (by omega)
  have hsl2 : ∀ s ∈ ht.slots, s.minIndex ≤ s.maxIndex := by
    intro s hs
    obtain ⟨i, hi, rfl⟩ := List.mem_iff_getElem.1 hs
    exact (hok.bucket i hi).1
  obtain ⟨k, hk, -⟩ := hok.pow
  unfold Generator.genHash
  simp only [hnew, unwrapR, hr, bind, Except.bind]
  have hL : UsizeLit g.len (ht.entries.map (fun e => e.toTokens)).length := by
    rw [List.length_map, hlen]; exact numLit_iff.1 hg
  cases r with
  | true =>
    simp only [if_true]
    refine ⟨_, rfl, hL, ?_, ⟨k, by rw [List.length_map, hk]⟩, ?_, hh⟩
    · rw [List.length_map]; exact numLit_iff.1 (litUsize_digits hsl)
    · intro p hp
      obtain ⟨s, hs, rfl⟩ := List.mem_map.1 hp
      have h1 := hmax s hs
      have h2 := hsl2 s hs
      exact ⟨s.minIndex, s.maxIndex, numLit_iff.1 (litMag_digits (by omega)), numLit_iff.1 (litMag_digits (by omega)), h2,
        by rw [List.length_map]; omega⟩
  | false =>
    simp only [Bool.false_eq_true, if_false]
    refine ⟨_, rfl, hL, ?_, ⟨k, by rw [List.length_map, hk]⟩, ?_, hh⟩
    · rw [List.length_map]; exact numLit_iff.1 (litUsize_digits hsl)
    · intro p hp
      obtain ⟨s, hs, rfl⟩ := List.mem_map.1 hp
      have h1 := hmax s hs
      have h2 := hsl2 s hs
      unfold ncSlotTok
      split
      · exact ⟨0, numLit_iff.1 (litMag_digits (by omega)), Nat.zero_le _⟩
      · rename_i h0
        have h0' : s.maxIndex ≠ 0 := by simpa using h0
        rcases hshape s hs with rfl | h3
        · exact absurd rfl h0'
        · exact ⟨s.minIndex + 1, numLit_iff.1 (litMag_digits (by omega)), by rw [List.length_map]; omega⟩

theorem genScan_wt [Target] {g : Generator} {S : List (CollectionEntry B K V)} (hg : litUsize g.len = some S.length) :
    WellTyped (g.genScan S) := by
  show UsizeLit _ _
  rw [List.length_map]
  exact numLit_iff.1 hg

theorem genEytzinger_wt [Target] {g : Generator} {S : List (CollectionEntry B K V)} (hg : litUsize g.len = some S.length) :
    ∃ e, g.genEytzinger S = .ok e ∧ WellTyped e := by
  obtain ⟨A, hA, hl, -⟩ := eytzingerLayout_spec S
  refine ⟨.eytzingerRaw g.len (A.map (fun e => e.toTokens)), by simp only [Generator.genEytzinger, hA, bind, Except.bind], ?_⟩
  show UsizeLit _ _
  rw [List.length_map, hl]
  exact numLit_iff.1 hg

theorem genFillLookup_bound [Target] (b : Build) {index : B → Nat} {min : Nat} :
    ∀ (S : List (CollectionEntry B K V)) (i : Nat) (L L' : List Nat), genFillLookup b index min S i L = .ok L' →
      L'.length = L.length ∧ ∀ v ∈ L', v ∈ L ∨ v ≤ i + S.length
  | [], i, L, L', h => by cases h; exact ⟨rfl, fun v hv => Or.inl hv⟩
  | e :: S, i, L, L', h => by
    simp only [genFillLookup, bind, Except.bind] at h
    cases hs : subM b (index e.key) min with
    | error x => rw [hs] at h; cases h
    | ok j =>
      rw [hs] at h
      simp only at h
      cases hl : setIdx L j (i + 1) with
      | error x => rw [hl] at h; cases h
      | ok L1 =>
        rw [hl] at h
        simp only at h
        obtain ⟨h1, h2⟩ := genFillLookup_bound b S (i + 1) L1 L' h
        have hL1 : L1 = L.set j (i + 1) := by
          unfold setIdx at hl
          split at hl
          · cases hl; rfl
          · cases hl
        subst hL1
        refine ⟨by rw [h1, List.length_set], fun v hv => ?_⟩
        rw [List.length_cons]
        rcases h2 v hv with h3 | h3
        · rcases List.mem_or_eq_of_mem_set h3 with h4 | h4
          · exact Or.inl h4
          · right; omega
        · right; omega

theorem retainNotIn_sublist {T : Type} (D : List Nat) : ∀ (xs : List T) (i : Nat), (retainNotIn D xs i).Sublist xs
  | [], _ => .refl _
  | x :: xs, i => by
    unfold retainNotIn
    split
    · exact .cons _ (retainNotIn_sublist D xs (i + 1))
    · exact .cons_cons _ (retainNotIn_sublist D xs (i + 1))

theorem sad_subset {T : Type} (xs : List T) (cmp : T → T → Ordering) :
    (sortedAndDedupped xs cmp).length ≤ xs.length ∧ ∀ x ∈ sortedAndDedupped xs cmp, x ∈ xs := by
  have h : (sortedAndDedupped xs cmp).Sublist (xs.mergeSort (fun x y => cmp x y != .gt)) := by
    unfold sortedAndDedupped
    simp only []
    split
    · split
      · exact .refl _
      · exact retainNotIn_sublist _ _ _
    · exact .refl _
  have hp := List.mergeSort_perm xs (fun x y => cmp x y != .gt)
  exact ⟨by rw [← hp.length_eq]; exact h.length_le, fun x hx => hp.mem_iff.1 (h.subset hx)⟩

theorem usingHash_length {T : Type} {find : HbFind} {xs S : List T} {hasher : T → Nat} {eq : T → T → Bool}
    (h : usingHash find xs hasher eq = .ok S) : S.length ≤ xs.length := by
  unfold usingHash at h
  split at h
  · simp only [bind, Except.bind] at h
    split at h
    · cases h
    · split at h
      · cases h; exact Nat.le_refl _
      · cases h; exact (retainNotIn_sublist _ _ _).length_le
  · cases h; exact Nat.le_refl _

theorem Emitter.emitHash_typed [Target] {em : Emitter} {unit : V} {find : HbFind}
    {sort : Sorter (CollectionEntry B K V)} (hsort : SorterOk sort) {eqB : B → B → Bool}
    {fixedState : Nat → B → Nat} {seed : Nat} (hseed : seed < 2 ^ 64)
    {entries : List (CollectionEntry B K V)} (hn : entries.length < sizeLimit) {item : Item (Emitted K V)}
    (hi : em.emitHash unit find sort eqB fixedState seed entries = .ok (.ok item)) : WellTyped item.ctor := by
  have hu := target_cases
  unfold Emitter.emitHash at hi
  simp only [bind, Except.bind] at hi
  split at hi
  · cases hi
  · rename_i S hS
    have hle := usingHash_length hS
    rw [Emitter.cleanValues_length] at hle
    have hf := Emitter.finish_inv hi
    generalize item.ctor = out at hf ⊢
    have hg : litUsize (Generator.new S.length).len = some S.length := Generator.new_len (by omega)
    by_cases h4 : S.length < 4
    · rw [if_pos h4] at hf
      cases hf
      exact genScan_wt hg
    · rw [if_neg h4] at hf
      have hne : S ≠ [] := by rintro rfl; simp at h4
      obtain ⟨e, he, hw⟩ := genHash_wt (hash := fixedState seed) hsort hg hne (by omega)
        (hasher := .bridge (injectUnderscores (u64Tok seed))) ⟨seed, numLit_iff.1 (litU64_u64Tok_inject hseed)⟩
      rw [he] at hf
      cases hf
      exact hw

theorem Emitter.emitOrdered_typed [Target] {em : Emitter} {unit : V} {cmpB : B → B → Ordering}
    {entries : List (CollectionEntry B K V)} (hn : entries.length < sizeLimit) {item : Item (Emitted K V)}
    (hi : em.emitOrdered unit cmpB entries = .ok (.ok item)) : WellTyped item.ctor := by
  have hu := target_cases
  obtain ⟨hle, -⟩ := sad_subset (em.cleanValues unit entries) (fun x y => cmpB x.key y.key)
  rw [Emitter.cleanValues_length] at hle
  unfold Emitter.emitOrdered at hi
  have hf := Emitter.finish_inv hi
  generalize item.ctor = out at hf ⊢
  generalize sortedAndDedupped (em.cleanValues unit entries) (fun x y => cmpB x.key y.key) = S at *
  have hg : litUsize (Generator.new S.length).len = some S.length := Generator.new_len (by omega)
  by_cases h4 : S.length < 4
  · rw [if_pos h4] at hf
    cases hf
    exact genScan_wt hg
  · rw [if_neg h4] at hf
    obtain ⟨e, he, hw⟩ := genEytzinger_wt hg
    rw [he] at hf
    cases hf
    exact hw

theorem Emitter.emitString_typed [Target] {em : Emitter} {unit : V} {sort : Sorter (CollectionEntry Str K V)} (hsort : SorterOk sort)
    {fsStr fsSlice : Nat → Str → Nat} {seed : Nat} (hseed : seed < 2 ^ 64) {entries : List (CollectionEntry Str K V)}
    (hn : entries.length < sizeLimit) (hkl : ∀ x ∈ entries, x.key.length ≤ usizeMax) {item : Item (Emitted K V)}
    (hi : em.emitString unit sort fsStr fsSlice seed entries = .ok (.ok item)) : WellTyped item.ctor := by
  have hu := target_cases
  obtain ⟨hle, hsub⟩ := sad_subset (em.cleanValues unit entries) (fun x y => strCmp x.key y.key)
  rw [Emitter.cleanValues_length] at hle
  unfold Emitter.emitString usingCmp at hi
  have hf := Emitter.finish_inv hi
  generalize item.ctor = out at hf ⊢
  generalize sortedAndDedupped (em.cleanValues unit entries) (fun x y => strCmp x.key y.key) = S at *
  have hg : litUsize (Generator.new S.length).len = some S.length := Generator.new_len (by omega)
  simp only [Generator.genStringOrScan] at hf
  by_cases h4 : S.length < 4
  · rw [if_pos h4] at hf
    cases hf
    exact genScan_wt hg
  · rw [if_neg h4] at hf
    have hne : S ≠ [] := by rintro rfl; simp at h4
    obtain ⟨s0, hs0⟩ := List.exists_mem_of_ne_nil S hne
    obtain ⟨a, ha, -, hL, hR⟩ := analyzeSliceKeys_spec (fun x y : UInt8 => x == y) (fsSlice seed) (S.map (fun x => x.key))
    have hkeys : s0.key ∈ S.map (fun x => x.key) := List.mem_map.2 ⟨s0, hs0, rfl⟩
    have hs0l : s0.key.length ≤ usizeMax := by
      obtain ⟨e', h1, h2, -⟩ := Emitter.cleanValues_mem (hsub s0 hs0)
      rw [h2]; exact hkl e' h1
    simp only [ha, bind, Except.bind] at hf
    have main : ∀ (f : Str → Nat) (hasher : HasherTok), HasherTyped hasher →
        (Generator.new S.length).genHash sort S f hasher = .ok out → WellTyped out := by
      intro f hasher hh hr
      obtain ⟨e, he, hw⟩ := genHash_wt (hash := f) hsort hg hne (by omega) hh
      rw [he] at hr
      cases hr
      exact hw
    have hsd : NumLit "u64" (2 ^ 64 - 1) (injectUnderscores (u64Tok seed)) seed := numLit_iff.1 (litU64_u64Tok_inject hseed)
    cases a with
    | general => exact main _ (.bridge _) ⟨seed, hsd⟩ hf
    | length => exact main _ .length trivial hf
    | left r =>
      have hG := hL r rfl
      have hr : r.lo ≤ r.hi := by have := hG.1; omega
      have hrl := hG.2.2.1 _ hkeys
      have hok := leftRangeHash_ok (fsSlice seed) r hr
      simp only [Generator.genString, hashAll_ok hok, bind, Except.bind] at hf
      exact main _ (.left _ _ _) ⟨r.lo, r.hi, seed, numLit_iff.1 (litUsize_digits_inject (by omega)),
        numLit_iff.1 (litUsize_digits_inject (by omega)), hr, hsd⟩ hf
    | right r =>
      have hG := hR r rfl
      have hr : r.lo ≤ r.hi := by have := hG.1; omega
      have hrl := hG.2.2.1 _ hkeys
      have hok := rightRangeHash_ok (fsSlice seed) r hr
      simp only [Generator.genString, hashAll_ok hok, bind, Except.bind] at hf
      exact main _ (.right _ _ _) ⟨r.lo, r.hi, seed, numLit_iff.1 (litUsize_digits_inject (by omega)),
        numLit_iff.1 (litUsize_digits_inject (by omega)), hr, hsd⟩ hf

theorem Emitter.emitScalar_typed [Target] {em : Emitter} {unit : V} {b : Build} {sort : Sorter (CollectionEntry B K V)}
    (hsort : SorterOk sort) {cmpB : B → B → Ordering} {index : B → Nat} (hB : LawfulScalar cmpB index)
    {entries : List (CollectionEntry B K V)} (hn : entries.length < tableLimit) {item : Item (Emitted K V)}
    (hi : em.emitScalar unit b sort cmpB index entries = .ok (.ok item)) : WellTyped item.ctor := by
  have hu := target_cases
  have hspan : ∀ x ∈ entries, ∀ y ∈ entries, index x.key - index y.key < usizeMax := by
    intro x hx y hy
    by_contra hge
    have := hB.bound x.key
    exact Emitter.emitScalar_over b hB hx hy (by omega) item hi
  obtain ⟨hle, hsub⟩ := sad_subset (em.cleanValues unit entries) (fun x y => cmpB x.key y.key)
  have hst := sortedAndDedupped_strict (hB.lawfulCmp.comap (fun x : CollectionEntry B K V => x.key)) (em.cleanValues unit entries)
  rw [Emitter.cleanValues_length] at hle
  unfold Emitter.emitScalar at hi
  generalize sortedAndDedupped (em.cleanValues unit entries) (fun x y => cmpB x.key y.key) = S at *
  have hg : litUsize (Generator.new S.length).len = some S.length := Generator.new_len (by omega)
  simp only [bind, Except.bind] at hi
  by_cases hne : S = []
  · subst hne
    simp only [List.map_nil, analyzeScalarKeys, scalarScan, List.foldl_nil, if_true] at hi
    have hf := Emitter.finish_inv hi
    generalize item.ctor = out at hf ⊢
    cases hf
    exact genScan_wt hg
  · have hkeys : (S.map (fun e => (e.key, ()))).Pairwise (fun a b => cmpB a.1 b.1 = .lt) := by
      rw [List.pairwise_map]; exact hst
    obtain ⟨f, l, hf, hl, hfm, hlm, -, -⟩ := map_ends hne
    obtain ⟨f', l', hf', hl', hfl, hall⟩ := ascending_ends hB hkeys (by simpa using hne)
    have e1 : f' = (f.key, ()) := by rw [List.getElem?_map, hf] at hf'; exact (Option.some.inj hf').symm
    have e2 : l' = (l.key, ()) := by rw [List.length_map, List.getElem?_map, hl] at hl'; exact (Option.some.inj hl').symm
    subst e1 e2
    rw [List.length_map] at hfl
    simp only [] at hfl hall
    have hsp : index l.key - index f.key < usizeMax := by
      obtain ⟨f', hf', k1, -⟩ := Emitter.cleanValues_mem (hsub f hfm)
      obtain ⟨l', hl', k2, -⟩ := Emitter.cleanValues_mem (hsub l hlm)
      rw [k1, k2]
      exact hspan l' hl' f' hf'
    have hA := analyzeScalarKeys_spec b (l := S.map (fun e => index e.key)) (by
        intro x hx
        obtain ⟨e, _, rfl⟩ := List.mem_map.1 hx
        exact hB.bound _) (mn := index f.key) (mx := index l.key)
      (List.mem_map.2 ⟨f, hfm, rfl⟩) (List.mem_map.2 ⟨l, hlm, rfl⟩) (by
        intro x hx
        obtain ⟨e, he, rfl⟩ := List.mem_map.1 hx
        obtain ⟨i, hi⟩ := List.getElem?_of_mem he
        have := hall i (e.key, ()) (by rw [List.getElem?_map, hi]; rfl)
        simp only [] at this
        omega) hsp
    rw [hA] at hi
    simp only [List.length_map] at hi
    have hgen := Emitter.finish_inv hi
    generalize item.ctor = out at hgen ⊢
    have b1 := hB.bound f.key
    have b2 := hB.bound l.key
    have hidx0 : idx S 0 = .ok f := by simp only [idx, hf]
    have hidxl : idx S (S.length - 1) = .ok l := by simp only [idx, hl]
    have hpos : 1 ≤ S.length := List.length_pos_iff.2 hne
    have hsub1 : subM b S.length 1 = .ok (S.length - 1) := subM_ok b hpos
    cases hd : scalarDecide (index l.key - index f.key + 1) S.length with
    | denseRange =>
      rw [hd] at hgen
      have := scalarDecide_dense hd
      simp only [Generator.genScalar, Generator.genDense, hidx0, hsub1, hidxl, bind, Except.bind] at hgen
      rw [← Except.ok.inj hgen]
      refine ⟨by rw [List.length_map]; exact numLit_iff.1 hg, index f.key, index l.key,
        numLit_iff.1 (litUsize_usizeTok_inject b1), numLit_iff.1 (litUsize_usizeTok_inject b2), by rw [List.length_map]; omega⟩
    | sparseRange =>
      rw [hd] at hgen
      have := scalarDecide_sparse hd
      simp only [Generator.genScalar, Generator.genSparse, hidx0, hsub1, hidxl, subM_ok b (show index f.key ≤ index l.key by omega),
        addM_ok b (show index l.key - index f.key + 1 ≤ usizeMax by omega), bind, Except.bind] at hgen
      split at hgen
      · cases hgen
      · rename_i zeros hz
        split at hgen
        · cases hgen
        · rename_i L hL
          rw [← Except.ok.inj hgen]
          obtain ⟨h1, h2⟩ := genFillLookup_bound b S 0 zeros L hL
          have hz' : zeros = List.replicate (index l.key - index f.key + 1) 0 := by
            rw [vecZeroed_eq] at hz
            split at hz
            · cases hz; rfl
            · cases hz
          subst hz'
          rw [List.length_replicate] at h1
          have hcap := collectionMagnitude_le (index l.key - index f.key + 1) (by omega)
          refine ⟨by rw [List.length_map]; exact numLit_iff.1 hg, ?_, ?_, index f.key, index l.key,
            numLit_iff.1 (litUsize_usizeTok b1), numLit_iff.1 (litUsize_usizeTok b2), by rw [List.length_map]; omega⟩
          · rw [List.length_map]; exact numLit_iff.1 (litUsize_digits (by omega))
          · intro t ht
            obtain ⟨v, hv, rfl⟩ := List.mem_map.1 ht
            have : v ≤ S.length := by
              rcases h2 v hv with h3 | h3
              · have := (List.mem_replicate.1 h3).2; omega
              · omega
            exact ⟨v, numLit_iff.1 (litMag_digits (by omega)), by rw [List.length_map]; omega⟩
    | general =>
      rw [hd] at hgen
      simp only [Generator.genScalar] at hgen
      by_cases h8 : S.length < 8
      · rw [if_pos h8] at hgen
        cases hgen
        exact genScan_wt hg
      · rw [if_neg h8] at hgen
        obtain ⟨e, he, hw⟩ := genHash_wt (hash := index) hsort hg hne (by omega) (hasher := .scalar) trivial
        rw [he] at hgen
        cases hgen
        exact hw

/-- Well-typed code compiles. -/
theorem compile_of_wellTyped [Target] {F : Type} {eqK : K → K → Bool} {cmp : K → K → Ordering}
    {fz : FzKind → List (K × V) → Option (Res F)} {e : Emitted K V} (hw : WellTyped e)
    (hfz : ∀ kind es, e = .fz kind es → (fz kind es).isSome) : (e.compile eqK cmp fz).isSome = true := by
  have hlen : ∀ {α : Type} {t : Tok} {xs : List α}, UsizeLit t xs.length → arrayLen t xs = some xs.length :=
    fun h => arrayLen_of (numLit_iff.2 h) rfl
  have hlu : ∀ {t : Tok} {n : Nat}, UsizeLit t n → litUsize t = some n := fun h => numLit_iff.2 h
  have hmags : ∀ (cm : Magnitude) (ts : List Tok), (∀ t ∈ ts, ∃ v, MagLit cm t v) → ∃ vs, litMags cm ts = some vs := by
    intro cm ts
    induction ts with
    | nil => intro _; exact ⟨[], rfl⟩
    | cons t ts ih =>
      intro h
      obtain ⟨v, hv⟩ := h t (by simp)
      obtain ⟨vs, hvs⟩ := ih (fun t ht => h t (by simp [ht]))
      have hv' : litMag cm t = some v := numLit_iff.2 hv
      exact ⟨v :: vs, by simp only [litMags, hv', hvs]⟩
  have hslots : ∀ (cm : Magnitude) (ts : List (Tok × Tok)), (∀ t ∈ ts, ∃ a b, MagLit cm t.1 a ∧ MagLit cm t.2 b) →
      ∃ vs, litSlots cm ts = some vs := by
    intro cm ts
    induction ts with
    | nil => intro _; exact ⟨[], rfl⟩
    | cons t ts ih =>
      intro h
      obtain ⟨a, b, ha, hb⟩ := h t (by simp)
      obtain ⟨vs, hvs⟩ := ih (fun t ht => h t (by simp [ht]))
      have ha' : litMag cm t.1 = some a := numLit_iff.2 ha
      have hb' : litMag cm t.2 = some b := numLit_iff.2 hb
      exact ⟨⟨a, b⟩ :: vs, by simp only [litSlots, ha', hb', hvs]⟩
  have hhash : ∀ {h : HasherTok}, HasherTyped h → ∃ h', h.eval = some h' := by
    intro h hh
    have h64 : ∀ {t : Tok} {n : Nat}, NumLit "u64" (2 ^ 64 - 1) t n → litU64 t = some n := fun h => numLit_iff.2 h
    cases h with
    | bridge seed => obtain ⟨n, hn⟩ := hh; exact ⟨.bridge n, by simp only [HasherTok.eval, h64 hn, Option.map_some]⟩
    | scalar => exact ⟨_, rfl⟩
    | length => exact ⟨_, rfl⟩
    | left a b s =>
      obtain ⟨a', b', n, h1, h2, -, h3⟩ := hh
      exact ⟨.left a' b' n, by simp only [HasherTok.eval, hlu h1, hlu h2, h64 h3]⟩
    | right a b s =>
      obtain ⟨a', b', n, h1, h2, -, h3⟩ := hh
      exact ⟨.right a' b' n, by simp only [HasherTok.eval, hlu h1, hlu h2, h64 h3]⟩
  cases e with
  | scanRaw len es => simp only [Emitted.compile, hlen hw, Option.map_some, Option.isSome_some]
  | scanNew len es => simp only [Emitted.compile, hlu hw, Option.map_some, Option.isSome_some]
  | eytzingerRaw len es => simp only [Emitted.compile, hlen hw, Option.map_some, Option.isSome_some]
  | eytzingerNew len es => simp only [Emitted.compile, hlu hw, Option.map_some, Option.isSome_some]
  | dense len es mn mx =>
    obtain ⟨h1, a, b, h2, h3, -⟩ := hw
    simp only [Emitted.compile, hlen h1, hlu h2, hlu h3, Option.isSome_some]
  | sparse len ns cm es lookup mn mx =>
    obtain ⟨h1, h2, h3, a, b, h4, h5, -⟩ := hw
    obtain ⟨vs, hvs⟩ := hmags cm lookup (fun t ht => (h3 t ht).imp fun v h => h.1)
    simp only [Emitted.compile, hlen h1, hlen h2, hvs, hlu h4, hlu h5, Option.isSome_some]
  | hash len ns cm slots es hasher =>
    obtain ⟨h1, h2, -, h3, h4⟩ := hw
    obtain ⟨vs, hvs⟩ := hslots cm slots (fun t ht => by obtain ⟨a, b, ha, hb, -⟩ := h3 t ht; exact ⟨a, b, ha, hb⟩)
    obtain ⟨h', hh'⟩ := hhash h4
    simp only [Emitted.compile, hlen h1, hlen h2, hvs, hh', Option.isSome_some]
  | hashNC len ns cm slots es hasher =>
    obtain ⟨h1, h2, -, h3, h4⟩ := hw
    obtain ⟨vs, hvs⟩ := hmags cm slots (fun t ht => (h3 t ht).imp fun v h => h.1)
    obtain ⟨h', hh'⟩ := hhash h4
    simp only [Emitted.compile, hlen h1, hlen h2, hvs, hh', Option.isSome_some]
  | fz kind es =>
    have := hfz kind es rfl
    simp only [Emitted.compile, Option.isSome_map, this]

end Frozen.Model
