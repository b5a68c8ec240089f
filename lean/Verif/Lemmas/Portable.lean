import Verif.Lemmas.WellTyped
import Verif.Lemmas.Facts

/-!
# Constructions on targets of different widths

Below the limits of both targets the constructors compute the same thing.
-/

namespace Frozen.Model

open Frozen.Spec

variable {t t' : Target} {T K V : Type}

theorem cmul_port {a b : Nat} (h : a * b ≤ @usizeMax t) (h' : a * b ≤ @usizeMax t') : @cmul t a b = @cmul t' a b := by
  unfold cmul; rw [if_pos h, if_pos h']

theorem analyzeHashCodes_port {codes : List Nat} (h : codes.length < @sizeLimit t) (h' : codes.length < @sizeLimit t') :
    @analyzeHashCodes t codes = @analyzeHashCodes t' codes := by
  have hu := @target_cases t
  have hu' := @target_cases t'
  have hm : ∀ k, k ≤ 10 → @cmul t codes.length k = @cmul t' codes.length k := fun k hk =>
    cmul_port (by have : codes.length * k ≤ codes.length * 10 := Nat.mul_le_mul_left _ hk
                  omega)
      (by have : codes.length * k ≤ codes.length * 10 := Nat.mul_le_mul_left _ hk
          omega)
  unfold analyzeHashCodes
  simp only []
  rw [hm _ (by split <;> [omega; split <;> omega])]

theorem ofNatOrZero_port (cm : Magnitude) {n : Nat} (h : n ≤ @usizeMax t) (h' : n ≤ @usizeMax t') :
    @Magnitude.ofNatOrZero t cm n = @Magnitude.ofNatOrZero t' cm n := by
  cases cm
  · rfl
  · rfl
  · simp [Magnitude.ofNatOrZero, Magnitude.maxCapacity, h, h']

theorem fillSlots_port (cm : Magnitude) : ∀ (k : Nat) (items : List (Nat × T)) (slots : List Slot) (i : Nat) (final : List T),
    items.length ≤ k → i + items.length ≤ @usizeMax t → i + items.length ≤ @usizeMax t' →
      @fillSlots T t cm items slots i final = @fillSlots T t' cm items slots i final
  | _, [], slots, i, final, _, _, _ => by simp [fillSlots]
  | 0, _ :: _, _, _, _, h, _, _ => by simp at h
  | k + 1, item :: items, slots, i, final, hk, h, h' => by
    have hg := drainGroup_spec item.1 item.2 items final 0
    have hl : (items.takeWhile (fun j => j.1 == item.1)).length + (items.dropWhile (fun j => j.1 == item.1)).length = items.length := by
      rw [← List.length_append, List.takeWhile_append_dropWhile]
    simp only [List.length_cons] at hk h h'
    have ih := fun s => fillSlots_port cm k (drainGroup item.1 item.2 items final 0).2.2 s
      (i + (drainGroup item.1 item.2 items final 0).2.1) (drainGroup item.1 item.2 items final 0).1
      (by rw [hg]; simp only; omega) (by rw [hg]; simp only; omega) (by rw [hg]; simp only; omega)
    unfold fillSlots
    simp only [ih]
    rw [ofNatOrZero_port cm (n := i) (t := t) (t' := t') (by omega) (by omega),
      ofNatOrZero_port cm (n := i + (drainGroup item.1 item.2 items final 0).2.1) (t := t) (t' := t') (by rw [hg]; simp only; omega)
        (by rw [hg]; simp only; omega)]

theorem prepItems_length (hash : T → Nat) (n : Nat) : ∀ (es : List T) {r : List (Nat × T)}, prepItems hash n es = .ok r → r.length = es.length
  | [], _, h => by cases h; rfl
  | e :: es, r, h => by
    unfold prepItems at h
    simp only [bind, Except.bind] at h
    split at h
    · cases h
    · split at h
      · cases h
      · rename_i r' hr
        cases h
        simp [prepItems_length hash n es hr]

theorem HashTable.new_port (cm : Magnitude) {sort : Sorter T} (hs : SorterOk sort) {entries : List T} (hash : T → Nat)
    (h : entries.length < @sizeLimit t) (h' : entries.length < @sizeLimit t') :
    @HashTable.new T t cm sort entries hash = @HashTable.new T t' cm sort entries hash := by
  have hu := @target_cases t
  have hu' := @target_cases t'
  have hc : (entries.length > @Magnitude.maxCapacity t cm) = (entries.length > @Magnitude.maxCapacity t' cm) := by
    cases cm <;> simp only [Magnitude.maxCapacity, eq_iff_iff]; omega
  unfold HashTable.new
  simp only [hc]
  rw [analyzeHashCodes_port (t := t) (t' := t') (by simpa using h) (by simpa using h')]
  split
  · rfl
  · split
    · rfl
    · simp only [bind, Except.bind]
      split
      · rfl
      · split
        · rfl
        · rename_i prep hp
          have hl := prepItems_length _ _ _ hp
          rw [fillSlots_port (t := t) (t' := t') cm _ _ _ _ _ (Nat.le_refl _)
            (by simp [(hs.perm prep).length_eq, hl]; omega) (by simp [(hs.perm prep).length_eq, hl]; omega)]

theorem HashMap.fromDedupped_port (cm : Magnitude) {sort : Sorter (K × V)} (hs : SorterOk sort) (hK : K → Res Nat) {entries : List (K × V)}
    (h : entries.length < @sizeLimit t) (h' : entries.length < @sizeLimit t') :
    @HashMap.fromDedupped K V t cm sort hK entries = @HashMap.fromDedupped K V t' cm sort hK entries := by
  unfold HashMap.fromDedupped
  rw [HashTable.new_port cm hs _ h h']

theorem FzHashMap.withHasher_port (find : HbFind) {sort : Sorter (K × V)} (hs : SorterOk sort) (eqK : K → K → Bool) (bh : K → Nat)
    {es : List (K × V)} (h : es.length < @sizeLimit t) (h' : es.length < @sizeLimit t') :
    @FzHashMap.withHasher K V t find sort eqK bh es = @FzHashMap.withHasher K V t' find sort eqK bh es := by
  unfold FzHashMap.withHasher
  simp only [bind, Except.bind]
  split
  · rfl
  · rename_i S hS
    have := usingHash_length hS
    rw [HashMap.fromDedupped_port (t := t) (t' := t') .large hs _ (by omega) (by omega)]

theorem trailingZeros_port : ∀ (k n : Nat), n ≤ k → n ≠ 0 → @trailingZeros t n = @trailingZeros t' n
  | 0, n, h, h0 => by omega
  | k + 1, n, h, h0 => by
    unfold trailingZeros
    rw [if_neg h0, if_neg h0]
    split
    · rfl
    · rw [trailingZeros_port k (n / 2) (by omega) (by omega)]

theorem eytzingerIndex_port (i n : Nat) : @eytzingerIndex t i n = @eytzingerIndex t' i n := by
  unfold eytzingerIndex
  rw [trailingZeros_port (t := t) (t' := t') _ _ (Nat.le_refl _) (by unfold nextPow2; split <;> simp)]

theorem layoutLoop_port : ∀ (fuel i : Nat) (xs : List T) (map : List (Nat × Nat)), @layoutLoop T t fuel i xs map = @layoutLoop T t' fuel i xs map
  | 0, _, _, _ => rfl
  | fuel + 1, i, xs, map => by
    unfold layoutLoop layoutStep
    rw [eytzingerIndex_port (t := t) (t' := t')]
    simp only [layoutLoop_port fuel]

theorem eytzingerLayout_port (xs : List T) : @eytzingerLayout T t xs = @eytzingerLayout T t' xs := layoutLoop_port _ _ _ _

theorem FzOrderedMap.new_port (cmp : K → K → Ordering) (es : List (K × V)) :
    @FzOrderedMap.new K V t cmp es = @FzOrderedMap.new K V t' cmp es := by
  unfold FzOrderedMap.new EytzingerMap.fromSortedAndDedupped
  rw [eytzingerLayout_port (t := t) (t' := t')]

theorem analyzeSliceKeys_port (eqT : T → T → Bool) (bh : List T → Nat) {keys : List (List T)} (h : ∀ k ∈ keys, k.length ≤ @usizeMax t)
    (h' : ∀ k ∈ keys, k.length ≤ @usizeMax t') : @analyzeSliceKeys T t eqT bh keys = @analyzeSliceKeys T t' eqT bh keys := by
  unfold analyzeSliceKeys
  cases keys with
  | nil => rfl
  | cons k ks =>
    have hk := h k (by simp)
    have hk' := h' k (by simp)
    have hs : ∀ (t : Target), k.length ≤ @usizeMax t → (if k.length < @usizeMax t then k.length else @usizeMax t) = k.length := by
      intro t ht; split <;> omega
    have : @analyzeSubslices T t eqT bh (k :: ks) = @analyzeSubslices T t' eqT bh (k :: ks) := by
      unfold analyzeSubslices statsLoop
      simp only [hs t hk, hs t' hk', Nat.min_eq_right hk, Nat.min_eq_right hk']
    rw [this]

theorem sortedAndDedupped_le (xs : List T) (cmp : T → T → Ordering) : (sortedAndDedupped xs cmp).length ≤ xs.length ∧
    ∀ x ∈ sortedAndDedupped xs cmp, x ∈ xs := by
  have h : (sortedAndDedupped xs cmp).Sublist (xs.mergeSort (fun x y => cmp x y != .gt)) := by
    unfold sortedAndDedupped
    simp only []
    split
    · split
      · exact .refl _
      · exact retainNotIn_sublist _ _ _
    · exact .refl _
  have hp := List.mergeSort_perm xs (fun x y => cmp x y != .gt)
  exact ⟨by rw [← hp.length_eq]; exact h.length_le, fun x hx => hp.mem_iff.1 (h.subset hx)⟩

theorem FzStringMap.withHasher_port {sort : Sorter (Str × V)} (hs : SorterOk sort) (bhStr bhSlice : Str → Nat) {es : List (Str × V)}
    (h : es.length < @sizeLimit t) (h' : es.length < @sizeLimit t') (hk : ∀ e ∈ es, e.1.length ≤ @usizeMax t)
    (hk' : ∀ e ∈ es, e.1.length ≤ @usizeMax t') :
    @FzStringMap.withHasher V t sort bhStr bhSlice es = @FzStringMap.withHasher V t' sort bhStr bhSlice es := by
  unfold FzStringMap.withHasher usingCmp
  obtain ⟨h1, h2⟩ := sortedAndDedupped_le es (fun x y => strCmp x.1 y.1)
  generalize sortedAndDedupped es (fun x y => strCmp x.1 y.1) = S at *
  have hb : ∀ a, @FzStringMap.build V t sort bhStr bhSlice S a = @FzStringMap.build V t' sort bhStr bhSlice S a := by
    intro a
    have hd : ∀ hK, @HashMap.fromDedupped Str V t .large sort hK S = @HashMap.fromDedupped Str V t' .large sort hK S := fun hK =>
      HashMap.fromDedupped_port .large hs hK (by omega) (by omega)
    cases a <;> simp only [FzStringMap.build, hd]
  simp only [hb]
  rw [analyzeSliceKeys_port (t := t) (t' := t') _ _ (by simpa using fun a b hab => hk _ (h2 _ hab))
    (by simpa using fun a b hab => hk' _ (h2 _ hab))]

theorem subM_port (b : Build) {x y : Nat} (h : y ≤ x) : @subM t b x y = @subM t' b x y := by
  unfold subM; rw [if_pos h, if_pos h]

theorem addM_port (b : Build) {x y : Nat} (h : x + y ≤ @usizeMax t) (h' : x + y ≤ @usizeMax t') : @addM t b x y = @addM t' b x y := by
  unfold addM; rw [if_pos h, if_pos h']

theorem fillLookup_port (b : Build) (index : K → Nat) (mn : Nat) : ∀ (S : List (K × V)) (i : Nat) (L : List Nat),
    (∀ e ∈ S, mn ≤ index e.1) → @fillLookup K V t b index mn S i L = @fillLookup K V t' b index mn S i L
  | [], _, _, _ => rfl
  | e :: S, i, L, h => by
    unfold fillLookup
    rw [subM_port (t := t) (t' := t') b (h e (by simp))]
    simp only [fillLookup_port b index mn S _ _ (fun e' he' => h e' (by simp [he']))]

theorem scalarDecide_port (needed : Nat) {count : Nat} (h : count < @sizeLimit t) (h' : count < @sizeLimit t') :
    @scalarDecide t needed count = @scalarDecide t' needed count := by
  have hu := @target_cases t
  have hu' := @target_cases t'
  have hs : @satMul t count maxSparseMultiplier = @satMul t' count maxSparseMultiplier := by
    unfold satMul maxSparseMultiplier; omega
  unfold scalarDecide
  rw [hs]

theorem FzScalarMap.new_port (b : Build) {sort : Sorter (K × V)} (hsort : SorterOk sort) {cmp : K → K → Ordering} {index : K → Nat}
    (hs : @LawfulScalar t K cmp index) (hs' : @LawfulScalar t' K cmp index) {es : List (K × V)} (hn : es.length < @tableLimit t)
    (hn' : es.length < @tableLimit t') (hspan : ∀ x ∈ es, ∀ y ∈ es, index x.1 - index y.1 < @usizeMax t)
    (hspan' : ∀ x ∈ es, ∀ y ∈ es, index x.1 - index y.1 < @usizeMax t') :
    @FzScalarMap.new K V t b sort cmp index es = @FzScalarMap.new K V t' b sort cmp index es := by
  have hu := @target_cases t
  have hu' := @target_cases t'
  have hst := sortedAndDedupped_strict ((@LawfulScalar.lawfulCmp K t _ _ hs).entry (V := V)) es
  obtain ⟨h1, h2⟩ := sortedAndDedupped_le es (fun x y => cmp x.1 y.1)
  unfold FzScalarMap.new
  generalize sortedAndDedupped es (fun x y => cmp x.1 y.1) = S at *
  have hd : @HashMap.fromDedupped K V t .large sort (scalarHash index) S = @HashMap.fromDedupped K V t' .large sort (scalarHash index) S :=
    HashMap.fromDedupped_port .large hsort _ (by omega) (by omega)
  by_cases hne : S = []
  · subst hne
    have he : ∀ (t : Target), @analyzeScalarKeys t b [] = .ok .general := fun t => rfl
    simp only [List.map_nil, he, bind, Except.bind, FzScalarMap.build, hd]
  · obtain ⟨mn, mx, -, a1, a2, a3⟩ := @scalarScan_spec t (S.map (fun e => index e.1)) (by simpa using hne)
      (fun x hx => by obtain ⟨e, -, rfl⟩ := List.mem_map.1 hx; exact @LawfulScalar.bound t _ _ _ hs e.1)
    obtain ⟨emn, hemn, rfl⟩ := List.mem_map.1 a1
    obtain ⟨emx, hemx, rfl⟩ := List.mem_map.1 a2
    have k1 := hspan _ (h2 _ hemx) _ (h2 _ hemn)
    have k2 := hspan' _ (h2 _ hemx) _ (h2 _ hemn)
    have e1 := @analyzeScalarKeys_spec t b _
      (fun x hx => by obtain ⟨e, -, rfl⟩ := List.mem_map.1 hx; exact @LawfulScalar.bound t _ _ _ hs e.1) _ _ a1 a2 a3 k1
    have e2 := @analyzeScalarKeys_spec t' b _
      (fun x hx => by obtain ⟨e, -, rfl⟩ := List.mem_map.1 hx; exact @LawfulScalar.bound t' _ _ _ hs' e.1) _ _ a1 a2 a3 k2
    have hdc := @scalarDecide_port t t' (index emx.1 - index emn.1 + 1) (S.map (fun e => index e.1)).length (by simp; omega) (by simp; omega)
    simp only []
    rw [e1, e2, ← hdc]
    simp only [bind, Except.bind]
    have hall : ∀ e ∈ S, index emn.1 ≤ index e.1 ∧ index e.1 ≤ index emx.1 := fun e he => a3 _ (List.mem_map_of_mem he)
    have hlen : 1 ≤ S.length := List.length_pos_of_ne_nil hne
    generalize hdec : @scalarDecide t _ _ = d
    cases d with
    | general => simp only [FzScalarMap.build, hd]
    | denseRange =>
      simp only [FzScalarMap.build, DenseMap.fromSortedAndDedupped]
      rw [subM_port (t := t) (t' := t') b hlen]
    | sparseRange =>
      obtain ⟨f, l, hf, hl, hfl, hfall⟩ := @ascending_ends _ _ t _ _ hs _ hst hne
      have hfm := List.mem_of_getElem? hf
      have hlm := List.mem_of_getElem? hl
      have b1 := hall f hfm
      have b2 := hall l hlm
      have b3 : index f.1 ≤ index l.1 := by omega
      have hcnt : index l.1 - index f.1 + 1 < @wordLimit t ∧ index l.1 - index f.1 + 1 < @wordLimit t' := by
        unfold scalarDecide satMul alwaysSparseThreshold maxSparseMultiplier at hdec
        rw [List.length_map] at hdec
        split at hdec
        · cases hdec
        · split at hdec
          · omega
          · cases hdec
      have hsub : ∀ (t : Target), @subM t b S.length 1 = .ok (S.length - 1) := fun t => by unfold subM; rw [if_pos hlen]
      have hsub2 : ∀ (t : Target), @subM t b (index l.1) (index f.1) = .ok (index l.1 - index f.1) := fun t => by unfold subM; rw [if_pos b3]
      simp only [FzScalarMap.build, SparseMap.fromSortedAndDedupped, bind, Except.bind, idx, hf, hsub, hl, hsub2]
      rw [addM_port (t := t) (t' := t') b (by omega) (by omega)]
      have hadd : @addM t' b (index l.1 - index f.1) 1 = .ok (index l.1 - index f.1 + 1) := by unfold addM; rw [if_pos (by omega)]
      rw [hadd]
      simp only [vecZeroed_eq, if_pos hcnt.1, if_pos hcnt.2]
      rw [fillLookup_port (t := t) (t' := t') b index _ S _ _ (fun e he => by obtain ⟨i, hi⟩ := List.mem_iff_getElem?.1 he; have := (hfall i e hi).1; omega)]

/-! ## Emission -/

section emit

variable {B : Type}

theorem collectionMagnitude_port (n : Nat) : @collectionMagnitude t n = @collectionMagnitude t' n := rfl

theorem Generator.genHash_port (g : Generator) {sort : Sorter (CollectionEntry B K V)} (hs : SorterOk sort) {S : List (CollectionEntry B K V)}
    (hash : B → Nat) (hasher : HasherTok) (h : S.length < @sizeLimit t) (h' : S.length < @sizeLimit t') :
    @Generator.genHash B K V t g sort S hash hasher = @Generator.genHash B K V t' g sort S hash hasher := by
  unfold Generator.genHash
  rw [HashTable.new_port .large hs _ h h']
  rfl

theorem Emitter.cleanValues_keys (em : Emitter) (unit : V) {entries : List (CollectionEntry B K V)} {e : CollectionEntry B K V}
    (h : e ∈ em.cleanValues unit entries) : ∃ e' ∈ entries, e'.key = e.key := by
  unfold Emitter.cleanValues at h
  split at h
  · exact ⟨e, h, rfl⟩
  · obtain ⟨e', he', rfl⟩ := List.mem_map.1 h
    exact ⟨e', he', rfl⟩

theorem Emitter.emitHash_port (em : Emitter) (unit : V) (find : HbFind) {sort : Sorter (CollectionEntry B K V)} (hs : SorterOk sort)
    (eqB : B → B → Bool) (fixedState : Nat → B → Nat) (seed : Nat) {entries : List (CollectionEntry B K V)}
    (h : entries.length < @sizeLimit t) (h' : entries.length < @sizeLimit t') :
    @Emitter.emitHash B K V t em unit find sort eqB fixedState seed entries =
      @Emitter.emitHash B K V t' em unit find sort eqB fixedState seed entries := by
  unfold Emitter.emitHash
  simp only [bind, Except.bind]
  split
  · rfl
  · rename_i S hS
    have hl := usingHash_length hS
    rw [Emitter.cleanValues_length] at hl
    have hg : ∀ g : Generator, @Generator.genHash B K V t g sort S (fixedState seed) (.bridge (injectUnderscores (u64Tok seed))) =
      @Generator.genHash B K V t' g sort S (fixedState seed) (.bridge (injectUnderscores (u64Tok seed))) := fun g =>
        Generator.genHash_port g hs _ _ (by omega) (by omega)
    simp only [hg]

theorem Emitter.emitOrdered_port (em : Emitter) (unit : V) (cmpB : B → B → Ordering) (entries : List (CollectionEntry B K V)) :
    @Emitter.emitOrdered B K V t em unit cmpB entries = @Emitter.emitOrdered B K V t' em unit cmpB entries := by
  unfold Emitter.emitOrdered Generator.genEytzinger
  simp only [eytzingerLayout_port (t := t) (t' := t')]

theorem Generator.genString_port (g : Generator) {sort : Sorter (CollectionEntry Str K V)} (hs : SorterOk sort) (fsStr fsSlice : Nat → Str → Nat)
    (seed : Nat) {S : List (CollectionEntry Str K V)} (h : S.length < @sizeLimit t) (h' : S.length < @sizeLimit t')
    (hk : ∀ e ∈ S, e.key.length ≤ @usizeMax t) (hk' : ∀ e ∈ S, e.key.length ≤ @usizeMax t') :
    @Generator.genStringOrScan K V t g sort fsStr fsSlice seed S = @Generator.genStringOrScan K V t' g sort fsStr fsSlice seed S := by
  have hg : ∀ hash hasher, @Generator.genHash Str K V t g sort S hash hasher = @Generator.genHash Str K V t' g sort S hash hasher :=
    fun hash hasher => Generator.genHash_port g hs _ _ h h'
  have hb : ∀ a, @Generator.genString K V t g sort fsStr fsSlice seed S a = @Generator.genString K V t' g sort fsStr fsSlice seed S a := by
    intro a
    cases a <;> simp only [Generator.genString, hg]
  unfold Generator.genStringOrScan
  rw [analyzeSliceKeys_port (t := t) (t' := t') _ _ (by simpa using fun a ha => hk _ ha) (by simpa using fun a ha => hk' _ ha)]
  simp only [hb]

theorem Emitter.emitString_port (em : Emitter) (unit : V) {sort : Sorter (CollectionEntry Str K V)} (hs : SorterOk sort)
    (fsStr fsSlice : Nat → Str → Nat) (seed : Nat) {entries : List (CollectionEntry Str K V)} (h : entries.length < @sizeLimit t)
    (h' : entries.length < @sizeLimit t') (hk : ∀ e ∈ entries, e.key.length ≤ @usizeMax t) (hk' : ∀ e ∈ entries, e.key.length ≤ @usizeMax t') :
    @Emitter.emitString K V t em unit sort fsStr fsSlice seed entries = @Emitter.emitString K V t' em unit sort fsStr fsSlice seed entries := by
  unfold Emitter.emitString usingCmp
  obtain ⟨h1, h2⟩ := sortedAndDedupped_le (em.cleanValues unit entries) (fun x y => strCmp x.key y.key)
  rw [Emitter.cleanValues_length] at h1
  have hc : ∀ n : Nat, (∀ e ∈ entries, e.key.length ≤ n) → ∀ e ∈ sortedAndDedupped (em.cleanValues unit entries) (fun x y => strCmp x.key y.key),
      e.key.length ≤ n := by
    intro n hn e he
    obtain ⟨e', he', h⟩ := Emitter.cleanValues_keys em unit (h2 e he)
    rw [← h]; exact hn e' he'
  have := fun g => Generator.genString_port (t := t) (t' := t') g hs fsStr fsSlice seed (by omega) (by omega) (hc _ hk) (hc _ hk')
  simp only [this]

theorem genFillLookup_port (b : Build) (index : B → Nat) (mn : Nat) : ∀ (S : List (CollectionEntry B K V)) (i : Nat) (L : List Nat),
    (∀ e ∈ S, mn ≤ index e.key) → @genFillLookup B K V t b index mn S i L = @genFillLookup B K V t' b index mn S i L
  | [], _, _, _ => rfl
  | e :: S, i, L, h => by
    unfold genFillLookup
    rw [subM_port (t := t) (t' := t') b (h e (by simp))]
    simp only [genFillLookup_port b index mn S _ _ (fun e' he' => h e' (by simp [he']))]

theorem Emitter.emitScalar_port (em : Emitter) (unit : V) (b : Build) {sort : Sorter (CollectionEntry B K V)} (hsort : SorterOk sort)
    {cmpB : B → B → Ordering} {index : B → Nat} (hs : @LawfulScalar t B cmpB index) (hs' : @LawfulScalar t' B cmpB index)
    {entries : List (CollectionEntry B K V)} (hn : entries.length < @tableLimit t) (hn' : entries.length < @tableLimit t')
    (hspan : ∀ x ∈ entries, ∀ y ∈ entries, index x.key - index y.key < @usizeMax t)
    (hspan' : ∀ x ∈ entries, ∀ y ∈ entries, index x.key - index y.key < @usizeMax t') :
    @Emitter.emitScalar B K V t em unit b sort cmpB index entries = @Emitter.emitScalar B K V t' em unit b sort cmpB index entries := by
  have hu := @target_cases t
  have hu' := @target_cases t'
  have hst := sortedAndDedupped_strict ((@LawfulScalar.lawfulCmp B t _ _ hs).comap (fun e : CollectionEntry B K V => e.key))
    (em.cleanValues unit entries)
  obtain ⟨h1, h2⟩ := sortedAndDedupped_le (em.cleanValues unit entries) (fun x y => cmpB x.key y.key)
  rw [Emitter.cleanValues_length] at h1
  have hsp : ∀ n : Nat, (∀ x ∈ entries, ∀ y ∈ entries, index x.key - index y.key < n) →
      ∀ x ∈ sortedAndDedupped (em.cleanValues unit entries) (fun x y => cmpB x.key y.key),
      ∀ y ∈ sortedAndDedupped (em.cleanValues unit entries) (fun x y => cmpB x.key y.key), index x.key - index y.key < n := by
    intro n hn x hx y hy
    obtain ⟨x', hx', e1⟩ := Emitter.cleanValues_keys em unit (h2 x hx)
    obtain ⟨y', hy', e2⟩ := Emitter.cleanValues_keys em unit (h2 y hy)
    rw [← e1, ← e2]; exact hn x' hx' y' hy'
  have s1 := hsp _ hspan
  have s2 := hsp _ hspan'
  clear hsp h2
  unfold Emitter.emitScalar
  generalize sortedAndDedupped (em.cleanValues unit entries) (fun x y => cmpB x.key y.key) = S at *
  have hd : ∀ g : Generator, @Generator.genHash B K V t g sort S index .scalar = @Generator.genHash B K V t' g sort S index .scalar :=
    fun g => Generator.genHash_port g hsort _ _ (by omega) (by omega)
  by_cases hne : S = []
  · subst hne
    have he : ∀ (t : Target), @analyzeScalarKeys t b [] = .ok .general := fun t => rfl
    simp only [List.map_nil, he, bind, Except.bind, Generator.genScalar, hd]
  · obtain ⟨mn, mx, -, a1, a2, a3⟩ := @scalarScan_spec t (S.map (fun e => index e.key)) (by simpa using hne)
      (fun x hx => by obtain ⟨e, -, rfl⟩ := List.mem_map.1 hx; exact @LawfulScalar.bound t _ _ _ hs e.key)
    obtain ⟨emn, hemn, rfl⟩ := List.mem_map.1 a1
    obtain ⟨emx, hemx, rfl⟩ := List.mem_map.1 a2
    have e1 := @analyzeScalarKeys_spec t b _
      (fun x hx => by obtain ⟨e, -, rfl⟩ := List.mem_map.1 hx; exact @LawfulScalar.bound t _ _ _ hs e.key) _ _ a1 a2 a3 (s1 _ hemx _ hemn)
    have e2 := @analyzeScalarKeys_spec t' b _
      (fun x hx => by obtain ⟨e, -, rfl⟩ := List.mem_map.1 hx; exact @LawfulScalar.bound t' _ _ _ hs' e.key) _ _ a1 a2 a3 (s2 _ hemx _ hemn)
    have hdc := @scalarDecide_port t t' (index emx.key - index emn.key + 1) (S.map (fun e => index e.key)).length (by simp; omega)
      (by simp; omega)
    simp only []
    rw [e1, e2, ← hdc]
    simp only [bind, Except.bind]
    have hall : ∀ e ∈ S, index emn.key ≤ index e.key ∧ index e.key ≤ index emx.key := fun e he => a3 _ (List.mem_map_of_mem he)
    have hlen : 1 ≤ S.length := List.length_pos_of_ne_nil hne
    generalize hdec : @scalarDecide t _ _ = d
    have hgen : ∀ g : Generator, @Generator.genScalar B K V t g b sort index S d = @Generator.genScalar B K V t' g b sort index S d := by
      intro g
      cases d with
      | general => simp only [Generator.genScalar, hd]
      | denseRange =>
        simp only [Generator.genScalar, Generator.genDense]
        rw [subM_port (t := t) (t' := t') b hlen]
      | sparseRange =>
        obtain ⟨f, l, hf, hl, hfm, hlm, -, -⟩ := map_ends hne
        obtain ⟨f', l', hf', hl', hfl, hfall⟩ := @ascending_ends _ _ t _ _ hs (S.map (fun e => (e.key, e)))
          (List.pairwise_map.2 hst) (by simpa using hne)
        rw [List.getElem?_map, hf] at hf'
        rw [List.length_map, List.getElem?_map, hl] at hl'
        cases hf'; cases hl'
        have b1 := hall f hfm
        have b2 := hall l hlm
        have b3 : index f.key ≤ index l.key := by simp only at hfl; omega
        have hcnt : index l.key - index f.key + 1 < @wordLimit t ∧ index l.key - index f.key + 1 < @wordLimit t' := by
          unfold scalarDecide satMul alwaysSparseThreshold maxSparseMultiplier at hdec
          rw [List.length_map] at hdec
          split at hdec
          · cases hdec
          · split at hdec
            · omega
            · cases hdec
        have hsub : ∀ (t : Target), @subM t b S.length 1 = .ok (S.length - 1) := fun t => by unfold subM; rw [if_pos hlen]
        have hsub2 : ∀ (t : Target), @subM t b (index l.key) (index f.key) = .ok (index l.key - index f.key) := fun t => by
          unfold subM; rw [if_pos b3]
        simp only [Generator.genScalar, Generator.genSparse, bind, Except.bind, idx, hf, hsub, hl, hsub2]
        rw [addM_port (t := t) (t' := t') b (by omega) (by omega)]
        have hadd : @addM t' b (index l.key - index f.key) 1 = .ok (index l.key - index f.key + 1) := by unfold addM; rw [if_pos (by omega)]
        rw [hadd]
        simp only [vecZeroed_eq, if_pos hcnt.1, if_pos hcnt.2]
        rw [genFillLookup_port (t := t) (t' := t') b index _ S _ _ (fun e he => by
          obtain ⟨i, hi⟩ := List.mem_iff_getElem?.1 he
          have := (hfall i (e.key, e) (by rw [List.getElem?_map, hi]; rfl)).1
          simp only at this; omega)]
        rfl
    simp only [hgen]

end emit

end Frozen.Model
