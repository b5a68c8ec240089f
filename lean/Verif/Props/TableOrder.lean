import Verif.Props.IterOrder

/-!
# Property theorems: the order of iteration of tables of hash codes (C89, continued)

`FzStringMap` and the emitted hash, scalar and string collections that are tables of hash codes are iterated in descending order of the places of their codes.
-/

namespace Frozen.Props

open Frozen Frozen.Spec Frozen.Model

variable {K V B T F : Type}

/-- The hash codes in use for strings: the length, the code of the whole string, or the code of the bytes from `lo` to `hi`, counted from the front or from
the back.  `whole` and `part` are the hash functions for strings and for byte slices. -/
inductive StringCode (whole part : Str → Nat) : (Str → Nat) → Prop where
  | length : StringCode whole part List.length
  | whole : StringCode whole part whole
  | front (lo hi : Nat) (h : lo < hi) : StringCode whole part (fun s => if s.length < hi then 0 else part ((s.take hi).drop lo))
  | back (lo hi : Nat) (h : lo < hi) :
      StringCode whole part (fun s => if s.length < hi then 0 else part ((s.take (s.length - lo)).drop (s.length - hi)))

theorem leftRangeHash_code {bh : Str → Nat} {r : Range} (h : r.lo < r.hi) (s : Str) :
    leftRangeHash bh r s = .ok (if s.length < r.hi then 0 else bh ((s.take r.hi).drop r.lo)) := by
  rw [leftRangeHash_ok bh r (by omega)]
  unfold subOf
  rw [if_pos rfl, List.drop_take]

theorem rightRangeHash_code {bh : Str → Nat} {r : Range} (h : r.lo < r.hi) (s : Str) :
    rightRangeHash bh r s = .ok (if s.length < r.hi then 0 else bh ((s.take (s.length - r.lo)).drop (s.length - r.hi))) := by
  rw [rightRangeHash_ok bh r (by omega)]
  unfold subOf
  by_cases hl : s.length < r.hi
  · rw [if_pos hl, if_pos hl]
  · rw [if_neg hl, if_neg hl, if_neg (by simp), List.drop_take]
    rw [show s.length - r.lo - (r.hi - r.lo) = s.length - r.hi by omega, show s.length - r.lo - (s.length - r.hi) = r.hi - r.lo by omega]

theorem keepLast_ne_nil {α : Type} {eq : α → α → Bool} (he : LawfulEq' eq) {l : List α} (h : l ≠ []) : keepLast eq l ≠ [] := by
  intro h0
  obtain ⟨e, he'⟩ := List.exists_mem_of_ne_nil l h
  obtain ⟨e', h1, -⟩ := exists_mem_keepLast he he'
  rw [h0] at h1
  cases h1

/-- **C89** (string maps)  A string map is iterated in descending order of the remainders of its hash codes by the size of the table. -/
theorem c89_string [Target] {sort : Sorter (Str × V)} (hsort : SorterOk sort) {bhStr bhSlice : Str → Nat} {es : List (Str × V)} (hne : es ≠ [])
    (hn : es.length < sizeLimit) {m : FzStringMap V} (hm : FzStringMap.withHasher sort bhStr bhSlice es = .ok m) (qStr qSlice : Str → Nat) :
    ∃ code n, StringCode bhStr bhSlice code ∧ SizedFor ((survivors (fun a b => a == b) es).map (fun e => code e.1)) n ∧
      SlotOrder code n ((FzStringMap.impl qStr qSlice).iter m).rest := by
  have hp := sortedAndDedupped_survivors strCmp_lawful es
  have heq : (fun a b : Str => strCmp a b == .eq) = fun a b => a == b := strCmp_beq'
  rw [heq] at hp
  have hne' : sortedAndDedupped es (fun x y => strCmp x.1 y.1) ≠ [] := by
    intro h0
    rw [h0] at hp
    have h1 : survivors (fun a b : Str => a == b) es = [] := hp.symm.eq_nil
    exact keepLast_ne_nil (strEq_lawful.comap (fun e : Str × V => e.1)) hne h1
  have hlen := (sortedAndDedupped_le es (fun x y => strCmp x.1 y.1)).1
  unfold FzStringMap.withHasher at hm
  rw [(c07_using_cmp (strCmp_lawful.comap (fun x : Str × V => x.1)) _).1] at hm
  generalize sortedAndDedupped es (fun x y => strCmp x.1 y.1) = S at hm hp hne' hlen
  obtain ⟨a, ha, -, hL, hR⟩ := analyzeSliceKeys_spec (fun x y : UInt8 => x == y) bhSlice (S.map (fun x => x.1))
  simp only [ha, bind, Except.bind] at hm
  have key : ∀ (hK : Str → Res Nat) (code : Str → Nat) (x : HashMap Str V), StringCode bhStr bhSlice code → (∀ s, hK s = .ok (code s)) →
      HashMap.fromDedupped .large sort hK S = .ok (.ok x) →
      ∃ code n, StringCode bhStr bhSlice code ∧ SizedFor ((survivors (fun a b => a == b) es).map (fun e => code e.1)) n ∧
        SlotOrder code n x.table.entries := by
    intro hK code x hc hok hx
    obtain ⟨n, h3, h4⟩ := table_order hsort hne' (by omega) (HashMap.fromDedupped_table hok hx)
    exact ⟨code, n, hc, h3.perm (hp.map _), h4⟩
  have inv : ∀ (hK : Str → Res Nat) (f : HashMap Str V → FzStringMap V),
      (do let r ← HashMap.fromDedupped .large sort hK S; let m ← unwrapR r; .ok (f m) : Res (FzStringMap V)) = .ok m →
      ∃ x, HashMap.fromDedupped .large sort hK S = .ok (.ok x) ∧ m = f x := by
    intro hK f h
    simp only [bind, Except.bind] at h
    split at h
    · cases h
    · rename_i r hr
      split at h
      · cases h
      · rename_i x hx
        cases h
        rw [unwrapR_inv hx] at hr
        exact ⟨x, hr, rfl⟩
  cases a with
  | general =>
    obtain ⟨x, hx, rfl⟩ := inv _ _ hm
    exact key _ bhStr x .whole (fun _ => rfl) hx
  | length =>
    obtain ⟨x, hx, rfl⟩ := inv _ _ hm
    exact key _ bhStr x .whole (fun _ => rfl) hx
  | left r =>
    obtain ⟨x, hx, rfl⟩ := inv _ _ hm
    have hr := (hL r rfl).1
    exact key _ _ x (.front r.lo r.hi hr) (leftRangeHash_code hr) hx
  | right r =>
    obtain ⟨x, hx, rfl⟩ := inv _ _ hm
    have hr := (hR r rfl).1
    exact key _ _ x (.back r.lo r.hi hr) (rightRangeHash_code hr) hx

/-! ## Emitted collections -/

theorem genHash_order [Target] {g : Generator} {sort : Sorter (CollectionEntry B K V)} (hsort : SorterOk sort) {S : List (CollectionEntry B K V)}
    (hne : S ≠ []) (hn : S.length < sizeLimit) {hash : B → Nat} {hasher : HasherTok} {c : Emitted K V}
    (h : g.genHash sort S hash hasher = .ok c) {hk : K → Nat} (hag : ∀ x ∈ S, hk x.keyExpr = hash x.key) :
    c.Raw ∧ ∃ n, SizedFor ((S.map (fun e => e.toTokens)).map (fun e => hk e.1)) n ∧ SlotOrder hk n c.listed := by
  unfold Generator.genHash at h
  simp only [bind, Except.bind] at h
  split at h
  · cases h
  · rename_i r hr
    split at h
    · cases h
    · rename_i ht hht
      rw [unwrapR_inv hht] at hr
      obtain ⟨n, h1, h2⟩ := table_order hsort hne hn hr
      have hp : ht.entries.Perm S := by
        obtain ⟨hs1, hs2⟩ := HashTable.new_spec .large hsort S (fun x => hash x.key) hn
        by_cases hc : S.length ≤ Magnitude.large.maxCapacity
        · obtain ⟨t, h3, -, h4, -⟩ := hs1 hc
          rw [hr] at h3
          cases h3
          exact h4
        · rw [hs2 (by omega)] at hr
          cases hr
      have hcodes : (S.map (fun e => e.toTokens)).map (fun e => hk e.1) = S.map (fun x => hash x.key) := by
        rw [List.map_map]
        exact List.map_congr_left (fun x hx => hag x hx)
      have ho : SlotOrder hk n (ht.entries.map (fun e => e.toTokens)) := by
        unfold SlotOrder
        rw [List.pairwise_map]
        refine h2.imp_of_mem ?_
        intro a b ha hb hab
        show hk b.keyExpr % n ≤ hk a.keyExpr % n
        rw [hag a (hp.mem_iff.1 ha), hag b (hp.mem_iff.1 hb)]
        exact hab
      split at h
      · cases h
      · split at h
        · cases h
          exact ⟨trivial, n, by rw [hcodes]; exact h1, ho⟩
        · cases h
          exact ⟨trivial, n, by rw [hcodes]; exact h1, ho⟩

/-- **C89** (emitted hash collections)  Four keys or more are iterated in descending order of the remainders of their hash codes by the size of the table. -/
theorem c89_emit_hash_table [Target] {em : Emitter} {unit : V} {find : HbFind} (hfind : HbFindOk find) {sort : Sorter (CollectionEntry B K V)}
    (hsort : SorterOk sort) {eqB : B → B → Bool} (he : LawfulEq' eqB) {fixedState : Nat → B → Nat} {seed : Nat}
    (hh : ∀ a b, eqB a b = true → fixedState seed a = fixedState seed b) {eqK : K → K → Bool} {hk : K → Nat}
    {entries : List (CollectionEntry B K V)} (hn : entries.length < sizeLimit)
    (hag : ∀ x ∈ entries, ∀ y ∈ entries, eqB x.key y.key = eqK x.keyExpr y.keyExpr)
    (hhash : ∀ x ∈ entries, hk x.keyExpr = fixedState seed x.key) {item : Item (Emitted K V)}
    (hi : em.emitHash unit find sort eqB fixedState seed entries = .ok (.ok item)) {eq' : K → K → Bool} {cmp' : K → K → Ordering}
    {fz : FzKind → List (K × V) → Option (Res F)} {m : InlineMap K V} (hm : item.ctor.compile eq' cmp' fz = some (.ok (.inl m)))
    (t : QueryTraits T K) {R : List B} (hR : Representatives eqB (entries.map (fun e => (e.key, ()))) R) (hl : 4 ≤ R.length) :
    ∃ n, SizedFor ((survivors eqK (written em unit entries)).map (fun e => hk e.1)) n ∧ SlotOrder hk n ((InlineMap.impl t).iter m).rest := by
  have he' : LawfulEq' (fun x y : CollectionEntry B K V => eqB x.key y.key) := he.comap _
  have hlen := kept_length (em := em) (unit := unit) he hR (List.Perm.refl _)
  unfold Emitter.emitHash at hi
  rw [c07_using_hash hfind he' (fun a b h => hh _ _ h)] at hi
  simp only [bind, Except.bind] at hi
  have h := Emitter.finish_inv hi
  rw [if_neg (by rw [hlen]; omega)] at h
  have hsub := keepLast_sublist (fun x y : CollectionEntry B K V => eqB x.key y.key) (em.cleanValues unit entries)
  have hle := hsub.length_le
  rw [Emitter.cleanValues_length] at hle
  obtain ⟨hr, n, h1, h2⟩ := genHash_order hsort (by intro h0; rw [h0] at hlen; simp at hlen; omega) (by omega) h (hk := hk) (by
    intro x hx
    obtain ⟨x', hx', e1, e2⟩ := Emitter.cleanValues_mem (hsub.subset hx)
    rw [e1, e2]
    exact hhash x' hx')
  rw [dedup_agrees hag] at h1
  refine ⟨n, h1, ?_⟩
  show SlotOrder hk n m.entries
  rw [Emitted.compile_listed hr hm]
  exact h2

/-- **C89** (emitted scalar collections, other keys)  Eight keys or more that neither fill their range nor are close together are iterated in descending
order of the remainders of their indices by the size of the table. -/
theorem c89_emit_scalar_otherwise [Target] {em : Emitter} {unit : V} {b : Build} {sort : Sorter (CollectionEntry B K V)} (hsort : SorterOk sort)
    {cmpB : B → B → Ordering} {index : B → Nat} (hB : LawfulScalar cmpB index) {cmp : K → K → Ordering} {indexK : K → Nat}
    {entries : List (CollectionEntry B K V)} (hn : entries.length < tableLimit)
    (hag : ∀ x ∈ entries, ∀ y ∈ entries, cmpB x.key y.key = cmp x.keyExpr y.keyExpr) (hidx : ∀ x ∈ entries, indexK x.keyExpr = index x.key)
    {item : Item (Emitted K V)}
    (hi : em.emitScalar unit b sort cmpB index entries = .ok (.ok item)) {eq' : K → K → Bool} {cmp' : K → K → Ordering}
    {fz : FzKind → List (K × V) → Option (Res F)} {m : InlineMap K V} (hm : item.ctor.compile eq' cmp' fz = some (.ok (.inl m)))
    (t : QueryTraits T K) (hf : ¬ Filled (entries.map (fun e => index e.key)).toFinset)
    (hnr : ¬ Narrow (entries.map (fun e => index e.key)).toFinset) (h8 : 8 ≤ (entries.map (fun e => index e.key)).toFinset.card) :
    ∃ n, SizedFor ((survivors (fun a b => cmp a b == .eq) (written em unit entries)).map (fun e => indexK e.1)) n ∧
      SlotOrder indexK n ((InlineMap.impl t).iter m).rest := by
  have hlim := target_cases
  have hne : entries ≠ [] := by
    rintro rfl
    simp at h8
  obtain ⟨s, hu, hs⟩ := c72_emit_scalar hB hne hn hi
  have hp := sortedAndDedupped_perm (hB.lawfulCmp.comap (fun x : CollectionEntry B K V => x.key)) (em.cleanValues unit entries)
  have hle := sortedAndDedupped_le (em.cleanValues unit entries) (fun x y => cmpB x.key y.key)
  rw [Emitter.cleanValues_length] at hle
  have hda := dedup_agrees (eqB := fun a b => cmpB a b == .eq) (eqK := fun a b => cmp a b == .eq) (em := em) (unit := unit) (entries := entries)
    (fun x hx y hy => by rw [hag x hx y hy])
  have hne' : sortedAndDedupped (em.cleanValues unit entries) (fun x y => cmpB x.key y.key) ≠ [] := by
    intro h0
    rw [h0] at hp
    refine keepLast_ne_nil (LawfulCmp'.eqLawful (hB.lawfulCmp.comap (fun x : CollectionEntry B K V => x.key))) ?_ hp.symm.eq_nil
    intro h1
    have := Emitter.cleanValues_length em unit entries
    rw [h1] at this
    exact hne (List.length_eq_zero_iff.1 this.symm)
  unfold Emitter.emitScalar at hi
  simp only [bind, Except.bind] at hi
  split at hi
  · cases hi
  · rename_i a ha
    have h := Emitter.finish_inv hi
    have hs' : s = .scalarAsHash := by
      cases hs with
      | dense h => exact absurd h hf
      | sparse _ h => exact absurd h hnr
      | scan _ _ h => exact absurd h (by omega)
      | hash => rfl
    subst hs'
    generalize sortedAndDedupped (em.cleanValues unit entries) (fun x y => cmpB x.key y.key) = S at hp hle hne' h ha
    cases a with
    | denseRange =>
      have h' : Generator.genDense _ b index S = .ok item.ctor := h
      unfold Generator.genDense at h'
      simp only [bind, Except.bind] at h'
      repeat (split at h'; · cases h')
      rw [← Except.ok.inj h'] at hu
      cases hu
    | sparseRange =>
      have h' : Generator.genSparse _ b index S = .ok item.ctor := h
      unfold Generator.genSparse at h'
      simp only [bind, Except.bind] at h'
      repeat (split at h'; · cases h')
      rw [← Except.ok.inj h'] at hu
      cases hu
    | general =>
      simp only [Generator.genScalar] at h
      by_cases h8 : S.length < 8
      · rw [if_pos h8] at h
        rw [← Except.ok.inj h] at hu
        cases hu
      · rw [if_neg h8] at h
        obtain ⟨hr, n, h1, h2⟩ := genHash_order hsort hne' (by omega) h (hk := indexK) (by
          intro x hx
          obtain ⟨x', hx', e1, e2⟩ := Emitter.cleanValues_mem (hle.2 x hx)
          rw [e1, e2]
          exact hidx x' hx')
        refine ⟨n, ?_, ?_⟩
        · unfold written
          rw [← hda]
          exact h1.perm ((hp.map _).map _)
        · show SlotOrder indexK n m.entries
          rw [Emitted.compile_listed hr hm]
          exact h2

/-- **C89** (emitted string collections)  Four strings or more are iterated in descending order of the remainders of their hash codes by the size of the
table. -/
theorem c89_emit_string_table [Target] {em : Emitter} {unit : V} {sort : Sorter (CollectionEntry Str K V)} (hsort : SorterOk sort)
    {fsStr fsSlice : Nat → Str → Nat} {seed : Nat} {bytesK : K → Str} {entries : List (CollectionEntry Str K V)} (hn : entries.length < sizeLimit)
    (hag : ∀ x ∈ entries, bytesK x.keyExpr = x.key) {item : Item (Emitted K V)}
    (hi : em.emitString unit sort fsStr fsSlice seed entries = .ok (.ok item)) {eq' : K → K → Bool} {cmp' : K → K → Ordering}
    {fz : FzKind → List (K × V) → Option (Res F)} {m : InlineMap K V} (hm : item.ctor.compile eq' cmp' fz = some (.ok (.inl m)))
    (t : QueryTraits T K) {R : List Str} (hR : Representatives (fun a b => a == b) (entries.map (fun e => (e.key, ()))) R) (hl : 4 ≤ R.length) :
    ∃ code n, StringCode (fsStr seed) (fsSlice seed) code ∧
      SizedFor ((survivors (fun a b => bytesK a == bytesK b) (written em unit entries)).map (fun e => code (bytesK e.1))) n ∧
      SlotOrder (fun k => code (bytesK k)) n ((InlineMap.impl t).iter m).rest := by
  have heq : (fun a b : Str => strCmp a b == .eq) = fun a b => a == b := strCmp_beq'
  rw [← heq] at hR
  have hp := sortedAndDedupped_perm (strCmp_lawful.comap (fun x : CollectionEntry Str K V => x.key)) (em.cleanValues unit entries)
  have hlen := kept_length (em := em) (unit := unit) (LawfulCmp'.eqLawful strCmp_lawful) hR hp
  have hle := sortedAndDedupped_le (em.cleanValues unit entries) (fun x y => strCmp x.key y.key)
  rw [Emitter.cleanValues_length] at hle
  have hda := dedup_agrees (eqB := fun a b => strCmp a b == .eq) (eqK := fun a b => bytesK a == bytesK b) (em := em) (unit := unit) (entries := entries)
    (fun x hx y hy => by rw [hag x hx, hag y hy]; exact congrFun (congrFun heq _) _)
  unfold Emitter.emitString at hi
  rw [(c07_using_cmp (strCmp_lawful.comap (fun x : CollectionEntry Str K V => x.key)) _).1] at hi
  have h := Emitter.finish_inv hi
  generalize sortedAndDedupped (em.cleanValues unit entries) (fun x y => strCmp x.key y.key) = S at hp hle hlen h
  unfold Generator.genStringOrScan at h
  rw [if_neg (by omega)] at h
  obtain ⟨a, ha, -, hL, hR'⟩ := analyzeSliceKeys_spec (fun x y : UInt8 => x == y) (fsSlice seed) (S.map (fun x => x.key))
  simp only [ha, bind, Except.bind] at h
  have key : ∀ (code : Str → Nat) (hasher : HasherTok), StringCode (fsStr seed) (fsSlice seed) code →
      (Generator.new S.length).genHash sort S code hasher = .ok item.ctor →
      ∃ code n, StringCode (fsStr seed) (fsSlice seed) code ∧
        SizedFor ((survivors (fun a b => bytesK a == bytesK b) (written em unit entries)).map (fun e => code (bytesK e.1))) n ∧
        SlotOrder (fun k => code (bytesK k)) n ((InlineMap.impl t).iter m).rest := by
    intro code hasher hc h
    obtain ⟨hr, n, h1, h2⟩ := genHash_order hsort (by intro h0; rw [h0] at hlen; simp at hlen; omega) (by omega) h (hk := fun k => code (bytesK k)) (by
      intro x hx
      obtain ⟨x', hx', e1, e2⟩ := Emitter.cleanValues_mem (hle.2 x hx)
      rw [e1, e2, hag x' hx'])
    refine ⟨code, n, hc, ?_, ?_⟩
    · unfold written
      rw [← hda]
      exact h1.perm ((hp.map _).map _)
    · show SlotOrder _ n m.entries
      rw [Emitted.compile_listed hr hm]
      exact h2
  cases a with
  | general => exact key _ _ .whole h
  | length =>
    have : emitHashVal (lengthHash : Str → Res Nat) = List.length := hashVal_ok (fun _ => rfl)
    simp only [Generator.genString, this] at h
    exact key _ _ .length h
  | left r =>
    have hr := (hL r rfl).1
    have hv : emitHashVal (leftRangeHash (fsSlice seed) r) = _ := hashVal_ok (leftRangeHash_code hr)
    simp only [Generator.genString, hashAll_ok (leftRangeHash_code hr), hv, bind, Except.bind] at h
    exact key _ _ (.front r.lo r.hi hr) h
  | right r =>
    have hr := (hR' r rfl).1
    have hv : emitHashVal (rightRangeHash (fsSlice seed) r) = _ := hashVal_ok (rightRangeHash_code hr)
    simp only [Generator.genString, hashAll_ok (rightRangeHash_code hr), hv, bind, Except.bind] at h
    exact key _ _ (.back r.lo r.hi hr) h

/-! ## Examples -/

section
attribute [local instance] w64

/-- Keys of another type in a table. -/
example : ∃ item m, staticMap.emitHash "" listFind slotSort natEq (fun seed q => (seed + 31 * q) % 2 ^ 64) 77
      [⟨30, 30, "a"⟩, ⟨10, 10, "b"⟩, ⟨18, 18, "c"⟩, ⟨10, 10, "d"⟩, ⟨5, 5, "e"⟩] = .ok (.ok item) ∧
    item.ctor.compile (F := Unit) natEq natCmp (fun _ _ => none) = some (.ok (.inl m)) ∧
    ∃ n, SizedFor [1007, 635, 387, 232] n ∧ SlotOrder (fun q => (77 + 31 * q) % 2 ^ 64) n ((InlineMap.impl natTraits).iter m).rest := by
  obtain ⟨item, m, h, -, c, -⟩ := c37_emit_hash (t := natTraits) (em := staticMap) (by unfold ValidOptions; decide) (unit := "") listFind_ok slotSort_ok
    natEq_lawful natEq_lawful natEq_query (fixedState := fun seed q => (seed + 31 * q) % 2 ^ 64) (seed := 77) (by decide)
    (fun a b h => by rw [eq_of_beq h]) (hk := fun q => (77 + 31 * q) % 2 ^ 64) (natEq_hash _)
    (entries := [⟨30, 30, "a"⟩, ⟨10, 10, "b"⟩, ⟨18, 18, "c"⟩, ⟨10, 10, "d"⟩, ⟨5, 5, "e"⟩]) (by decide) (by decide) (by decide)
  refine ⟨item, m, h, c _ _ _ _, ?_⟩
  have e : (survivors natEq (written staticMap "" ([⟨30, 30, "a"⟩, ⟨10, 10, "b"⟩, ⟨18, 18, "c"⟩, ⟨10, 10, "d"⟩, ⟨5, 5, "e"⟩] :
      List (CollectionEntry Nat Nat String)))).map (fun e => (77 + 31 * e.1) % 2 ^ 64) = [1007, 635, 387, 232] := by decide
  rw [← e]
  exact c89_emit_hash_table listFind_ok slotSort_ok natEq_lawful (fun a b h => by rw [eq_of_beq h]) (eqK := natEq)
    (hk := fun q => (77 + 31 * q) % 2 ^ 64) (by decide) (by decide) (by decide) h (c Unit natEq natCmp (fun _ _ => none)) natTraits (R := [30, 18, 10, 5]) ⟨by unfold Distinct; decide, by decide, by decide⟩ (by decide)

/-- A string map. -/
example : ∃ m, FzStringMap.withHasher slotSort (fun s => 3 * s.length) (fun s => s.sum.toNat) [([1, 2], 'a'), ([3, 4], 'b'), ([1, 2], 'c')] = .ok m ∧
    ∃ code n, StringCode (fun s => 3 * s.length) (fun s => s.sum.toNat) code ∧ SizedFor [code [3, 4], code [1, 2]] n ∧
      SlotOrder code n ((FzStringMap.impl (fun s => 3 * s.length) (fun s => s.sum.toNat)).iter m).rest := by
  obtain ⟨m, hm, -⟩ := FzStringMap.withHasher_spec (V := Char) slotSort_ok (fun s => 3 * s.length) (fun s => s.sum.toNat)
    [([1, 2], 'a'), ([3, 4], 'b'), ([1, 2], 'c')] (by decide)
  exact ⟨m, hm, c89_string slotSort_ok (by simp) (by decide) hm _ _⟩

/-- Eight scalars far apart. -/
example : ∃ item m, staticMap.emitScalar "" .debug slotSort u64Cmp UInt64.toNat
      ([0, 1000, 2000, 3000, 4000, 5000, 6000, 7000].map fun n => ⟨n, n, "x"⟩) = .ok (.ok item) ∧
    item.ctor.compile (F := Unit) (fun a b => a == b) u64Cmp (fun _ _ => none) = some (.ok (.inl m)) ∧
    ∃ n, SizedFor [0, 1000, 2000, 3000, 4000, 5000, 6000, 7000] n ∧ SlotOrder UInt64.toNat n ((InlineMap.impl u64Traits).iter m).rest := by
  obtain ⟨item, m, h, -, c, -⟩ := c37_emit_scalar (t := u64Traits) (em := staticMap) (by unfold ValidOptions; decide) (unit := "") .debug slotSort_ok
    u64_scalar u64_scalar (by funext a b; rfl) (entries := [0, 1000, 2000, 3000, 4000, 5000, 6000, 7000].map fun n => ⟨n, n, "x"⟩) (by decide) (by decide)
    (by decide)
  have hD : (([0, 1000, 2000, 3000, 4000, 5000, 6000, 7000].map fun n : UInt64 => (⟨n, n, "x"⟩ : CollectionEntry UInt64 UInt64 String)).map
      (fun e => e.key.toNat)).toFinset = {0, 1000, 2000, 3000, 4000, 5000, 6000, 7000} := by decide
  refine ⟨item, m, h, c _ _ _ _, ?_⟩
  exact c89_emit_scalar_otherwise slotSort_ok u64_scalar (indexK := UInt64.toNat) (by decide) (cmp := u64Cmp) (by decide) (by decide) h
    (c Unit (fun a b => a == b) u64Cmp (fun _ _ => none)) u64Traits
    (by rw [hD]; intro h; exact absurd (h 0 (by decide) 1000 (by decide) 5 (by decide) (by decide)) (by decide))
    (by
      rw [hD]
      rintro (h | h)
      · exact absurd (h 0 (by decide) 7000 (by decide)) (by decide)
      · exact absurd (h 0 (by decide) 7000 (by decide)) (by decide))
    (by decide)

/-- Four emitted strings. -/
example : ∃ item m, staticMap.emitString "" slotSort (fun seed x => (seed + 3 * x.length) % 2 ^ 64) (fun seed x => (seed + x.sum.toNat) % 2 ^ 64) 5
      [⟨[65], [65], "a"⟩, ⟨[66, 67], [66, 67], "b"⟩, ⟨[], [], "c"⟩, ⟨[68], [68], "d"⟩] = .ok (.ok item) ∧
    item.ctor.compile (F := Unit) (fun a b => a == b) strCmp (fun _ _ => none) = some (.ok (.inl m)) ∧
    ∃ code n, StringCode (fun x => (5 + 3 * x.length) % 2 ^ 64) (fun x => (5 + x.sum.toNat) % 2 ^ 64) code ∧
      SizedFor [code [65], code [66, 67], code [], code [68]] n ∧ SlotOrder code n ((InlineMap.impl strTraits).iter m).rest := by
  obtain ⟨item, m, h, -, c, -⟩ := c37_emit_string (t := strTraits) (em := staticMap) (by unfold ValidOptions; decide) (unit := "") slotSort_ok
    (fsStr := fun seed x => (seed + 3 * x.length) % 2 ^ 64) (fsSlice := fun seed x => (seed + x.sum.toNat) % 2 ^ 64) (seed := 5) (by decide)
    (bytesK := fun x => x) rfl (fun _ => rfl) rfl
    (entries := [⟨[65], [65], "a"⟩, ⟨[66, 67], [66, 67], "b"⟩, ⟨[], [], "c"⟩, ⟨[68], [68], "d"⟩]) (by decide) (by decide) (by decide)
  refine ⟨item, m, h, c _ _ _ _, ?_⟩
  exact c89_emit_string_table slotSort_ok (bytesK := fun x => x) (by decide) (by decide) h (c Unit (fun a b => a == b) strCmp (fun _ _ => none)) strTraits
    (R := [[65], [66, 67], [], [68]]) ⟨by unfold Distinct; decide, by decide, by decide⟩ (by decide)

end

end Frozen.Props
