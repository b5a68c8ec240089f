import Verif.Lemmas.IterOrder
import Verif.Props.Strategy
import Verif.Props.TableSize
import Verif.Props.Eytzinger
import Verif.Props.SetSpec
import Verif.Props.MacroExpr
import Verif.Lemmas.Portable
import Mathlib.Tactic.Tauto

/-!
# Property theorems: the order of iteration (C89)

The order is stated for `iter`; all the other ways to walk through a collection show the same entries in the same order (`c44_map_iterators_exact` and its
companions).
-/

namespace Frozen.Props

open Frozen Frozen.Spec Frozen.Model

variable {K V B T F : Type}

/-! ## Orders -/

/-- In ascending order of the keys. -/
def AscendingKeys (cmp : K → K → Ordering) (es : List (K × V)) : Prop := es.Pairwise (fun a b => cmp a.1 b.1 = .lt)

/-- The entries, seen as a heap (the children of position `i` are at `2 i + 1` and `2 i + 2`), form a search tree. -/
def TreeOrder (cmp : K → K → Ordering) (es : List (K × V)) : Prop :=
  AscendingKeys cmp ((inorder es.length 0).filterMap (fun j => es[j]?))

/-- In descending order of the places that the hash codes get in a table with `n` slots. -/
def SlotOrder (hash : K → Nat) (n : Nat) (es : List (K × V)) : Prop := es.Pairwise (fun a b => hash b.1 % n ≤ hash a.1 % n)

/-- The table has the size that C68 says for the hash codes. -/
def SizedFor (codes : List Nat) (n : Nat) : Prop :=
  ∀ lo hi, LeastPow (codes.length - tolerated codes.length 0) lo → LeastPow (growthLimit codes.length * codes.length) hi → BestSize codes lo hi n

/-! ## Counting keys -/

theorem survivors_length {eqK : K → K → Bool} (he : LawfulEq' eqK) {es S : List (K × V)} {R : List K} (hR : Representatives eqK es R)
    (hS : S.Perm (survivors eqK es)) : S.length = R.length := by
  have he' : LawfulEq' (fun x y : K × V => eqK x.1 y.1) := he.comap _
  have hd : Distinct eqK (S.map (fun e => e.1)) := by
    have := Distinct.perm he' hS.symm (keepLast_distinct _)
    unfold Distinct at this ⊢
    exact List.pairwise_map.2 this
  have h1 : (S.map (fun e => e.1)).length ≤ R.length := by
    refine distinct_length_le he hd ?_
    intro a ha
    obtain ⟨e, hm, rfl⟩ := List.mem_map.1 ha
    exact hR.covers e (survivors_mem (hS.mem_iff.1 hm))
  have h2 : R.length ≤ (S.map (fun e => e.1)).length := by
    refine distinct_length_le he hR.distinct ?_
    intro k hk
    obtain ⟨e, hm, hek⟩ := hR.only k hk
    obtain ⟨e', h3, h4⟩ := exists_mem_keepLast he' hm
    exact ⟨e'.1, List.mem_map.2 ⟨e', hS.mem_iff.2 h3, rfl⟩, he.trans _ _ _ (he.symm _ _ hek) h4⟩
  simp only [List.length_map] at h1 h2
  omega

theorem ascendingKeys_asymm {cmp : K → K → Ordering} (hc : LawfulCmp cmp) (a b : K × V) (h : cmp a.1 b.1 = .lt) : ¬ cmp b.1 a.1 = .lt := by
  rw [hc.swap, h]; decide

/-! ## Ordered collections -/

/-- **C89** (ordered maps)  `FzOrderedMap` and `EytzingerSearchMap` are iterated as a search tree is stored. -/
theorem c89_ordered_tree [Target] {cmp : K → K → Ordering} (hc : LawfulCmp cmp) {es : List (K × V)} {m : EytzingerMap K V}
    (hm : FzOrderedMap.new cmp es = .ok m) (qcmp : T → K → Ordering) : TreeOrder cmp ((FzOrderedMap.impl qcmp).iter m).rest := by
  have h := eytzingerLayout_inorder (EytzingerMap.new_inv hm)
  show AscendingKeys cmp ((inorder m.entries.length 0).filterMap (fun j => m.entries[j]?))
  rw [h]
  exact sortedAndDedupped_strict hc.entry es

/-- **C89** (ordered maps, exact)  An ordered map is iterated in the order of its keys exactly if it has at most one. -/
theorem c89_ordered_iff [Target] {cmp : K → K → Ordering} (hc : LawfulCmp cmp) {es : List (K × V)} {m : EytzingerMap K V}
    (hm : FzOrderedMap.new cmp es = .ok m) (qcmp : T → K → Ordering) {R : List K} (hR : Representatives (fun a b => cmp a b == .eq) es R) :
    AscendingKeys cmp ((FzOrderedMap.impl qcmp).iter m).rest ↔ R.length ≤ 1 := by
  have h := eytzingerLayout_sorted_iff (ascendingKeys_asymm hc) (sortedAndDedupped_strict (hc.entry (V := V)) es) (EytzingerMap.new_inv hm)
  rw [survivors_length (LawfulCmp'.eqLawful hc) hR (sortedAndDedupped_survivors hc es)] at h
  exact h

/-- **C89** (ordered sets, exact) -/
theorem c89_ordered_set_iff [Target] {cmp : K → K → Ordering} (hc : LawfulCmp cmp) {xs : List K} {m : EytzingerMap K Unit}
    (hm : FzOrderedSet.new cmp xs = .ok m) (qcmp : T → K → Ordering) {R : List K}
    (hR : Representatives (fun a b => cmp a b == .eq) (unitEntries xs) R) :
    ((fzSetImpl (FzOrderedMap.impl qcmp)).items m).Pairwise (fun a b => cmp a b = .lt) ↔ R.length ≤ 1 := by
  rw [← c89_ordered_iff hc hm qcmp hR]
  exact List.pairwise_map

/-- **C89** (violated)  An ordered map with the keys 1 and 2 gives 2 first. -/
theorem c89_violated [Target] : ∃ m, FzOrderedMap.new natCmp [(1, 'a'), (2, 'b')] = .ok m ∧
    ¬ AscendingKeys natCmp ((FzOrderedMap.impl natCmp).iter m).rest := by
  obtain ⟨m, hm, -⟩ := EytzingerMap.new_spec natCmp_lawful [(1, 'a'), (2, 'b')]
  refine ⟨m, hm, ?_⟩
  rw [c89_ordered_iff natCmp_lawful hm natCmp (R := [1, 2]) ⟨by unfold Distinct; decide, by decide, by decide⟩]
  decide

/-! ## Scalar collections -/

theorem crowded_perm {codes codes' : List Nat} (h : codes.Perm codes') (s : Nat) : crowded codes s = crowded codes' s := by
  unfold crowded
  rw [h.length_eq, List.toFinset_eq_of_perm _ _ (h.map (· % s))]

theorem SizedFor.perm {codes codes' : List Nat} {n : Nat} (hp : codes.Perm codes') (h : SizedFor codes n) : SizedFor codes' n := by
  intro lo hi h1 h2
  rw [← hp.length_eq] at h1 h2
  have := h lo hi h1 h2
  unfold BestSize SizeAdequate at this ⊢
  simp only [crowded_perm hp, hp.length_eq] at this
  exact this

theorem table_order [Target] {cm : Magnitude} {sort : Sorter T} (hsort : SorterOk sort) {entries : List T} (hne : entries ≠ []) {hash : T → Nat}
    (hsz : entries.length < sizeLimit) {t : HashTable T} (ht : HashTable.new cm sort entries hash = .ok (.ok t)) :
    ∃ n, SizedFor (entries.map hash) n ∧ t.entries.Pairwise (fun a b => hash b % n ≤ hash a % n) := by
  refine ⟨t.slots.length, ?_, HashTable.new_order hsort hsz ht⟩
  intro lo hi h1 h2
  rw [List.length_map] at h1 h2
  exact c68_table hne hsz ht h1 h2

/-- **C89** (scalar maps)  A scalar map whose keys fill their range, or are close together, is iterated in the order of its keys. -/
theorem c89_scalar_partial [Target] {b : Build} {sort : Sorter (K × V)} {cmp : K → K → Ordering} {index : K → Nat}
    (hs : LawfulScalar cmp index) {es : List (K × V)} (hn : es.length < tableLimit) {m : FzScalarMap K V}
    (hm : FzScalarMap.new b sort cmp index es = .ok m) (qindex : T → Nat) (mt : T → K → Bool)
    (hD : Filled (es.map (fun e => index e.1)).toFinset ∨ Narrow (es.map (fun e => index e.1)).toFinset) :
    AscendingKeys cmp ((FzScalarMap.impl qindex mt).iter m).rest := by
  have hst := sortedAndDedupped_strict (hs.lawfulCmp.entry (V := V)) es
  obtain ⟨h1, h2⟩ := FzScalarMap.new_entries hm
  show AscendingKeys cmp m.entries
  by_cases hh : ∃ h, m = .hash h
  · obtain ⟨h, rfl⟩ := hh
    by_cases hne : es = []
    · subst hne
      have h3 := h2 h rfl
      have h4 : sortedAndDedupped ([] : List (K × V)) (fun x y => cmp x.1 y.1) = [] :=
        List.eq_nil_of_length_eq_zero (Nat.le_zero.1 (sortedAndDedupped_le [] _).1)
      rw [h4] at h3
      have h5 : h.table = HashTable.default := by
        unfold HashTable.new at h3
        simp only [List.isEmpty_nil, if_true] at h3
        exact (Except.ok.inj (Except.ok.inj h3)).symm
      show AscendingKeys cmp h.table.entries
      rw [h5]
      exact List.Pairwise.nil
    · obtain ⟨s, hu, hst⟩ := c72_fz_scalar_map hs hne hn hm
      cases hu
      cases hst
      rename_i hs' hf hn'
      exact absurd hD (by tauto)
  · rw [h1 (fun h e => hh ⟨h, e⟩)]
    exact hst

/-- **C89** (scalar maps, other keys)  Otherwise the map is iterated in descending order of the remainders of the indices by the size of the table. -/
theorem c89_scalar_otherwise [Target] {b : Build} {sort : Sorter (K × V)} (hsort : SorterOk sort) {cmp : K → K → Ordering} {index : K → Nat}
    (hs : LawfulScalar cmp index) {es : List (K × V)} (hn : es.length < tableLimit) {m : FzScalarMap K V}
    (hm : FzScalarMap.new b sort cmp index es = .ok m) (qindex : T → Nat) (mt : T → K → Bool)
    (hf : ¬ Filled (es.map (fun e => index e.1)).toFinset) (hnr : ¬ Narrow (es.map (fun e => index e.1)).toFinset) :
    ∃ n, SizedFor ((survivors (fun a b => cmp a b == .eq) es).map (fun e => index e.1)) n ∧
      SlotOrder index n ((FzScalarMap.impl qindex mt).iter m).rest := by
  have hlim := target_cases
  have hne : es ≠ [] := by
    rintro rfl
    exact hf (by intro x hx; simp at hx)
  obtain ⟨h1, h2⟩ := FzScalarMap.new_entries hm
  obtain ⟨s, hu, hst⟩ := c72_fz_scalar_map hs hne hn hm
  have hp := sortedAndDedupped_survivors hs.lawfulCmp es
  obtain ⟨h, rfl⟩ : ∃ h, m = .hash h := by
    cases hst with
    | dense h => exact absurd h hf
    | sparse _ h => exact absurd h hnr
    | scan _ _ h => exact absurd h (by omega)
    | hash => cases m <;> first | exact ⟨_, rfl⟩ | cases hu
  have hlen := (sortedAndDedupped_le es (fun x y => cmp x.1 y.1)).1
  obtain ⟨n, h3, h4⟩ := table_order hsort (by
    intro h0
    rw [h0] at hp
    obtain ⟨e, he⟩ := List.exists_mem_of_ne_nil es hne
    obtain ⟨e', h1, -⟩ := exists_mem_keepLast (LawfulCmp'.eqLawful (hs.lawfulCmp.entry (V := V))) he
    exact absurd (hp.mem_iff.2 h1) (by simp)) (by omega) (h2 h rfl)
  exact ⟨n, h3.perm (hp.map _), h4⟩

/-! ## Other collections -/

/-- **C89** (hash maps) -/
theorem c89_hash [Target] {find : HbFind} (hfind : HbFindOk find) {sort : Sorter (K × V)} (hsort : SorterOk sort) {eqK : K → K → Bool}
    (he : LawfulEq' eqK) {hK : K → Nat} (hh : ∀ a b, eqK a b = true → hK a = hK b) {es : List (K × V)} (hne : es ≠ []) (hn : es.length < sizeLimit)
    {m : HashMap K V} (hm : FzHashMap.withHasher find sort eqK hK es = .ok m) (hQ : T → Nat) (mt : T → K → Bool) :
    ∃ n, SizedFor ((survivors eqK es).map (fun e => hK e.1)) n ∧ SlotOrder hK n ((FzHashMap.impl hQ mt).iter m).rest := by
  have he' : LawfulEq' (fun x y : K × V => eqK x.1 y.1) := he.comap _
  unfold FzHashMap.withHasher at hm
  rw [c07_using_hash hfind he' (fun a b h => hh _ _ h)] at hm
  simp only [bind, Except.bind] at hm
  split at hm
  · cases hm
  · rename_i r hr
    rw [unwrapR_inv hm] at hr
    have ht := HashMap.fromDedupped_table (hk := hK) (fun _ => rfl) hr
    have hl := survivors_length_le eqK es
    refine table_order hsort ?_ (Nat.lt_of_le_of_lt hl hn) ht
    obtain ⟨e, hm⟩ := List.exists_mem_of_ne_nil es hne
    obtain ⟨e', h1, -⟩ := exists_mem_keepLast he' hm
    exact List.ne_nil_of_mem h1

/-- **C89** (scan maps)  In the order of the input, each key where it was given last. -/
theorem c89_scan {eqK : K → K → Bool} (he : LawfulEq' eqK) (es : List (K × V)) (mt : T → K → Bool) :
    ((ScanMap.impl mt).entries (ScanMap.new eqK es)).Sublist es ∧
    ∀ e, e ∈ (ScanMap.impl mt).entries (ScanMap.new eqK es) ↔ lastMatch eqK es e.1 = some e := by
  have h : (ScanMap.impl mt).entries (ScanMap.new eqK es) = survivors eqK es := c07_using_eq _ _
  rw [h]
  exact ⟨keepLast_sublist _ _, fun e => lastMatch_self he⟩

/-! ## Emitted collections -/

theorem tokens_ascending {em : Emitter} {unit : V} {cmpB : B → B → Ordering} {cmp : K → K → Ordering} {entries : List (CollectionEntry B K V)}
    (hB : LawfulCmp cmpB) (hag : ∀ x ∈ entries, ∀ y ∈ entries, cmpB x.key y.key = cmp x.keyExpr y.keyExpr) :
    AscendingKeys cmp ((sortedAndDedupped (em.cleanValues unit entries) (fun x y => cmpB x.key y.key)).map (fun e => e.toTokens)) := by
  unfold AscendingKeys
  rw [List.pairwise_map]
  refine (sortedAndDedupped_strict (hB.comap (fun x : CollectionEntry B K V => x.key)) _).imp_of_mem ?_
  intro a b ha hb hab
  obtain ⟨a', h1, h2, h3⟩ := Emitter.cleanValues_mem ((sortedAndDedupped_le _ _).2 a ha)
  obtain ⟨b', h4, h5, h6⟩ := Emitter.cleanValues_mem ((sortedAndDedupped_le _ _).2 b hb)
  show cmp a.keyExpr b.keyExpr = .lt
  rw [h3, h6, ← hag a' h1 b' h4, ← h2, ← h5]
  exact hab

theorem layout_map [Target] {f : T → B} {S A : List T} (h : eytzingerLayout S = .ok A) : eytzingerLayout (S.map f) = .ok (A.map f) := by
  obtain ⟨A1, h1, h2, h3⟩ := eytzingerLayout_spec S
  obtain ⟨A2, h4, h5, h6⟩ := eytzingerLayout_spec (S.map f)
  rw [h] at h1
  cases h1
  rw [h4]
  congr 1
  rw [List.length_map] at h5 h6
  apply List.ext_getElem?
  intro j
  by_cases hj : j < S.length
  · rw [h6 j hj, List.getElem?_map, List.getElem?_map, h3 j hj]
  · rw [List.getElem?_eq_none (by omega), List.getElem?_eq_none (by rw [List.length_map]; omega)]

/-- **C89** (emitted ordered collections, exact)  They are iterated in the order of their keys exactly if they have fewer than four. -/
theorem c89_emit_ordered_iff [Target] {em : Emitter} {unit : V} {cmpB : B → B → Ordering} {cmp : K → K → Ordering} (hB : LawfulCmp cmpB)
    (hc : LawfulCmp cmp) {entries : List (CollectionEntry B K V)}
    (hag : ∀ x ∈ entries, ∀ y ∈ entries, cmpB x.key y.key = cmp x.keyExpr y.keyExpr) {item : Item (Emitted K V)}
    (hi : em.emitOrdered unit cmpB entries = .ok (.ok item)) {eq' : K → K → Bool} {cmp' : K → K → Ordering}
    {fz : FzKind → List (K × V) → Option (Res F)} {m : InlineMap K V} (hm : item.ctor.compile eq' cmp' fz = some (.ok (.inl m)))
    (t : QueryTraits T K) {R : List B} (hR : Representatives (fun a b => cmpB a b == .eq) (entries.map (fun e => (e.key, ()))) R) :
    (AscendingKeys cmp ((InlineMap.impl t).iter m).rest ↔ R.length < 4) ∧ (4 ≤ R.length → TreeOrder cmp ((InlineMap.impl t).iter m).rest) := by
  have hp := sortedAndDedupped_perm (hB.comap (fun x : CollectionEntry B K V => x.key)) (em.cleanValues unit entries)
  have hl := kept_length (em := em) (unit := unit) (LawfulCmp'.eqLawful hB) hR hp
  have hasc := tokens_ascending (em := em) (unit := unit) hB hag
  unfold Emitter.emitOrdered at hi
  have h := Emitter.finish_inv hi
  show (AscendingKeys cmp m.entries ↔ _) ∧ (_ → TreeOrder cmp m.entries)
  generalize sortedAndDedupped (em.cleanValues unit entries) (fun x y => cmpB x.key y.key) = S at h hl hasc
  simp only [hl] at h
  by_cases h4 : R.length < 4
  · rw [if_pos h4] at h
    have h' := (Except.ok.inj h).symm
    have hr : item.ctor.Raw := by rw [h']; trivial
    rw [Emitted.compile_listed hr hm, h']
    exact ⟨⟨fun _ => h4, fun _ => hasc⟩, fun h => absurd h4 (by omega)⟩
  · rw [if_neg h4] at h
    unfold Generator.genEytzinger at h
    simp only [bind, Except.bind] at h
    split at h
    · cases h
    · rename_i A hA
      have h' := (Except.ok.inj h).symm
      have hr : item.ctor.Raw := by rw [h']; trivial
      rw [Emitted.compile_listed hr hm, h']
      have hA' := layout_map (f := fun e : CollectionEntry B K V => e.toTokens) hA
      refine ⟨?_, fun _ => ?_⟩
      · have := eytzingerLayout_sorted_iff (ascendingKeys_asymm (V := V) hc) hasc hA'
        rw [List.length_map, hl] at this
        constructor
        · intro hh; have := this.1 hh; omega
        · intro hh; omega
      · have := eytzingerLayout_inorder hA'
        show AscendingKeys cmp (List.filterMap _ _)
        simp only [Emitted.listed]
        rw [this]
        exact hasc

theorem genScalar_listed [Target] {g : Generator} {b : Build} {sort : Sorter (CollectionEntry B K V)} {index : B → Nat}
    {S : List (CollectionEntry B K V)} {r : ScalarAnalysis} {c : Emitted K V} (h : g.genScalar b sort index S r = .ok c)
    (hu : ¬ Uses c .scalarAsHash) : c.Raw ∧ c.listed = S.map (fun e => e.toTokens) := by
  cases r with
  | denseRange =>
    have h' : g.genDense b index S = .ok c := h
    unfold Generator.genDense at h'
    simp only [bind, Except.bind] at h'
    repeat (split at h'; · cases h')
    cases h'
    exact ⟨trivial, rfl⟩
  | sparseRange =>
    have h' : g.genSparse b index S = .ok c := h
    unfold Generator.genSparse at h'
    simp only [bind, Except.bind] at h'
    repeat (split at h'; · cases h')
    cases h'
    exact ⟨trivial, rfl⟩
  | general =>
    simp only [Generator.genScalar] at h
    by_cases h8 : S.length < 8
    · rw [if_pos h8] at h
      cases h
      exact ⟨trivial, rfl⟩
    · rw [if_neg h8] at h
      exact absurd (genHash_uses h rfl) hu

/-- **C89** (emitted scalar collections)  They are iterated in the order of their keys if there are fewer than eight, or the keys fill their range or are
close together. -/
theorem c89_emit_scalar_partial [Target] {em : Emitter} {unit : V} {b : Build} {sort : Sorter (CollectionEntry B K V)}
    {cmpB : B → B → Ordering} {index : B → Nat} (hB : LawfulScalar cmpB index) {cmp : K → K → Ordering}
    {entries : List (CollectionEntry B K V)} (hne : entries ≠ []) (hn : entries.length < tableLimit)
    (hag : ∀ x ∈ entries, ∀ y ∈ entries, cmpB x.key y.key = cmp x.keyExpr y.keyExpr) {item : Item (Emitted K V)}
    (hi : em.emitScalar unit b sort cmpB index entries = .ok (.ok item)) {eq' : K → K → Bool} {cmp' : K → K → Ordering}
    {fz : FzKind → List (K × V) → Option (Res F)} {m : InlineMap K V} (hm : item.ctor.compile eq' cmp' fz = some (.ok (.inl m)))
    (t : QueryTraits T K)
    (hD : Filled (entries.map (fun e => index e.key)).toFinset ∨ Narrow (entries.map (fun e => index e.key)).toFinset ∨
      (entries.map (fun e => index e.key)).toFinset.card < 8) :
    AscendingKeys cmp ((InlineMap.impl t).iter m).rest := by
  obtain ⟨s, hu, hs⟩ := c72_emit_scalar hB hne hn hi
  have hnot : ¬ Uses item.ctor .scalarAsHash := by
    intro hu'
    have : s = .scalarAsHash := by
      generalize item.ctor = c at hu hu'
      cases c with
      | hash _ _ _ _ _ h => cases h <;> simp_all [Uses, HasherUses]
      | hashNC _ _ _ _ _ h => cases h <;> simp_all [Uses, HasherUses]
      | _ => simp_all [Uses]
    subst this
    cases hs
    rename_i h1 h2 h3
    rcases hD with h | h | h
    · tauto
    · tauto
    · omega
  have hasc := tokens_ascending (em := em) (unit := unit) hB.lawfulCmp hag
  unfold Emitter.emitScalar at hi
  simp only [bind, Except.bind] at hi
  split at hi
  · cases hi
  · rename_i r hr
    obtain ⟨hraw, hl⟩ := genScalar_listed (Emitter.finish_inv hi) hnot
    show AscendingKeys cmp m.entries
    rw [Emitted.compile_listed hraw hm, hl]
    exact hasc

/-- **C89** (emitted string collections)  Fewer than four strings are iterated in order. -/
theorem c89_emit_string_partial [Target] {em : Emitter} {unit : V} {sort : Sorter (CollectionEntry Str K V)} {fsStr fsSlice : Nat → Str → Nat}
    {seed : Nat} {entries : List (CollectionEntry Str K V)} {cmp : K → K → Ordering}
    (hag : ∀ x ∈ entries, ∀ y ∈ entries, strCmp x.key y.key = cmp x.keyExpr y.keyExpr) {item : Item (Emitted K V)}
    (hi : em.emitString unit sort fsStr fsSlice seed entries = .ok (.ok item)) {eq' : K → K → Bool} {cmp' : K → K → Ordering}
    {fz : FzKind → List (K × V) → Option (Res F)} {m : InlineMap K V} (hm : item.ctor.compile eq' cmp' fz = some (.ok (.inl m)))
    (t : QueryTraits T K) {R : List Str} (hR : Representatives (fun a b => strCmp a b == .eq) (entries.map (fun e => (e.key, ()))) R)
    (hl : R.length < 4) : AscendingKeys cmp ((InlineMap.impl t).iter m).rest := by
  have hp := sortedAndDedupped_perm (strCmp_lawful.comap (fun x : CollectionEntry Str K V => x.key)) (em.cleanValues unit entries)
  have hlen := kept_length (em := em) (unit := unit) (LawfulCmp'.eqLawful strCmp_lawful) hR hp
  have hasc := tokens_ascending (em := em) (unit := unit) strCmp_lawful hag
  unfold Emitter.emitString at hi
  rw [(c07_using_cmp (strCmp_lawful.comap (fun x : CollectionEntry Str K V => x.key)) _).1] at hi
  have h := Emitter.finish_inv hi
  unfold Generator.genStringOrScan at h
  rw [if_pos (by rw [hlen]; exact hl)] at h
  have h' := (Except.ok.inj h).symm
  have hr : item.ctor.Raw := by rw [h']; trivial
  show AscendingKeys cmp m.entries
  rw [Emitted.compile_listed hr hm, h']
  exact hasc

/-- **C89** (emitted hash collections)  Fewer than four keys are iterated in the order of the input, each where it was given last. -/
theorem c89_emit_hash [Target] {em : Emitter} {unit : V} {find : HbFind} (hfind : HbFindOk find) {sort : Sorter (CollectionEntry B K V)}
    {eqB : B → B → Bool} (he : LawfulEq' eqB) {fixedState : Nat → B → Nat} {seed : Nat}
    (hh : ∀ a b, eqB a b = true → fixedState seed a = fixedState seed b) {entries : List (CollectionEntry B K V)} {item : Item (Emitted K V)}
    (hi : em.emitHash unit find sort eqB fixedState seed entries = .ok (.ok item)) {eq' : K → K → Bool} {cmp' : K → K → Ordering}
    {fz : FzKind → List (K × V) → Option (Res F)} {m : InlineMap K V} (hm : item.ctor.compile eq' cmp' fz = some (.ok (.inl m)))
    (t : QueryTraits T K) {R : List B} (hR : Representatives eqB (entries.map (fun e => (e.key, ()))) R) (hl : R.length < 4) :
    ((InlineMap.impl t).iter m).rest.Sublist (written em unit entries) := by
  have he' : LawfulEq' (fun x y : CollectionEntry B K V => eqB x.key y.key) := he.comap _
  have hlen := kept_length (em := em) (unit := unit) he hR (List.Perm.refl _)
  unfold Emitter.emitHash at hi
  rw [c07_using_hash hfind he' (fun a b h => hh _ _ h)] at hi
  simp only [bind, Except.bind] at hi
  have h := Emitter.finish_inv hi
  rw [if_pos (by rw [hlen]; exact hl)] at h
  have h' := (Except.ok.inj h).symm
  have hr : item.ctor.Raw := by rw [h']; trivial
  show m.entries.Sublist _
  rw [Emitted.compile_listed hr hm, h']
  show ((keepLast _ _).map _).Sublist _
  unfold written
  rw [← Emitter.cleanValues_map]
  exact (keepLast_sublist _ _).map _

/-! ## Inline collections and macros -/

/-- **C89** (`InlineScanMap::new`)  The order is that of the input. -/
theorem c89_inline_scan {eqK : K → K → Bool} {sz : Nat} {es : List (K × V)} {m : InlineMap K V} (hm : InlineMap.scanNew sz eqK es = .ok m)
    (t : QueryTraits T K) : ((InlineMap.impl t).iter m).rest.Sublist es ∧ (es.length ≤ sz → ((InlineMap.impl t).iter m).rest = es) := by
  unfold InlineMap.scanNew at hm
  simp only [bind, Except.bind] at hm
  split at hm
  · cases hm
  · rename_i A hA
    cases hm
    obtain ⟨rfl, hl⟩ := intoArray_inv hA
    have hs : (usingEq es (fun x y => eqK x.1 y.1)).Sublist es := by rw [c07_using_eq]; exact keepLast_sublist _ _
    exact ⟨hs, fun h => hs.eq_of_length (by have := hs.length_le; omega)⟩

/-- **C89** (`InlineEytzingerSearchMap::new`, exact) -/
theorem c89_inline_ordered_iff [Target] {cmp : K → K → Ordering} (hc : LawfulCmp cmp) {sz : Nat} {es : List (K × V)} {m : InlineMap K V}
    (hm : InlineMap.eytzingerNew sz cmp es = .ok m) (t : QueryTraits T K) :
    TreeOrder cmp ((InlineMap.impl t).iter m).rest ∧ (AscendingKeys cmp ((InlineMap.impl t).iter m).rest ↔ sz ≤ 1) := by
  unfold InlineMap.eytzingerNew at hm
  simp only [bind, Except.bind] at hm
  split at hm
  · cases hm
  · rename_i A hA
    split at hm
    · cases hm
    · rename_i A' hA'
      cases hm
      obtain ⟨rfl, hl⟩ := intoArray_inv hA'
      have hst := sortedAndDedupped_strict (hc.entry (V := V)) es
      constructor
      · show AscendingKeys cmp (List.filterMap _ _)
        have := eytzingerLayout_inorder hA
        show AscendingKeys cmp ((inorder A'.length 0).filterMap (fun j => A'[j]?))
        rw [this]
        exact hst
      · have := eytzingerLayout_sorted_iff (ascendingKeys_asymm (V := V) hc) hst hA
        rw [← (eytzingerLayout_perm hA).length_eq, hl] at this
        exact this

attribute [local instance] w64 in
/-- **C89** (`fz_ordered_map!` and `fz_ordered_set!` with computed keys)  Fewer than four entries are iterated in the order in which they are written, whatever
the order of the keys; four or more as a search tree is stored, and so never in the order of the keys. -/
theorem c89_macro_ordered {env : MacroEnv K V} {isMap : Bool} {form : MacroForm} {entries : List (MacroEntry K V)}
    (hk : NoLits (entries.map (fun e => e.key))) (hne : entries ≠ []) (hset : SetValues isMap entries) (hn : entries.length < sizeLimit)
    {cmp : K → K → Ordering} (hc : LawfulCmp cmp) {item : Item (Emitted K V)} (hi : fzMacro env isMap form .ordered entries = .ok (.ok item))
    {eq' : K → K → Bool} {fz : FzKind → List (K × V) → Option (Res F)} {m : InlineMap K V}
    (hm : item.ctor.compile eq' cmp fz = some (.ok (.inl m))) (t : QueryTraits T K) :
    (entries.length < 4 → ((InlineMap.impl t).iter m).rest = macroWritten isMap env.unit entries) ∧
    (4 ≤ entries.length → TreeOrder cmp ((InlineMap.impl t).iter m).rest ∧ ¬ AscendingKeys cmp ((InlineMap.impl t).iter m).rest) := by
  have ha := (c42_classes (by simpa using hne)).2.2.2.2.2.2 ⟨rfl, hk⟩
  have hr : fzMacro env isMap form .ordered entries = _ :=
    (process_of_assess hne ha).trans (Emitter.finish_ok (form_valid isMap form false false) rfl)
  rw [hi] at hr
  have hr' := congrArg (fun i : Item (Emitted K V) => i.ctor) (Except.ok.inj (Except.ok.inj hr))
  simp only [exprEntries_length] at hr'
  have hnS : (exprEntries env.unit entries).length < sizeLimit := by rw [exprEntries_length]; exact hn
  have hinl : ∀ {r : Res (InlineMap K V)}, (some (inlRes r) : Option (Res (InlineMap K V ⊕ F))) = some (.ok (.inl m)) → r = .ok m := by
    intro r h
    cases r with
    | error e => cases h
    | ok m' => cases h; rfl
  by_cases hlt : entries.length < 4
  · rw [if_pos hlt] at hr'
    rw [hr', ← exprEntries_length env.unit entries] at hm
    have hc' := scanVec_compile hnS eq' cmp fz (exprEntries_tokens (isMap := isMap) (unit := env.unit) hset)
    rw [itemOf_ctor, hc'] at hm
    exact ⟨fun _ => (c89_inline_scan (hinl hm) t).2 (Nat.le_refl _), fun h => absurd hlt (by omega)⟩
  · rw [if_neg hlt] at hr'
    rw [hr', ← exprEntries_length env.unit entries] at hm
    have hc' := eytzingerVec_compile hnS eq' cmp fz (exprEntries_tokens (isMap := isMap) (unit := env.unit) hset)
    rw [itemOf_ctor, hc'] at hm
    obtain ⟨h1, h2⟩ := c89_inline_ordered_iff hc (hinl hm) t
    refine ⟨fun h => absurd h hlt, fun _ => ⟨h1, fun h => ?_⟩⟩
    have := h2.1 h
    rw [macroWritten_length] at this
    omega

/-! ## Examples -/

section
attribute [local instance] w64

example : ∃ m, FzOrderedMap.new natCmp [(3, 'c'), (1, 'a'), (2, 'b')] = .ok m ∧ ((FzOrderedMap.impl natCmp).iter m).rest = [(2, 'b'), (1, 'a'), (3, 'c')] :=
  ⟨⟨[(2, 'b'), (1, 'a'), (3, 'c')]⟩, by cbv, rfl⟩

example : TreeOrder natCmp [(2, 'b'), (1, 'a'), (3, 'c')] := by
  obtain ⟨m, hm, -⟩ := EytzingerMap.new_spec natCmp_lawful [(3, 'c'), (1, 'a'), (2, 'b')]
  have := c89_ordered_tree natCmp_lawful hm natCmp
  have e : FzOrderedMap.new natCmp [(3, 'c'), (1, 'a'), (2, 'b')] = .ok ⟨[(2, 'b'), (1, 'a'), (3, 'c')]⟩ := by cbv
  rw [show m = ⟨[(2, 'b'), (1, 'a'), (3, 'c')]⟩ from Except.ok.inj (hm.symm.trans e)] at this
  exact this

example : ∃ m, FzScalarMap.new .debug slotSort u64Cmp UInt64.toNat [(9, 'a'), (3, 'b'), (7, 'c'), (3, 'd')] = .ok m ∧
    m.entries = [(3, 'd'), (7, 'c'), (9, 'a')] ∧ AscendingKeys u64Cmp m.entries := by
  have e : FzScalarMap.new .debug slotSort u64Cmp UInt64.toNat [(9, 'a'), (3, 'b'), (7, 'c'), (3, 'd')] =
      .ok (.sparse ⟨3, 9, [1, 0, 0, 0, 2, 0, 3], [(3, 'd'), (7, 'c'), (9, 'a')]⟩) := by cbv
  exact ⟨_, e, rfl, c89_scalar_partial u64_scalar (by decide) e UInt64.toNat (scalarMatch UInt64.toNat UInt64.toNat) (.inr (.inl (by decide)))⟩

/-- Two keys far apart: 1000 and 0 get the places 8 and 0 of 16, and so 1000 comes first. -/
example : ∃ m, FzScalarMap.new .debug slotSort u64Cmp UInt64.toNat [(0, 'a'), (1000, 'b')] = .ok m ∧ m.entries = [(1000, 'b'), (0, 'a')] ∧
    ¬ AscendingKeys u64Cmp m.entries ∧ ∃ n, SizedFor [0, 1000] n ∧ SlotOrder UInt64.toNat n m.entries := by
  obtain ⟨m, hm⟩ : ∃ m, FzScalarMap.new .debug slotSort u64Cmp UInt64.toNat [(0, 'a'), (1000, 'b')] = .ok m ∧ m.entries = [(1000, 'b'), (0, 'a')] :=
    ⟨_, by cbv, by cbv⟩
  have hD : ([((0 : UInt64), 'a'), (1000, 'b')].map (fun e => e.1.toNat)).toFinset = {0, 1000} := by decide
  have h := c89_scalar_otherwise slotSort_ok u64_scalar (by decide) hm.1 UInt64.toNat (scalarMatch UInt64.toNat UInt64.toNat)
    (by rw [hD]; intro h; exact absurd (h 0 (by decide) 1000 (by decide) 5 (by decide) (by decide)) (by decide))
    (by
      rw [hD]
      rintro (h | h)
      · exact absurd (h 0 (by decide) 1000 (by decide)) (by decide)
      · exact absurd (h 0 (by decide) 1000 (by decide)) (by decide))
  refine ⟨m, hm.1, hm.2, ?_, ?_⟩
  · rw [hm.2]; unfold AscendingKeys; decide
  · exact h

example : ∃ m, FzHashMap.withHasher listFind slotSort natEq (fun x => x) [(1, 'a'), (4, 'b'), (1, 'c'), (6, 'd')] = .ok m ∧
    ∃ n, SizedFor [4, 1, 6] n ∧ SlotOrder (fun x => x) n ((FzHashMap.impl (fun x : Nat => x) natEq).iter m).rest := by
  obtain ⟨m, hm, -, -⟩ := FzHashMap.withHasher_spec (V := Char) listFind_ok slotSort_ok natEq_lawful (bh := fun x => x) (fun a b h => eq_of_beq h)
    [(1, 'a'), (4, 'b'), (1, 'c'), (6, 'd')] (by decide)
  exact ⟨m, hm, c89_hash listFind_ok slotSort_ok natEq_lawful (fun a b h => eq_of_beq h) (by simp) (by decide) hm _ _⟩

example : (ScanMap.impl natEq).entries (ScanMap.new natEq [(3, 'a'), (1, 'b'), (3, 'c'), (2, 'd')]) = [(1, 'b'), (3, 'c'), (2, 'd')] := by decide

/-- `fz_ordered_map!({ three(): "x", one(): "y" })` keeps the order in which it is written. -/
example : ∃ item m, fzMacro (demoEnv Nat String "") true .short .ordered [⟨.other, 3, some "x"⟩, ⟨.other, 1, some "y"⟩] = .ok (.ok item) ∧
    item.ctor.compile natEq natCmp (fun _ _ => (none : Option (Res Unit))) = some (.ok (.inl m)) ∧
    ((InlineMap.impl natTraits).iter m).rest = [(3, "x"), (1, "y")] := by
  obtain ⟨item, m, h1, h2⟩ : ∃ item m, fzMacro (demoEnv Nat String "") true .short .ordered [⟨.other, 3, some "x"⟩, ⟨.other, 1, some "y"⟩] = .ok (.ok item) ∧
      item.ctor.compile natEq natCmp (fun _ _ => (none : Option (Res Unit))) = some (.ok (.inl m)) := ⟨_, _, rfl, by cbv⟩
  exact ⟨item, m, h1, h2, (c89_macro_ordered (by intro k hk l h; simp at hk; subst hk; cases h) (by simp) (by intro h; cases h) (by decide)
    natCmp_lawful h1 h2 natTraits).1 (by decide)⟩

/-- Emitted ordered keys: three are iterated in order, four are not. -/
example : ∃ i3 m3 i4 m4, staticMap.emitOrdered "" natCmp [⟨3, 3, "a"⟩, ⟨1, 1, "b"⟩, ⟨2, 2, "c"⟩, ⟨3, 3, "d"⟩] = .ok (.ok i3) ∧
    i3.ctor.compile (F := Unit) natEq natCmp (fun _ _ => none) = some (.ok (.inl m3)) ∧ AscendingKeys natCmp ((InlineMap.impl natTraits).iter m3).rest ∧
    staticMap.emitOrdered "" natCmp [⟨3, 3, "a"⟩, ⟨1, 1, "b"⟩, ⟨2, 2, "c"⟩, ⟨4, 4, "d"⟩] = .ok (.ok i4) ∧
    i4.ctor.compile (F := Unit) natEq natCmp (fun _ _ => none) = some (.ok (.inl m4)) ∧
    ¬ AscendingKeys natCmp ((InlineMap.impl natTraits).iter m4).rest ∧ TreeOrder natCmp ((InlineMap.impl natTraits).iter m4).rest := by
  obtain ⟨i3, m3, h3, -, c3, -⟩ := c37_emit_ordered (t := natTraits) (em := staticMap) (by unfold ValidOptions; decide) (unit := "") natCmp_lawful
    natCmp_lawful natCmp_query (by funext a b; by_cases h : a = b <;> simp [natTraits, natEq, natCmp, h])
    (entries := [⟨3, 3, "a"⟩, ⟨1, 1, "b"⟩, ⟨2, 2, "c"⟩, ⟨3, 3, "d"⟩]) (by decide) (by decide)
  obtain ⟨i4, m4, h4, -, c4, -⟩ := c37_emit_ordered (t := natTraits) (em := staticMap) (by unfold ValidOptions; decide) (unit := "") natCmp_lawful
    natCmp_lawful natCmp_query (by funext a b; by_cases h : a = b <;> simp [natTraits, natEq, natCmp, h])
    (entries := [⟨3, 3, "a"⟩, ⟨1, 1, "b"⟩, ⟨2, 2, "c"⟩, ⟨4, 4, "d"⟩]) (by decide) (by decide)
  have r3 := c89_emit_ordered_iff natCmp_lawful natCmp_lawful (by decide) h3 (c3 Unit natEq natCmp (fun _ _ => none)) natTraits (R := [3, 1, 2])
    ⟨by unfold Distinct; decide, by decide, by decide⟩
  have r4 := c89_emit_ordered_iff natCmp_lawful natCmp_lawful (by decide) h4 (c4 Unit natEq natCmp (fun _ _ => none)) natTraits (R := [3, 1, 2, 4])
    ⟨by unfold Distinct; decide, by decide, by decide⟩
  exact ⟨i3, m3, i4, m4, h3, c3 _ _ _ _, r3.1.2 (by decide), h4, c4 _ _ _ _, fun h => absurd (r4.1.1 h) (by decide), r4.2 (by decide)⟩

/-- Emitted scalar keys far apart, but fewer than eight. -/
example : ∃ item m, staticMap.emitScalar "" .debug slotSort u64Cmp UInt64.toNat [⟨1000, 1000, "a"⟩, ⟨7, 7, "b"⟩] = .ok (.ok item) ∧
    item.ctor.compile (F := Unit) (fun a b => a == b) u64Cmp (fun _ _ => none) = some (.ok (.inl m)) ∧
    AscendingKeys u64Cmp ((InlineMap.impl u64Traits).iter m).rest := by
  obtain ⟨item, m, h, -, c, -⟩ := c37_emit_scalar (t := u64Traits) (em := staticMap) (by unfold ValidOptions; decide) (unit := "") .debug slotSort_ok
    u64_scalar u64_scalar (by funext a b; rfl) (entries := [⟨1000, 1000, "a"⟩, ⟨7, 7, "b"⟩]) (by decide) (by decide) (by decide)
  exact ⟨item, m, h, c _ _ _ _, c89_emit_scalar_partial u64_scalar (by simp) (by decide) (by decide) h (c Unit (fun a b => a == b) u64Cmp (fun _ _ => none))
    u64Traits (.inr (.inr (by decide)))⟩

/-- Three emitted keys of other types stay in the order of the source. -/
example : ∃ item m, staticMap.emitHash "" listFind slotSort natEq (fun seed q => (seed + 31 * q) % 2 ^ 64) 77
      [⟨30, 30, "a"⟩, ⟨10, 10, "b"⟩, ⟨18, 18, "c"⟩, ⟨10, 10, "d"⟩] = .ok (.ok item) ∧
    item.ctor.compile (F := Unit) natEq natCmp (fun _ _ => none) = some (.ok (.inl m)) ∧
    ((InlineMap.impl natTraits).iter m).rest.Sublist [(30, "a"), (10, "b"), (18, "c"), (10, "d")] := by
  obtain ⟨item, m, h, -, c, -⟩ := c37_emit_hash (t := natTraits) (em := staticMap) (by unfold ValidOptions; decide) (unit := "") listFind_ok slotSort_ok
    natEq_lawful natEq_lawful natEq_query (fixedState := fun seed q => (seed + 31 * q) % 2 ^ 64) (seed := 77) (by decide)
    (fun a b h => by rw [eq_of_beq h]) (hk := fun q => (77 + 31 * q) % 2 ^ 64) (natEq_hash _)
    (entries := [⟨30, 30, "a"⟩, ⟨10, 10, "b"⟩, ⟨18, 18, "c"⟩, ⟨10, 10, "d"⟩]) (by decide) (by decide) (by decide)
  exact ⟨item, m, h, c _ _ _ _, c89_emit_hash listFind_ok natEq_lawful (fun a b h => by rw [eq_of_beq h]) h (c Unit natEq natCmp (fun _ _ => none))
    natTraits (R := [30, 18, 10]) ⟨by unfold Distinct; decide, by decide, by decide⟩ (by decide)⟩

example : ∃ m, InlineMap.eytzingerNew 3 natCmp [(1, 'a'), (2, 'b'), (3, 'c')] = .ok m ∧ ¬ AscendingKeys natCmp ((InlineMap.impl natTraits).iter m).rest := by
  obtain ⟨m, hm⟩ : ∃ m, InlineMap.eytzingerNew 3 natCmp [(1, 'a'), (2, 'b'), (3, 'c')] = .ok m := ⟨_, by cbv⟩
  exact ⟨m, hm, fun h => absurd ((c89_inline_ordered_iff natCmp_lawful hm natTraits).2.1 h) (by decide)⟩

end

end Frozen.Props
