import Verif.Lemmas.Strategy
import Verif.Props.Api
import Verif.Props.Calls

/-!
# Property theorems: the implementation strategy is the documented one (C72)
-/

namespace Frozen.Props

open Frozen.Spec Frozen.Model

variable {B Q K V : Type}

/-! ## The specification is a function of the keys -/

theorem scalarStrategy_unique {small : Nat} {D : Finset Nat} {s s' : Strategy} (h : ScalarStrategy small D s)
    (h' : ScalarStrategy small D s') : s = s' := by
  cases h <;> cases h' <;> first | rfl | contradiction | omega

/-- The strategies for strings exclude each other; a part is determined up to its position. -/
theorem stringStrategy_unique {small : Nat} {D : Finset Str} {s s' : Strategy} (h : StringStrategy small D s)
    (h' : StringStrategy small D s') :
    s = s' ∨ (∃ a b c d, s = .leftSubstring a b ∧ s' = .leftSubstring c d ∧ b - a = d - c) ∨
      ∃ a b c d, s = .rightSubstring a b ∧ s' = .rightSubstring c d ∧ b - a = d - c := by
  have key : ∀ {l a b l' c d}, ShortestPart D l a b → ShortestPart D l' c d → b - a = d - c :=
    fun h1 h2 => Nat.le_antisymm (h1.2.2 _ _ _ h2.1) (h2.2.2 _ _ _ h1.1)
  -- keys that are all as long as the part are told apart by a part counted from the left too
  have whole : ∀ {a b}, ShortestPart D false a b → (∀ k ∈ D, k.length = b - a) → ∃ c d, ShortestPart D true c d := by
    intro a b h1 h2
    obtain ⟨⟨g1, g2, g3⟩, g4, g5⟩ := h1
    rcases D.eq_empty_or_nonempty with rfl | ⟨k0, hk0⟩
    · exact ⟨a, b, ⟨g1, g2, by simp⟩, g4, g5⟩
    · have e0 : a = 0 := by have := h2 k0 hk0; have := g2 k0 hk0; omega
      subst e0
      refine ⟨0, b, ⟨g1, g2, ?_⟩, g4, g5⟩
      have e : ∀ left, D.image (bytesAt left 0 b) = D.image id := by
        intro left
        apply Finset.image_congr
        intro k hk
        have hl := h2 k hk
        cases left
        · simp only [bytesAt, Bool.false_eq_true, if_false, List.drop_zero, id_eq]
          rw [List.take_of_length_le (by simp; omega), List.reverse_reverse]
        · simp only [bytesAt, if_true, List.drop_zero, id_eq]
          exact List.take_of_length_le (by omega)
      rw [e] at g3 ⊢
      exact g3
  cases h with
  | scan h =>
    cases h' with
    | scan h' => exact .inl rfl
    | length h' _ => omega
    | left h' _ _ _ => omega
    | right h' _ _ _ => omega
    | classic h' _ _ => omega
  | length h hl =>
    cases h' with
    | scan h' => omega
    | length h' _ => exact .inl rfl
    | left h' hl' _ _ => exact absurd hl hl'
    | right h' hl' _ _ => exact absurd hl hl'
    | classic h' hl' _ => exact absurd hl hl'
  | left h hl hp hw =>
    cases h' with
    | scan h' => omega
    | length h' hl' => exact absurd hl' hl
    | left h' _ hp' _ => exact .inr (.inl ⟨_, _, _, _, rfl, rfl, key hp hp'⟩)
    | right h' _ _ hn => exact absurd hp (hn _ _)
    | classic h' _ hw' => exact absurd (hw' _ _ _ hp) hw
  | right h hl hp hn =>
    cases h' with
    | scan h' => omega
    | length h' hl' => exact absurd hl' hl
    | left h' _ hp' _ => exact absurd hp' (hn _ _)
    | right h' _ hp' _ => exact .inr (.inr ⟨_, _, _, _, rfl, rfl, key hp hp'⟩)
    | classic h' _ hw' =>
      obtain ⟨c, d, hcd⟩ := whole hp (hw' _ _ _ hp)
      exact absurd hcd (hn _ _)
  | classic h hl hw =>
    cases h' with
    | scan h' => omega
    | length h' hl' => exact absurd hl' hl
    | left h' _ hp' hw' => exact absurd (hw _ _ _ hp') hw'
    | right h' _ hp' hn =>
      obtain ⟨c, d, hcd⟩ := whole hp' (hw _ _ _ hp')
      exact absurd hcd (hn _ _)
    | classic h' _ _ => exact .inl rfl

/-! ## The emitter -/

theorem genHash_uses [Target] {g : Generator} {sort : Sorter (CollectionEntry B K V)} {es : List (CollectionEntry B K V)}
    {hash : B → Nat} {hasher : HasherTok} {c : Emitted K V} (h : g.genHash sort es hash hasher = .ok c) {s : Strategy}
    (hs : HasherUses hasher s) : Uses c s := by
  unfold Generator.genHash at h
  simp only [bind, Except.bind] at h
  cases h1 : HashTable.new .large sort es (fun x => hash x.key) with
  | error x => rw [h1] at h; cases h
  | ok r =>
    rw [h1] at h
    simp only at h
    cases h2 : unwrapR r with
    | error x => rw [h2] at h; cases h
    | ok ht =>
      rw [h2] at h
      simp only at h
      cases h3 : ht.hasCollisions with
      | error x => rw [h3] at h; cases h
      | ok b =>
        rw [h3] at h
        cases b <;> (cases h; exact hs)

theorem genScalar_uses [Target] {g : Generator} {b : Build} {sort : Sorter (CollectionEntry B K V)} {index : B → Nat}
    {S : List (CollectionEntry B K V)} {r : ScalarAnalysis} {c : Emitted K V} (h : g.genScalar b sort index S r = .ok c) :
    (r = .denseRange → Uses c .denseLookup) ∧ (r = .sparseRange → Uses c .sparseLookup) ∧
    (r = .general → Uses c (if S.length < 8 then .linearScan else .scalarAsHash)) := by
  cases r with
  | denseRange =>
    refine ⟨fun _ => ?_, fun h => (by cases h), fun h => (by cases h)⟩
    have h' : g.genDense b index S = .ok c := h
    unfold Generator.genDense at h'
    simp only [bind, Except.bind] at h'
    repeat (split at h'; · cases h')
    cases h'
    rfl
  | sparseRange =>
    refine ⟨fun h => (by cases h), fun _ => ?_, fun h => (by cases h)⟩
    have h' : g.genSparse b index S = .ok c := h
    unfold Generator.genSparse at h'
    simp only [bind, Except.bind] at h'
    repeat (split at h'; · cases h')
    cases h'
    rfl
  | general =>
    refine ⟨fun h => (by cases h), fun h => (by cases h), fun _ => ?_⟩
    simp only [Generator.genScalar] at h
    by_cases h8 : S.length < 8
    · rw [if_pos h8] at h
      simp only [if_pos h8]
      cases h
      rfl
    · rw [if_neg h8] at h
      simp only [if_neg h8]
      exact genHash_uses h rfl

/-- Integer keys, given by their positions up to a shift. -/
theorem emitScalar_choice [Target] {em : Emitter} {unit : V} {b : Build} {sort : Sorter (CollectionEntry B K V)}
    {cmpB : B → B → Ordering} {index : B → Nat} (hB : LawfulScalar cmpB index) {entries : List (CollectionEntry B K V)}
    (hne : entries ≠ []) (hn : entries.length < tableLimit) {D : Finset Nat} {off : Nat}
    (hD : ∀ x, (∃ e ∈ entries, index e.key = x) ↔ ∃ n ∈ D, x = n + off) {item : Item (Emitted K V)}
    (hi : em.emitScalar unit b sort cmpB index entries = .ok (.ok item)) :
    ∃ s, Uses item.ctor s ∧ ScalarStrategy 8 D s := by
  have hu := target_cases
  have hspan : ∀ x ∈ D, ∀ y ∈ D, x - y < usizeMax := by
    intro x hx y hy
    obtain ⟨e, he, hex⟩ := (hD (x + off)).2 ⟨x, hx, rfl⟩
    obtain ⟨e', he', hey⟩ := (hD (y + off)).2 ⟨y, hy, rfl⟩
    have h1 := Emitter.emitScalar_over (em := em) (unit := unit) b (sort := sort) hB he he'
    have h2 := hB.bound e.key
    by_contra hc
    exact h1 (by omega) item hi
  have hDne : D.Nonempty := by
    obtain ⟨e, he⟩ := List.exists_mem_of_ne_nil entries hne
    obtain ⟨n, hn', -⟩ := (hD _).1 ⟨e, he, rfl⟩
    exact ⟨n, hn'⟩
  have hinj : Function.Injective (fun n : Nat => n + off) := fun a b (h : a + off = b + off) => by omega
  have hp := scalar_indices (em := em) (unit := unit) hB entries (R := D.toList.map (· + off))
    (D.nodup_toList.map hinj) (by
      intro c
      rw [hD, List.mem_map]
      simp only [Finset.mem_toList]
      exact ⟨fun ⟨n, h1, h2⟩ => ⟨n, h1, h2.symm⟩, fun ⟨n, h1, h2⟩ => ⟨n, h1, h2.symm⟩⟩)
  have hlen := (sad_subset (em.cleanValues unit entries) (fun x y => cmpB x.key y.key)).1
  rw [Emitter.cleanValues_length] at hlen
  unfold Emitter.emitScalar at hi
  generalize sortedAndDedupped (em.cleanValues unit entries) (fun x y => cmpB x.key y.key) = S at *
  simp only [bind, Except.bind] at hi
  cases hr : analyzeScalarKeys b (S.map (fun x => index x.key)) with
  | error e => rw [hr] at hi; cases hi
  | ok r =>
    rw [hr] at hi
    simp only at hi
    obtain ⟨u1, u2, u3⟩ := genScalar_uses (Emitter.finish_inv hi)
    obtain ⟨hc, h1, h2, h3⟩ := scalar_choice b (S := S.map (fun x => index x.key)) (D := D) (c := off)
      (hp.nodup_iff.2 (D.nodup_toList.map hinj)) (by
        intro x
        rw [hp.mem_iff, List.mem_map]
        simp only [Finset.mem_toList]
        exact ⟨fun ⟨n, h1, h2⟩ => ⟨n, h1, h2.symm⟩, fun ⟨n, h1, h2⟩ => ⟨n, h1, h2.symm⟩⟩)
      (fun x hx => by obtain ⟨e, -, rfl⟩ := List.mem_map.1 hx; exact hB.bound _)
      (by rw [List.length_map]; omega) hDne hspan hr
    rw [List.length_map] at hc
    rw [hc] at u3
    cases r with
    | denseRange => exact ⟨_, u1 rfl, .dense (h1.1 rfl)⟩
    | sparseRange => exact ⟨_, u2 rfl, .sparse (h2.1 rfl).1 (h2.1 rfl).2⟩
    | general =>
      have hu := u3 rfl
      by_cases h8 : D.card < 8
      · simp only [if_pos h8] at hu
        exact ⟨_, hu, .scan (h3.1 rfl).1 (h3.1 rfl).2 h8⟩
      · simp only [if_neg h8] at hu
        exact ⟨_, hu, .hash (h3.1 rfl).1 (h3.1 rfl).2 (by omega)⟩

/-- **C72** (emitter, scalar keys)  An emitted scalar collection uses an array iff the keys fill their range, a sparse array
iff they do not but the range is narrow, and otherwise hash codes that are the keys themselves, or a scan if there are fewer
than eight keys. -/
theorem c72_emit_scalar [Target] {em : Emitter} {unit : V} {b : Build} {sort : Sorter (CollectionEntry B K V)}
    {cmpB : B → B → Ordering} {index : B → Nat} (hB : LawfulScalar cmpB index) {entries : List (CollectionEntry B K V)}
    (hne : entries ≠ []) (hn : entries.length < tableLimit) {item : Item (Emitted K V)}
    (hi : em.emitScalar unit b sort cmpB index entries = .ok (.ok item)) :
    ∃ s, Uses item.ctor s ∧ ScalarStrategy 8 (entries.map (fun e => index e.key)).toFinset s :=
  emitScalar_choice hB hne hn (off := 0) (by
    intro x
    simp only [List.mem_toFinset, List.mem_map, Nat.add_zero]
    constructor
    · rintro ⟨e, he, rfl⟩; exact ⟨_, ⟨e, he, rfl⟩, rfl⟩
    · rintro ⟨_, ⟨e, he, rfl⟩, rfl⟩; exact ⟨e, he, rfl⟩) hi

theorem genStringOrScan_uses [Target] {g : Generator} {sort : Sorter (CollectionEntry Str K V)} {fsStr fsSlice : Nat → Str → Nat}
    {seed : Nat} {S : List (CollectionEntry Str K V)} (hnd : (S.map (fun x => x.key)).Nodup)
    (hbh : PartsHashApart (fsSlice seed) (S.map (fun x => x.key)).toFinset)
    (hkl : ∀ x ∈ S, x.key.length ≤ usizeMax) {c : Emitted K V}
    (h : g.genStringOrScan sort fsStr fsSlice seed S = .ok c) :
    ∃ s, Uses c s ∧ StringStrategy 4 (S.map (fun x => x.key)).toFinset s := by
  have hc := List.toFinset_card_of_nodup hnd
  rw [List.length_map] at hc
  unfold Generator.genStringOrScan at h
  by_cases h4 : S.length < 4
  · rw [if_pos h4] at h
    cases h
    exact ⟨_, rfl, .scan (by omega)⟩
  · rw [if_neg h4] at h
    simp only [bind, Except.bind] at h
    cases ha : analyzeSliceKeys (fun x y : UInt8 => x == y) (fsSlice seed) (S.map (fun x => x.key)) with
    | error e => rw [ha] at h; cases h
    | ok a =>
      rw [ha] at h
      simp only at h
      obtain ⟨h1, h2, h3, h5⟩ := slice_choice (fun a b => by simp) hnd hbh (fun k hk => by
        obtain ⟨x, hx, rfl⟩ := List.mem_map.1 hk
        exact hkl x hx) ha
      obtain ⟨s0, hs0⟩ := List.exists_mem_of_ne_nil S (by rintro rfl; simp at h4)
      have hk0 : s0.key ∈ (S.map (fun x => x.key)).toFinset := by
        rw [List.mem_toFinset]; exact List.mem_map.2 ⟨s0, hs0, rfl⟩
      have hb : ∀ {left lo hi}, ShortestPart (S.map (fun x => x.key)).toFinset left lo hi →
          UsizeLit (injectUnderscores (digits lo)) lo ∧ UsizeLit (injectUnderscores (digits hi)) hi := by
        intro left lo hi hp
        have g1 := hp.1.1
        have g2 := hp.1.2.1 _ hk0
        have g3 := hkl s0 hs0
        exact ⟨numLit_iff.1 (litUsize_digits_inject (by omega)), numLit_iff.1 (litUsize_digits_inject (by omega))⟩
      cases a with
      | general =>
        exact ⟨_, genHash_uses h rfl, .classic (by omega) (fun hl => (by cases h1.2 hl)) (h5 rfl)⟩
      | length => exact ⟨_, genHash_uses h rfl, .length (by omega) (h1.1 rfl)⟩
      | left rg =>
        simp only [Generator.genString, bind, Except.bind] at h
        split at h
        · cases h
        · obtain ⟨g1, g2⟩ := h2 rg rfl
          exact ⟨_, genHash_uses h ⟨rg.lo, rg.hi, (hb g1).1, (hb g1).2, rfl⟩,
            .left (by omega) (fun hl => (by cases h1.2 hl)) g1 g2⟩
      | right rg =>
        simp only [Generator.genString, bind, Except.bind] at h
        split at h
        · cases h
        · obtain ⟨g1, g2⟩ := h3 rg rfl
          exact ⟨_, genHash_uses h ⟨rg.lo, rg.hi, (hb g1).1, (hb g1).2, rfl⟩,
            .right (by omega) (fun hl => (by cases h1.2 hl)) g1 g2⟩

/-- **C72** (emitter, strings)  An emitted string collection is scanned if it has fewer than four keys; otherwise its hash codes
are the lengths iff these tell the keys apart, else a shortest part that tells them apart, counted from the left if
possible, else whole keys.  The hash function must not collide on parts of the keys. -/
theorem c72_emit_string [Target] {em : Emitter} {unit : V} {sort : Sorter (CollectionEntry Str K V)} {fsStr fsSlice : Nat → Str → Nat}
    {seed : Nat} {entries : List (CollectionEntry Str K V)} (hkl : ∀ x ∈ entries, x.key.length ≤ usizeMax)
    (hbh : PartsHashApart (fsSlice seed) (entries.map (fun x => x.key)).toFinset) {item : Item (Emitted K V)}
    (hi : em.emitString unit sort fsStr fsSlice seed entries = .ok (.ok item)) :
    ∃ s, Uses item.ctor s ∧ StringStrategy 4 (entries.map (fun x => x.key)).toFinset s := by
  have hp := string_keys (em := em) (unit := unit) entries (R := (entries.map (fun x => x.key)).toFinset.toList)
    (Finset.nodup_toList _) (by intro v; simp)
  have e : ((usingCmp (em.cleanValues unit entries) (fun x y => strCmp x.key y.key)).map (fun x => x.key)).toFinset =
      (entries.map (fun x => x.key)).toFinset := by
    ext v
    rw [List.mem_toFinset, hp.mem_iff, Finset.mem_toList]
  have hmem : ∀ x ∈ usingCmp (em.cleanValues unit entries) (fun x y => strCmp x.key y.key), x.key.length ≤ usizeMax := by
    intro x hx
    have : x.key ∈ (entries.map (fun x => x.key)).toFinset := by
      rw [← e, List.mem_toFinset]; exact List.mem_map.2 ⟨x, hx, rfl⟩
    rw [List.mem_toFinset] at this
    obtain ⟨x', h1, h2⟩ := List.mem_map.1 this
    rw [← h2]
    exact hkl x' h1
  unfold Emitter.emitString at hi
  generalize usingCmp (em.cleanValues unit entries) (fun x y => strCmp x.key y.key) = S at *
  have h := genStringOrScan_uses (hp.nodup_iff.2 (Finset.nodup_toList _)) (by rw [e]; exact hbh) hmem (Emitter.finish_inv hi)
  rw [e] at h
  exact h

theorem exists_representatives {eqB : B → B → Bool} (he : LawfulEq' eqB) (es : List (B × V)) : ∃ R, Representatives eqB es R := by
  have he' := he.comap (fun e : B × V => e.1)
  refine ⟨(keepLast (fun x y : B × V => eqB x.1 y.1) es).map (fun e => e.1), ?_, ?_, ?_⟩
  · have := keepLast_distinct (eq := fun x y : B × V => eqB x.1 y.1) es
    unfold Distinct at this ⊢
    exact List.pairwise_map.2 this
  · intro e hm
    obtain ⟨y, h1, h2⟩ := exists_mem_keepLast he' hm
    exact ⟨y.1, List.mem_map.2 ⟨y, h1, rfl⟩, h2⟩
  · intro k hk
    obtain ⟨e, h1, rfl⟩ := List.mem_map.1 hk
    exact ⟨e, (keepLast_sublist _ _).subset h1, he.refl _⟩

theorem kept_length {em : Emitter} {unit : V} {eqB : B → B → Bool} (he : LawfulEq' eqB)
    {entries S : List (CollectionEntry B K V)} {R : List B}
    (hR : Representatives eqB (entries.map (fun e => (e.key, ()))) R)
    (hS : S.Perm (keepLast (fun x y => eqB x.key y.key) (em.cleanValues unit entries))) : S.length = R.length := by
  have he' : LawfulEq' (fun x y : CollectionEntry B K V => eqB x.key y.key) := he.comap _
  have hd : Distinct eqB (S.map (fun e => e.key)) := by
    have := Distinct.perm he' hS.symm (keepLast_distinct _)
    unfold Distinct at this ⊢
    exact List.pairwise_map.2 this
  have h1 : (S.map (fun e => e.key)).length ≤ R.length := by
    refine distinct_length_le he hd ?_
    intro a ha
    obtain ⟨e, hm, rfl⟩ := List.mem_map.1 ha
    obtain ⟨e', h1, h2, -⟩ := Emitter.cleanValues_mem ((keepLast_sublist _ _).subset (hS.mem_iff.1 hm))
    obtain ⟨k, hk, hek⟩ := hR.covers (e'.key, ()) (List.mem_map.2 ⟨e', h1, rfl⟩)
    exact ⟨k, hk, by rw [h2]; exact hek⟩
  have h2 : R.length ≤ (S.map (fun e => e.key)).length := by
    refine distinct_length_le he hR.distinct ?_
    intro k hk
    obtain ⟨e, hm, hek⟩ := hR.only k hk
    obtain ⟨e0, h0, rfl⟩ := List.mem_map.1 hm
    obtain ⟨c, hc, hce⟩ : ∃ c ∈ em.cleanValues unit entries, c.key = e0.key := by
      unfold Emitter.cleanValues
      split
      · exact ⟨e0, h0, rfl⟩
      · exact ⟨_, List.mem_map.2 ⟨e0, h0, rfl⟩, rfl⟩
    obtain ⟨e', h3, h4⟩ := exists_mem_keepLast he' hc
    simp only [hce] at h4
    exact ⟨e'.key, List.mem_map.2 ⟨e', hS.mem_iff.2 h3, rfl⟩, he.trans _ _ _ (he.symm _ _ hek) h4⟩
  simp only [List.length_map] at h1 h2
  omega

/-- **C72** (emitter, other keys)  `R` lists the different keys.  Fewer than four are scanned; more are hashed. -/
theorem c72_emit_hash [Target] {em : Emitter} {unit : V} {find : HbFind} (hfind : HbFindOk find) {sort : Sorter (CollectionEntry B K V)}
    {eqB : B → B → Bool} (he : LawfulEq' eqB) {fixedState : Nat → B → Nat} {seed : Nat}
    (hh : ∀ a b, eqB a b = true → fixedState seed a = fixedState seed b) {entries : List (CollectionEntry B K V)}
    {R : List B} (hR : Representatives eqB (entries.map (fun e => (e.key, ()))) R) {item : Item (Emitted K V)}
    (hi : em.emitHash unit find sort eqB fixedState seed entries = .ok (.ok item)) :
    Uses item.ctor (if R.length < 4 then .linearScan else .classicHashing) := by
  have hk := usingHash_eq_keepLast hfind (he.comap (fun x : CollectionEntry B K V => x.key))
    (hasher := fun x => fixedState seed x.key) (fun a b h => hh _ _ h) (em.cleanValues unit entries)
  unfold Emitter.emitHash at hi
  rw [hk] at hi
  simp only [bind, Except.bind] at hi
  have hl := kept_length (em := em) (unit := unit) he hR (List.Perm.refl _)
  have h := Emitter.finish_inv hi
  simp only [hl] at h
  by_cases h4 : R.length < 4
  · rw [if_pos h4] at h ⊢
    rw [← Except.ok.inj h]
    rfl
  · rw [if_neg h4] at h ⊢
    exact genHash_uses h rfl

/-- **C72** (emitter, ordered keys)  Fewer than four are scanned; more are searched in Eytzinger order. -/
theorem c72_emit_ordered [Target] {em : Emitter} {unit : V} {cmpB : B → B → Ordering} (hc : LawfulCmp cmpB)
    {entries : List (CollectionEntry B K V)} {R : List B}
    (hR : Representatives (fun a b => cmpB a b == .eq) (entries.map (fun e => (e.key, ()))) R) {item : Item (Emitted K V)}
    (hi : em.emitOrdered unit cmpB entries = .ok (.ok item)) :
    Uses item.ctor (if R.length < 4 then .linearScan else .eytzinger) := by
  have hp := sortedAndDedupped_perm (hc.comap (fun x : CollectionEntry B K V => x.key)) (em.cleanValues unit entries)
  have hl := kept_length (em := em) (unit := unit) (LawfulCmp'.eqLawful hc) hR hp
  unfold Emitter.emitOrdered at hi
  have h := Emitter.finish_inv hi
  simp only [hl] at h
  by_cases h4 : R.length < 4
  · rw [if_pos h4] at h ⊢
    rw [← Except.ok.inj h]
    rfl
  · rw [if_neg h4] at h ⊢
    unfold Generator.genEytzinger at h
    simp only [bind, Except.bind] at h
    split at h
    · cases h
    · rw [← Except.ok.inj h]
      rfl

/-! ## Macros -/

attribute [local instance] w64 in
/-- **C72** (macros, integer literals)  The choice depends on the values of the literals only, not on their type or suffix. -/
theorem c72_macro_ints {env : MacroEnv K V} {isMap : Bool} {form : MacroForm} {kind : MacroKind}
    {entries : List (MacroEntry K V)} (hne : entries ≠ []) (hn : entries.length < 2 ^ 56) {t : ScalarType}
    (hk : AllInts kind (entries.map (fun e => e.key)) t) {D : Finset Nat}
    (hD : ∀ n, n ∈ D ↔ ∃ e ∈ entries, ∃ s, KeyIs e.key (.int n s)) {item : Item (Emitted K V)}
    (hi : fzMacro env isMap form kind entries = .ok (.ok item)) : ∃ s, Uses item.ctor s ∧ ScalarStrategy 8 D s := by
  obtain ⟨hfit, hs⟩ := scalar_inv hne hk hi
  obtain ⟨off, hoff⟩ := index_shift t
  have hl := c15_lawful t.ty_mem
  rw [← ScalarTy.cmp_eq_scalarCmp] at hl
  refine emitScalar_choice hl (by simpa using hne) (by simpa using hn) (off := off) ?_ hs
  intro x
  constructor
  · rintro ⟨c, hc, rfl⟩
    obtain ⟨e, he, rfl⟩ := List.mem_map.1 hc
    obtain ⟨n, s, h1, h2⟩ := hfit e he
    refine ⟨n, (hD n).2 ⟨e, he, s, h1⟩, ?_⟩
    show t.ty.index 64 (BitVec.ofNat t.ty.width (intOf e.key)) = n + off
    rw [intOf_eq h1]
    exact hoff n h2
  · rintro ⟨n, hnD, rfl⟩
    obtain ⟨e, he, s, h1⟩ := (hD n).1 hnD
    obtain ⟨n', s', h1', h2⟩ := hfit e he
    cases h1.unique h1'
    refine ⟨_, List.mem_map.2 ⟨e, he, rfl⟩, ?_⟩
    show t.ty.index 64 (BitVec.ofNat t.ty.width (intOf e.key)) = n + off
    rw [intOf_eq h1]
    exact hoff n h2

attribute [local instance] w64 in
/-- **C72** (macros, string literals) -/
theorem c72_macro_strs {env : MacroEnv K V} {isMap : Bool} {form : MacroForm} {kind : MacroKind}
    {entries : List (MacroEntry K V)} (hne : entries ≠ []) (hk : AllStrs kind (entries.map (fun e => e.key)))
    {D : Finset Str} (hD : ∀ v, v ∈ D ↔ ∃ e ∈ entries, KeyIs e.key (.str v)) (hkl : ∀ v ∈ D, v.length ≤ usizeMax)
    (hbh : PartsHashApart (env.fsSlice env.seed) D) {item : Item (Emitted K V)}
    (hi : fzMacro env isMap form kind entries = .ok (.ok item)) : ∃ s, Uses item.ctor s ∧ StringStrategy 4 D s := by
  have ha := (c42_classes (by simpa using hne)).2.1.2 hk
  unfold fzMacro at hi
  rw [process_of_assess hne ha] at hi
  change handleLiteralStringKeys env (form.emitter isMap) entries = _ at hi
  unfold handleLiteralStringKeys at hi
  have hstr : ∀ e ∈ entries, ∃ v, KeyIs e.key (.str v) := fun e he => hk.2 e.key (List.mem_map_of_mem he)
  rw [literalEntries_ok (f := fun e => strOf e.key) (fun e he => by
    obtain ⟨v, h⟩ := hstr e he
    exact parseStr_ok h)] at hi
  have e : ((entries.map (fun e : MacroEntry K V => e.toCollection env.unit (strOf e.key))).map (fun x => x.key)).toFinset = D := by
    ext v
    rw [hD, List.mem_toFinset, List.map_map, List.mem_map]
    constructor
    · rintro ⟨x, hx, rfl⟩
      obtain ⟨v, h⟩ := hstr x hx
      refine ⟨x, hx, ?_⟩
      show KeyIs x.key (.str (strOf x.key))
      rwa [strOf_eq h]
    · rintro ⟨x, hx, h⟩
      exact ⟨x, hx, strOf_eq h⟩
  have h := c72_emit_string (fun x hx => hkl _ (by rw [← e, List.mem_toFinset]; exact List.mem_map.2 ⟨x, hx, rfl⟩))
    (by rw [e]; exact hbh) hi
  rw [e] at h
  exact h

attribute [local instance] w64 in
/-- **C72** (macros, keys computed at run time)  The choice depends on the number of entries: few are scanned; more are left to
the run-time type, except for ordered collections, which use Eytzinger search. -/
theorem c72_macro_exprs {env : MacroEnv K V} {isMap : Bool} {form : MacroForm} {kind : MacroKind}
    {entries : List (MacroEntry K V)} (hne : entries ≠ []) {item : Item (Emitted K V)}
    (hi : fzMacro env isMap form kind entries = .ok (.ok item)) :
    (MixedInts kind (entries.map (fun e => e.key)) →
      Uses item.ctor (if entries.length < 8 then .linearScan else .atRunTime .scalar)) ∧
    (MixedStrs kind (entries.map (fun e => e.key)) →
      Uses item.ctor (if entries.length < 4 then .linearScan else .atRunTime .string)) ∧
    (NoLits (entries.map (fun e => e.key)) → kind = .hashed →
      Uses item.ctor (if entries.length < 4 then .linearScan else .atRunTime .hash)) ∧
    (NoLits (entries.map (fun e => e.key)) → kind = .ordered →
      Uses item.ctor (if entries.length < 4 then .linearScan else .eytzinger)) := by
  have hlen : (exprEntries env.unit entries).length = entries.length := by simp [exprEntries]
  have hc := c42_classes (kind := kind) (keys := entries.map (fun e => e.key)) (by simpa using hne)
  have hinv : ∀ {k}, assessKeys kind (entries.map (fun e => e.key)) = .ok k →
      handleKeys env (form.emitter isMap) entries k = .ok (.ok item) := by
    intro k hk
    unfold fzMacro at hi
    rwa [process_of_assess hne hk] at hi
  refine ⟨fun h => ?_, fun h => ?_, fun h hkd => ?_, fun h hkd => ?_⟩
  · have h' := Emitter.finish_inv (hinv (hc.2.2.1.2 h))
    rw [hlen] at h'
    rw [← Except.ok.inj h']
    split <;> rfl
  · have h' := Emitter.finish_inv (hinv (hc.2.2.2.1.2 h))
    rw [hlen] at h'
    rw [← Except.ok.inj h']
    split <;> rfl
  · have h' := Emitter.finish_inv (hinv (hc.2.2.2.2.1.2 ⟨hkd, h⟩))
    rw [hlen] at h'
    rw [← Except.ok.inj h']
    split <;> rfl
  · have h' := Emitter.finish_inv (hinv (hc.2.2.2.2.2.2 ⟨hkd, h⟩))
    rw [hlen] at h'
    rw [← Except.ok.inj h']
    split <;> rfl

attribute [local instance] w64 in
/-- **C72** (macros, no entries) -/
theorem c72_macro_empty {env : MacroEnv K V} {isMap : Bool} {form : MacroForm} {kind : MacroKind} {item : Item (Emitted K V)}
    (hi : fzMacro env isMap form kind [] = .ok (.ok item)) : Uses item.ctor .linearScan := by
  change processEmpty env (form.emitter isMap) form.inferredKeyType = _ at hi
  unfold processEmpty at hi
  split at hi
  · cases hi
  · have hu : usingHash env.find ({ form.emitter isMap with constKeys := true, constValues := true }.cleanValues env.unit
        ([] : List (CollectionEntry (BitVec ScalarType.i32.ty.width) K V))) (fun x => env.fsScalar ScalarType.i32.ty env.seed x.key)
        (fun x y => x.key == y.key) = .ok [] := by
      unfold Emitter.cleanValues
      split <;> rfl
    unfold Emitter.emitHash at hi
    rw [hu] at hi
    have h := Emitter.finish_inv hi
    rw [← Except.ok.inj h]
    rfl

/-! ## Run-time types -/

/-- **C72** (run-time scalar maps)  As in the emitter, but small collections are not scanned. -/
theorem c72_fz_scalar_map [Target] {b : Build} {sort : Sorter (K × V)} {cmp : K → K → Ordering} {index : K → Nat}
    (hs : LawfulScalar cmp index) {es : List (K × V)} (hne : es ≠ []) (hn : es.length < tableLimit) {m : FzScalarMap K V}
    (hm : FzScalarMap.new b sort cmp index es = .ok m) :
    ∃ s, ScalarMapUses m s ∧ ScalarStrategy 0 (es.map (fun e => index e.1)).toFinset s := by
  have hu := target_cases
  have hspan : ∀ x ∈ es, ∀ y ∈ es, index x.1 - index y.1 < usizeMax := by
    intro x hx y hy
    by_contra hge
    have := hs.bound x.1
    obtain ⟨e, he⟩ := FzScalarMap.new_over b sort hs hx hy (by omega)
    rw [he] at hm; cases hm
  have hp := sortedAndDedupped_survivors hs.lawfulCmp es
  have hst := sortedAndDedupped_strict (hs.lawfulCmp.entry (V := V)) es
  have hlen : (sortedAndDedupped es (fun x y => cmp x.1 y.1)).length ≤ es.length := by
    rw [hp.length_eq]; exact survivors_length_le _ es
  have hmem : ∀ c, (∃ e ∈ sortedAndDedupped es (fun x y => cmp x.1 y.1), index e.1 = c) ↔ ∃ e ∈ es, index e.1 = c := by
    intro c
    constructor
    · rintro ⟨e, he, h⟩
      exact ⟨e, survivors_mem (hp.mem_iff.1 he), h⟩
    · rintro ⟨e, he, h⟩
      obtain ⟨e', h1, h2⟩ := exists_mem_keepLast (LawfulCmp'.eqLawful (hs.lawfulCmp.entry (V := V))) he
      refine ⟨e', hp.mem_iff.2 h1, ?_⟩
      have := hs.eq_iff e.1 e'.1
      simp only [h2] at this
      rw [← h]
      exact (eq_of_beq this.symm).symm
  unfold FzScalarMap.new at hm
  generalize sortedAndDedupped es (fun x y => cmp x.1 y.1) = S at *
  simp only [bind, Except.bind] at hm
  have hnd : (S.map (fun e => index e.1)).Nodup := (index_ascending hs hst).imp (by intro a b h; omega)
  cases hr : analyzeScalarKeys b (S.map (fun x => index x.1)) with
  | error e => rw [hr] at hm; cases hm
  | ok r =>
    rw [hr] at hm
    simp only at hm
    obtain ⟨-, h1, h2, h3⟩ := scalar_choice b (D := (es.map (fun e => index e.1)).toFinset) (c := 0) hnd (by
        intro x
        simp only [List.mem_toFinset, List.mem_map, Nat.add_zero]
        rw [hmem x]
        exact ⟨fun ⟨e, he, h⟩ => ⟨x, ⟨e, he, h⟩, rfl⟩, fun ⟨n, ⟨e, he, h⟩, h'⟩ => ⟨e, he, by rw [h, h']⟩⟩)
      (fun x hx => by obtain ⟨e, -, rfl⟩ := List.mem_map.1 hx; exact hs.bound _)
      (by rw [List.length_map]; omega)
      (by
        obtain ⟨e, he⟩ := List.exists_mem_of_ne_nil es hne
        exact ⟨index e.1, by rw [List.mem_toFinset]; exact List.mem_map.2 ⟨e, he, rfl⟩⟩)
      (by
        intro x hx y hy
        rw [List.mem_toFinset] at hx hy
        obtain ⟨e, he, rfl⟩ := List.mem_map.1 hx
        obtain ⟨e', he', rfl⟩ := List.mem_map.1 hy
        exact hspan e he e' he') hr
    cases r with
    | denseRange =>
      simp only [FzScalarMap.build, bind, Except.bind] at hm
      split at hm
      · cases hm
      · cases hm; exact ⟨_, rfl, .dense (h1.1 rfl)⟩
    | sparseRange =>
      simp only [FzScalarMap.build, bind, Except.bind] at hm
      split at hm
      · cases hm
      · cases hm; exact ⟨_, rfl, .sparse (h2.1 rfl).1 (h2.1 rfl).2⟩
    | general =>
      simp only [FzScalarMap.build, bind, Except.bind] at hm
      split at hm
      · cases hm
      · split at hm
        · cases hm
        · cases hm; exact ⟨_, rfl, .hash (h3.1 rfl).1 (h3.1 rfl).2 (by omega)⟩

/-- **C72** (run-time string maps)  As in the emitter, but small collections are not scanned, and keys are hashed as a whole if
their lengths tell them apart.  Missing: the documented use of the lengths as hash codes. -/
theorem c72_fz_string_map_partial [Target] {sort : Sorter (Str × V)} {bhStr bhSlice : Str → Nat} {es : List (Str × V)}
    (hkl : ∀ e ∈ es, e.1.length ≤ usizeMax) (hbh : PartsHashApart bhSlice (es.map (fun e => e.1)).toFinset) {m : FzStringMap V}
    (hm : FzStringMap.withHasher sort bhStr bhSlice es = .ok m) :
    ∃ s, StringMapUses m s ∧
      (LengthsTell (es.map (fun e => e.1)).toFinset → s = .classicHashing) ∧
      (¬ LengthsTell (es.map (fun e => e.1)).toFinset → StringStrategy 0 (es.map (fun e => e.1)).toFinset s) := by
  have hp := sortedAndDedupped_survivors strCmp_lawful es
  have hst := sortedAndDedupped_strict (strCmp_lawful.entry (V := V)) es
  have e : ((usingCmp es (fun x y => strCmp x.1 y.1)).map (fun x => x.1)).toFinset = (es.map (fun e => e.1)).toFinset := by
    ext v
    unfold usingCmp
    simp only [List.mem_toFinset, List.mem_map]
    constructor
    · rintro ⟨x, hx, h⟩
      exact ⟨x, survivors_mem (hp.mem_iff.1 hx), h⟩
    · rintro ⟨x, hx, h⟩
      obtain ⟨x', h1, h2⟩ := exists_mem_keepLast (LawfulCmp'.eqLawful (strCmp_lawful.entry (V := V))) hx
      refine ⟨x', hp.mem_iff.2 h1, ?_⟩
      rw [← h]
      exact ((strCmp_eq_iff _ _).1 (eq_of_beq h2)).symm
  have hnd : ((usingCmp es (fun x y => strCmp x.1 y.1)).map (fun x => x.1)).Nodup := by
    unfold usingCmp
    rw [List.Nodup, List.pairwise_map]
    refine hst.imp ?_
    intro x y h h'
    rw [(strCmp_eq_iff _ _).2 h'] at h
    cases h
  rw [← e]
  rw [← e] at hbh
  have hkl' : ∀ k ∈ (usingCmp es (fun x y => strCmp x.1 y.1)).map (fun x => x.1), k.length ≤ usizeMax := by
    intro k hk
    rw [← List.mem_toFinset, e, List.mem_toFinset] at hk
    obtain ⟨x, hx, rfl⟩ := List.mem_map.1 hk
    exact hkl x hx
  unfold FzStringMap.withHasher at hm
  generalize usingCmp es (fun x y => strCmp x.1 y.1) = S at *
  simp only [bind, Except.bind] at hm
  cases ha : analyzeSliceKeys (fun x y : UInt8 => x == y) bhSlice (S.map (fun x => x.1)) with
  | error e => rw [ha] at hm; cases hm
  | ok a =>
    rw [ha] at hm
    simp only at hm
    obtain ⟨h1, h2, h3, h5⟩ := slice_choice (fun a b => by simp) hnd hbh hkl' ha
    cases a with
    | general =>
      simp only [FzStringMap.build, bind, Except.bind] at hm
      split at hm
      · cases hm
      · split at hm
        · cases hm
        · cases hm
          exact ⟨_, rfl, fun _ => rfl, fun hl => .classic (Nat.zero_le _) hl (h5 rfl)⟩
    | length =>
      simp only [FzStringMap.build, bind, Except.bind] at hm
      split at hm
      · cases hm
      · split at hm
        · cases hm
        · cases hm
          exact ⟨_, rfl, fun _ => rfl, fun hl => absurd (h1.1 rfl) hl⟩
    | left rg =>
      simp only [FzStringMap.build, bind, Except.bind] at hm
      split at hm
      · cases hm
      · split at hm
        · cases hm
        · cases hm
          exact ⟨_, rfl, fun hl => (by cases h1.2 hl), fun hl => .left (Nat.zero_le _) hl (h2 rg rfl).1 (h2 rg rfl).2⟩
    | right rg =>
      simp only [FzStringMap.build, bind, Except.bind] at hm
      split at hm
      · cases hm
      · split at hm
        · cases hm
        · cases hm
          exact ⟨_, rfl, fun hl => (by cases h1.2 hl), fun hl => .right (Nat.zero_le _) hl (h3 rg rfl).1 (h3 rg rfl).2⟩

theorem stringMapUses_unique {m : FzStringMap V} {s s' : Strategy} (h : StringMapUses m s) (h' : StringMapUses m s') : s = s' := by
  cases m <;> exact h.trans h'.symm

/-! ## What is documented but not done -/

/-- **C72** (refutation)  A run-time string map never uses the lengths of the keys as hash codes, although whenever the lengths
tell the keys apart they are the documented choice, which the macros make. -/
theorem c72_length_as_hash_refuted [Target] {sort : Sorter (Str × V)} {bhStr bhSlice : Str → Nat} {es : List (Str × V)}
    (hkl : ∀ e ∈ es, e.1.length ≤ usizeMax) (hbh : PartsHashApart bhSlice (es.map (fun e => e.1)).toFinset)
    (hl : LengthsTell (es.map (fun e => e.1)).toFinset) {m : FzStringMap V}
    (hm : FzStringMap.withHasher sort bhStr bhSlice es = .ok m) :
    ¬ ∃ s, StringMapUses m s ∧ StringStrategy 0 (es.map (fun e => e.1)).toFinset s := by
  rintro ⟨s, h1, h2⟩
  obtain ⟨s', h3, h4, -⟩ := c72_fz_string_map_partial hkl hbh hm
  cases (stringMapUses_unique h1 h3).trans (h4 hl)
  cases h2 with
  | classic _ hn _ => exact hn hl

/-- **C72** (refutation)  Very small ordered collections are not searched by the documented ordered scan, which can stop early;
nor are larger ones searched by the documented binary search. -/
theorem c72_ordered_scan_refuted [Target] {em : Emitter} {unit : V} {cmpB : B → B → Ordering} (hc : LawfulCmp cmpB)
    {entries : List (CollectionEntry B K V)} {item : Item (Emitted K V)}
    (hi : em.emitOrdered unit cmpB entries = .ok (.ok item)) :
    ¬ Uses item.ctor .orderedScan ∧ ¬ Uses item.ctor .binarySearch := by
  obtain ⟨R, hR⟩ := exists_representatives (LawfulCmp'.eqLawful hc) (entries.map (fun e => (e.key, ())))
  have h := c72_emit_ordered hc hR hi
  have huniq : ∀ {c : Emitted K V} {s s'}, s = .linearScan ∨ s = .eytzinger → Uses c s → Uses c s' → s = s' := by
    intro c s s' hs h1 h2
    have hh : ∀ {t : HasherTok}, HasherUses t s → HasherUses t s' → s = s' := by
      intro t h1 h2
      cases t with
      | bridge _ => exact Eq.trans h1 (Eq.symm h2)
      | scalar => exact Eq.trans h1 (Eq.symm h2)
      | length => exact Eq.trans h1 (Eq.symm h2)
      | left _ _ _ => obtain ⟨_, _, -, -, rfl⟩ := h1; rcases hs with hs | hs <;> cases hs
      | right _ _ _ => obtain ⟨_, _, -, -, rfl⟩ := h1; rcases hs with hs | hs <;> cases hs
    cases c <;> first | exact Eq.trans h1 (Eq.symm h2) | exact hh h1 h2
  by_cases h4 : R.length < 4
  · rw [if_pos h4] at h
    exact ⟨fun h' => (by cases huniq (.inl rfl) h h'), fun h' => (by cases huniq (.inl rfl) h h')⟩
  · rw [if_neg h4] at h
    exact ⟨fun h' => (by cases huniq (.inr rfl) h h'), fun h' => (by cases huniq (.inr rfl) h h')⟩

/-- **C72** (refutation)  Run-time hash maps are not scanned however small they are: every lookup hashes the query. -/
theorem c72_small_scan_refuted [Target] {find : HbFind} {sort : Sorter (K × V)} (hsort : SorterOk sort) {eqK : K → K → Bool}
    {hK : K → Nat} {es : List (K × V)} (hn : es.length < sizeLimit) {m : HashMap K V}
    (hm : FzHashMap.withHasher find sort eqK hK es = .ok m) (hQ : Q → Nat) (mt : Q → K → Bool) (q : Q) :
    ∃ r calls, SearchOf (FzHashMap.impl hQ mt) m q (m.searchT (bridgeHashT hQ) mt q) ∧
      m.searchT (bridgeHashT hQ) mt q = .ok (r, calls) ∧ Call.hash ∈ calls := by
  obtain ⟨s, -, h⟩ := c58_fz_hash_map hsort hn hm hQ mt
  obtain ⟨h1, r, ks, h2, -⟩ := h q
  exact ⟨r, _, h1, h2, by simp⟩

/-! ## Examples -/

/-- Numbers that fill their range, numbers in a narrow range, and numbers far apart: few and many. -/
example : ScalarStrategy 8 {3, 4, 5} .denseLookup ∧ ScalarStrategy 8 {1, 5, 100} .sparseLookup ∧
    ScalarStrategy 8 {1, 5, 1000} .linearScan ∧ ScalarStrategy 0 {1, 5, 1000} .scalarAsHash := by
  have hf : ∀ {D : Finset Nat} {x y c : Nat}, x ∈ D → y ∈ D → x ≤ c → c ≤ y → c ∉ D → ¬ Filled D :=
    fun hx hy h1 h2 hn h => hn (h _ hx _ hy _ h1 h2)
  have hn : ¬ Narrow {1, 5, 1000} := by
    rintro (h | h)
    · have := h 1 (by decide) 1000 (by decide); omega
    · have := h 1 (by decide) 1000 (by decide)
      have hc : ({1, 5, 1000} : Finset Nat).card = 3 := by decide
      omega
  have hg : ¬ Filled {1, 5, 1000} := hf (x := 1) (y := 5) (c := 2) (by decide) (by decide) (by decide) (by decide) (by decide)
  refine ⟨.dense ?_, .sparse ?_ (.inl (by decide)), .scan hg hn (by decide), .hash hg hn (by decide)⟩
  · intro x hx y hy c h1 h2
    simp only [Finset.mem_insert, Finset.mem_singleton] at hx hy ⊢
    omega
  · exact hf (x := 1) (y := 5) (c := 2) (by decide) (by decide) (by decide) (by decide) (by decide)

/-- Four strings of different lengths. -/
def fourLengths : Finset Str := {[1], [1, 1], [], [1, 2, 3]}

theorem fourLengths_tell : LengthsTell fourLengths := by
  intro n
  refine Nat.le_trans (Finset.card_le_one.2 ?_) (Nat.le_max_left _ _)
  intro a ha b hb
  simp only [fourLengths, Finset.mem_filter, Finset.mem_insert, Finset.mem_singleton] at ha hb
  obtain ⟨ha, rfl⟩ := ha
  obtain ⟨hb, h⟩ := hb
  rcases ha with rfl | rfl | rfl | rfl <;> rcases hb with rfl | rfl | rfl | rfl <;> first | rfl | simp at h

theorem fourLengths_apart (bh : Str → Nat) : PartsHashApart bh fourLengths := by
  intro left lo hi h s _ t _ _
  have : hi = 0 := by
    have := h [] (by decide)
    simpa using this
  subst this
  cases left <;> simp [bytesAt]

/-- The lengths do not tell these strings apart; their second bytes do. -/
example : ¬ LengthsTell ({[7, 1, 7], [7, 2, 7], [7, 3, 7], [7, 4, 7]} : Finset Str) ∧
    ShortestPart ({[7, 1, 7], [7, 2, 7], [7, 3, 7], [7, 4, 7]} : Finset Str) true 1 2 := by
  refine ⟨fun h => ?_, ⟨by unfold PartTells; decide, by decide, fun _ _ _ h => ?_⟩⟩
  · have := h 3
    revert this
    decide
  · have := h.1
    omega

attribute [local instance] w64 in
/-- The macros choose the lengths of four strings of different lengths. -/
example : ∃ item, fzMacro (demoEnv Str Unit ()) false .short .string
      [⟨.lit (.str [1]), [1], none⟩, ⟨.lit (.str [1, 1]), [1, 1], none⟩, ⟨.lit (.str []), [], none⟩,
        ⟨.lit (.str [1, 2, 3]), [1, 2, 3], none⟩] = .ok (.ok item) ∧ Uses item.ctor .lengthAsHash := by
  have hk : AllStrs .string (([⟨.lit (.str [1]), [1], none⟩, ⟨.lit (.str [1, 1]), [1, 1], none⟩, ⟨.lit (.str []), [], none⟩,
        ⟨.lit (.str [1, 2, 3]), [1, 2, 3], none⟩] : List (MacroEntry Str Unit)).map (fun e => e.key)) :=
    (c42_classes (by simp)).2.1.1 rfl
  obtain ⟨item, m, h1, -⟩ := c37_macro_strings (env := demoEnv Str Unit ()) slotSort_ok (by decide) (isMap := false) (form := .short)
    (kind := .string) (entries := [⟨.lit (.str [1]), [1], none⟩, ⟨.lit (.str [1, 1]), [1, 1], none⟩, ⟨.lit (.str []), [], none⟩,
        ⟨.lit (.str [1, 2, 3]), [1, 2, 3], none⟩]) (by simp) hk (bytesK := fun x => x)
    (by
      intro e he v h
      simp only [List.mem_cons, List.not_mem_nil, or_false] at he
      rcases he with rfl | rfl | rfl | rfl <;> cases h <;> decide)
    (by decide) (q := strTraits) rfl (fun _ => rfl) rfl
  obtain ⟨s, h2, h3⟩ := c72_macro_strs (by simp) hk (D := fourLengths) (by
      intro v
      constructor
      · intro h
        simp only [fourLengths, Finset.mem_insert, Finset.mem_singleton] at h
        rcases h with rfl | rfl | rfl | rfl
        · exact ⟨⟨.lit (.str [1]), [1], none⟩, by simp, .lit _⟩
        · exact ⟨⟨.lit (.str [1, 1]), [1, 1], none⟩, by simp, .lit _⟩
        · exact ⟨⟨.lit (.str []), [], none⟩, by simp, .lit _⟩
        · exact ⟨⟨.lit (.str [1, 2, 3]), [1, 2, 3], none⟩, by simp, .lit _⟩
      · rintro ⟨e, he, h⟩
        simp only [List.mem_cons, List.not_mem_nil, or_false] at he
        rcases he with rfl | rfl | rfl | rfl <;> cases h <;> decide)
    (by decide) (fourLengths_apart _) h1
  refine ⟨item, h1, ?_⟩
  rcases stringStrategy_unique h3 (.length (by decide) fourLengths_tell) with rfl | ⟨_, _, _, _, -, h, -⟩ | ⟨_, _, _, _, -, h, -⟩
  · exact h2
  · cases h
  · cases h

attribute [local instance] w64 in
/-- The run-time type does not. -/
example (bhStr bhSlice : Str → Nat) : ∃ m, FzStringMap.withHasher slotSort bhStr bhSlice
      [([1], 'a'), ([1, 1], 'b'), ([], 'c'), ([1, 2, 3], 'd')] = .ok m ∧
    ¬ ∃ s, StringMapUses m s ∧ StringStrategy 0 fourLengths s := by
  obtain ⟨m, h1, -⟩ := c04_fz_string_map slotSort_ok bhStr bhSlice [([1], 'a'), ([1, 1], 'b'), ([], 'c'), ([1, 2, 3], 'd')] (by decide)
  have e : (([([1], 'a'), ([1, 1], 'b'), ([], 'c'), ([1, 2, 3], 'd')] : List (Str × Char)).map (fun e => e.1)).toFinset = fourLengths := by
    decide
  exact ⟨m, h1, e ▸ c72_length_as_hash_refuted (by decide) (e ▸ fourLengths_apart _) (e ▸ fourLengths_tell) h1⟩

attribute [local instance] w64 in
/-- Six entries with five different keys. -/
example : ∃ item, staticMap.emitHash "" listFind slotSort natEq (fun seed q => (seed + 31 * q) % 2 ^ 64) 77
      [⟨3, 3, "a"⟩, ⟨10, 10, "b"⟩, ⟨18, 18, "c"⟩, ⟨3, 3, "d"⟩, ⟨500, 500, "e"⟩, ⟨12, 12, "f"⟩] = .ok (.ok item) ∧
    Uses item.ctor .classicHashing := by
  obtain ⟨item, m, h1, -⟩ := c37_emit_hash (t := natTraits) (em := staticMap) (by unfold ValidOptions; decide) (unit := "") listFind_ok
    slotSort_ok natEq_lawful natEq_lawful natEq_query (fixedState := fun seed q => (seed + 31 * q) % 2 ^ 64) (seed := 77) (by decide)
    (fun a b h => by rw [eq_of_beq h]) (hk := fun q => (77 + 31 * q) % 2 ^ 64) (natEq_hash _)
    (entries := [⟨3, 3, "a"⟩, ⟨10, 10, "b"⟩, ⟨18, 18, "c"⟩, ⟨3, 3, "d"⟩, ⟨500, 500, "e"⟩, ⟨12, 12, "f"⟩])
    (by decide) (by decide) (by decide)
  exact ⟨item, h1, c72_emit_hash listFind_ok natEq_lawful (fun a b h => by rw [eq_of_beq h]) (R := [3, 10, 18, 500, 12])
    ⟨by unfold Distinct; decide, by decide, by decide⟩ h1⟩

attribute [local instance] w64 in
/-- Three different ordered keys, and four: neither an ordered scan nor a binary search. -/
example : ∃ i3 i4, staticMap.emitOrdered "" natCmp [⟨3, 3, "a"⟩, ⟨1, 1, "b"⟩, ⟨2, 2, "c"⟩, ⟨3, 3, "d"⟩] = .ok (.ok i3) ∧
    staticMap.emitOrdered "" natCmp [⟨3, 3, "a"⟩, ⟨1, 1, "b"⟩, ⟨2, 2, "c"⟩, ⟨4, 4, "d"⟩] = .ok (.ok i4) ∧
    Uses i3.ctor .linearScan ∧ ¬ Uses i3.ctor .orderedScan ∧ Uses i4.ctor .eytzinger ∧ ¬ Uses i4.ctor .binarySearch := by
  obtain ⟨i3, _, h3, -⟩ := c37_emit_ordered (t := natTraits) (em := staticMap) (by unfold ValidOptions; decide) (unit := "") natCmp_lawful
    natCmp_lawful natCmp_query (by funext a b; by_cases h : a = b <;> simp [natTraits, natEq, natCmp, h])
    (entries := [⟨3, 3, "a"⟩, ⟨1, 1, "b"⟩, ⟨2, 2, "c"⟩, ⟨3, 3, "d"⟩]) (by decide) (by decide)
  obtain ⟨i4, _, h4, -⟩ := c37_emit_ordered (t := natTraits) (em := staticMap) (by unfold ValidOptions; decide) (unit := "") natCmp_lawful
    natCmp_lawful natCmp_query (by funext a b; by_cases h : a = b <;> simp [natTraits, natEq, natCmp, h])
    (entries := [⟨3, 3, "a"⟩, ⟨1, 1, "b"⟩, ⟨2, 2, "c"⟩, ⟨4, 4, "d"⟩]) (by decide) (by decide)
  exact ⟨i3, i4, h3, h4,
    c72_emit_ordered natCmp_lawful (R := [3, 1, 2]) ⟨by unfold Distinct; decide, by decide, by decide⟩ h3,
    (c72_ordered_scan_refuted natCmp_lawful h3).1,
    c72_emit_ordered natCmp_lawful (R := [3, 1, 2, 4]) ⟨by unfold Distinct; decide, by decide, by decide⟩ h4,
    (c72_ordered_scan_refuted natCmp_lawful h4).2⟩

end Frozen.Props
