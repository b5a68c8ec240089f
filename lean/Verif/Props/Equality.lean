import Verif.Lemmas.Equality
import Verif.Props.Maps

/-! # C25, C35: equality of maps and independence of the construction route -/

namespace Frozen.Props

open Frozen Frozen.Spec Frozen.Model

variable {M M' M'' Q K V V' V'' : Type}

/-- Two optional values correspond: both absent, or both present and related. -/
def OptAgree (eqV : V → V' → Bool) : Option (K × V) → Option (K × V') → Prop
  | none, none => True
  | some a, some b => eqV a.2 b.2 = true
  | _, _ => False

/-- The two entry lists define the same mapping (last entry wins): the same keys, with values related by `eqV`. -/
def SameMapping (eqK : K → K → Bool) (eqV : V → V' → Bool) (es : List (K × V)) (es' : List (K × V')) : Prop :=
  ∀ k, OptAgree eqV (lastMatch eqK es k) (lastMatch eqK es' k)

/-- **C25** `==` between two constructed maps, of the same or different types, returns (never panics), and returns `true`
exactly when both maps have the same keys with equal values. -/
theorem c25_map_eq_is_extensional [Target] {eqK : K → K → Bool} {mt : Q → K → Bool} {es : List (K × V)} {es' : List (K × V')}
    {I : MapImpl M Q K V} {J : MapImpl M' K K V'} {m : M} {m' : M'} (hb : Built eqK mt es I m)
    (hb' : Built eqK eqK es' J m') (eqV : V → V' → Bool) :
    ∃ b, I.eq J eqV m m' = .ok b ∧ (b = true ↔ SameMapping eqK eqV es es') := by
  obtain ⟨Inv, F⟩ := hb.facts
  obtain ⟨Inv', F'⟩ := hb'.facts
  have hlen := F.lawful.len m F.inv
  have hlen' := F'.lawful.len m' F'.inv
  have hd := (distinct_iff_keys _).1 (F.lawful.distinct m F.inv)
  have hd' := (distinct_iff_keys _).1 (F'.lawful.distinct m' F'.inv)
  have hmem := F.contents.mem
  have hmem' := F'.contents.mem
  have hget := fun k => F'.lookups.get k
  have he := F.eq
  -- every key that has a mapping is represented in the entries
  have hrep : ∀ {W N P : Type} {L : MapImpl N P K W} {n : N} {fs : List (K × W)}, (∀ e, e ∈ L.entries n ↔
      lastMatch eqK fs e.1 = some e) → ∀ k e, lastMatch eqK fs k = some e → e ∈ L.entries n ∧ eqK k e.1 = true := by
    intro W N P L n fs hm k e h
    obtain ⟨h1, h2⟩ := lastMatch_mem h
    refine ⟨?_, h2⟩
    rw [hm]
    rw [← h]
    have hcongr : ∀ x, eqK e.1 x = eqK k x := by
      intro x
      rw [Bool.eq_iff_iff]
      exact ⟨fun hx => he.trans _ _ _ h2 hx, fun hx => he.trans _ _ _ (he.symm _ _ h2) hx⟩
    unfold lastMatch
    simp only [hcongr]
  unfold MapImpl.eq
  rw [hlen, hlen', allEntriesIn_spec _ hget]
  by_cases hl : (I.entries m).length = (J.entries m').length
  · rw [if_neg (by simp [hl])]
    refine ⟨_, rfl, ?_⟩
    rw [List.all_eq_true]
    constructor
    · intro hall k
      have hcov : ∀ a ∈ (I.entries m).map Prod.fst, ∃ b ∈ (J.entries m').map Prod.fst, eqK a b = true := by
        intro a ha
        obtain ⟨e, hee, rfl⟩ := List.mem_map.1 ha
        have := hall e hee
        cases h2 : lastMatch eqK es' e.1 with
        | none => rw [h2] at this; simp at this
        | some f => exact ⟨f.1, List.mem_map.2 ⟨f, (hrep hmem' _ _ h2).1, rfl⟩, (hrep hmem' _ _ h2).2⟩
      have hback := covers_of_length_eq he hd hd' (by simpa using hl) hcov
      cases h1 : lastMatch eqK es k with
      | some e =>
        obtain ⟨h3, h4⟩ := hrep hmem k e h1
        have h5 := hall e h3
        have h6 : lastMatch eqK es' e.1 = lastMatch eqK es' k := by
          have hcongr : ∀ x, eqK e.1 x = eqK k x := by
            intro x
            rw [Bool.eq_iff_iff]
            exact ⟨fun hx => he.trans _ _ _ h4 hx, fun hx => he.trans _ _ _ (he.symm _ _ h4) hx⟩
          unfold lastMatch; simp only [hcongr]
        rw [h6] at h5
        cases h2 : lastMatch eqK es' k with
        | none => rw [h2] at h5; simp at h5
        | some f => rw [h2] at h5; exact h5
      | none =>
        cases h2 : lastMatch eqK es' k with
        | none => trivial
        | some f =>
          obtain ⟨h3, h4⟩ := hrep hmem' k f h2
          obtain ⟨a, ha, hfa⟩ := hback f.1 (List.mem_map.2 ⟨f, h3, rfl⟩)
          obtain ⟨e, hee, rfl⟩ := List.mem_map.1 ha
          have := (hmem e).1 hee
          have h5 := (lastMatch_mem this).1
          rw [lastMatch_eq_none_iff] at h1
          have h6 := h1 e h5
          rw [he.trans _ _ _ h4 hfa] at h6
          cases h6
    · intro hs e hee
      have h1 := (hmem e).1 hee
      have h2 := hs e.1
      rw [h1] at h2
      cases h3 : lastMatch eqK es' e.1 with
      | none => rw [h3] at h2; exact h2.elim
      | some f => rw [h3] at h2; simpa [OptAgree] using h2
  · rw [if_pos (by simp [hl])]
    refine ⟨false, rfl, ?_⟩
    constructor
    · intro h; cases h
    · intro hs
      exfalso
      apply hl
      have c1 := distinct_length_le he (A := (I.entries m).map Prod.fst) (B := (J.entries m').map Prod.fst) hd (by
        intro a ha
        obtain ⟨e, hee, rfl⟩ := List.mem_map.1 ha
        have h1 := (hmem e).1 hee
        have h2 := hs e.1
        rw [h1] at h2
        cases h3 : lastMatch eqK es' e.1 with
        | none => rw [h3] at h2; exact h2.elim
        | some f => exact ⟨f.1, List.mem_map.2 ⟨f, (hrep hmem' _ _ h3).1, rfl⟩, (hrep hmem' _ _ h3).2⟩)
      have c2 := distinct_length_le he (A := (J.entries m').map Prod.fst) (B := (I.entries m).map Prod.fst) hd' (by
        intro a ha
        obtain ⟨e, hee, rfl⟩ := List.mem_map.1 ha
        have h1 := (hmem' e).1 hee
        have h2 := hs e.1
        rw [h1] at h2
        cases h3 : lastMatch eqK es e.1 with
        | none => rw [h3] at h2; exact h2.elim
        | some f => exact ⟨f.1, List.mem_map.2 ⟨f, (hrep hmem _ _ h3).1, rfl⟩, (hrep hmem _ _ h3).2⟩)
      simp only [List.length_map] at c1 c2
      omega

/-- **C25** (reflexivity) a map equals itself when every value equals itself. -/
theorem c25_refl [Target] {eqK : K → K → Bool} {es : List (K × V)} {I : MapImpl M K K V} {m : M} (hb : Built eqK eqK es I m)
    {eqV : V → V → Bool} (hv : ∀ v, eqV v v = true) : I.eq I eqV m m = .ok true := by
  obtain ⟨b, h1, h2⟩ := c25_map_eq_is_extensional hb hb eqV
  rw [h1, h2.2]
  intro k
  cases lastMatch eqK es k with
  | none => trivial
  | some e => exact hv e.2

/-- **C25** (symmetry) `a == b` and `b == a` give the same answer, whatever the two map types. -/
theorem c25_symm [Target] {eqK : K → K → Bool} {es : List (K × V)} {es' : List (K × V')} {I : MapImpl M K K V}
    {J : MapImpl M' K K V'} {m : M} {m' : M'} (hb : Built eqK eqK es I m) (hb' : Built eqK eqK es' J m')
    {eqV : V → V' → Bool} {eqV' : V' → V → Bool} (hv : ∀ v v', eqV v v' = eqV' v' v) :
    I.eq J eqV m m' = J.eq I eqV' m' m := by
  obtain ⟨b, h1, h2⟩ := c25_map_eq_is_extensional hb hb' eqV
  obtain ⟨b', h1', h2'⟩ := c25_map_eq_is_extensional hb' hb eqV'
  have hs : SameMapping eqK eqV es es' ↔ SameMapping eqK eqV' es' es := by
    unfold SameMapping
    refine forall_congr' fun k => ?_
    cases lastMatch eqK es k <;> cases lastMatch eqK es' k <;> simp [OptAgree, hv]
  rw [h1, h1']
  congr 1
  rw [Bool.eq_iff_iff, h2, h2', hs]

/-- **C25** (transitivity). -/
theorem c25_trans [Target] {eqK : K → K → Bool} {es : List (K × V)} {es' : List (K × V')} {es'' : List (K × V'')}
    {I : MapImpl M K K V} {J : MapImpl M' K K V'} {L : MapImpl M'' K K V''} {m : M} {m' : M'} {m'' : M''}
    (hb : Built eqK eqK es I m) (hb' : Built eqK eqK es' J m') (hb'' : Built eqK eqK es'' L m'')
    {e1 : V → V' → Bool} {e2 : V' → V'' → Bool} {e3 : V → V'' → Bool}
    (hv : ∀ a b c, e1 a b = true → e2 b c = true → e3 a c = true) (h12 : I.eq J e1 m m' = .ok true)
    (h23 : J.eq L e2 m' m'' = .ok true) : I.eq L e3 m m'' = .ok true := by
  obtain ⟨b, h1, h1'⟩ := c25_map_eq_is_extensional hb hb' e1
  obtain ⟨c, h2, h2'⟩ := c25_map_eq_is_extensional hb' hb'' e2
  obtain ⟨d, h3, h3'⟩ := c25_map_eq_is_extensional hb hb'' e3
  rw [h12] at h1; rw [h23] at h2
  cases h1; cases h2
  rw [h3, h3'.2]
  intro k
  have s1 := h1'.1 rfl k
  have s2 := h2'.1 rfl k
  generalize lastMatch eqK es k = x at *
  generalize lastMatch eqK es' k = y at *
  generalize lastMatch eqK es'' k = z at *
  cases x <;> cases y <;> cases z <;> simp only [OptAgree] at *
  exact hv _ _ _ s1 s2

/-- With pairwise different keys, reordering the entries does not change the mapping. -/
theorem lastMatch_perm {eqK : K → K → Bool} (he : LawfulEq' eqK) {es es' : List (K × V)} (hp : es.Perm es')
    (hd : Distinct eqK (es.map (fun e => e.1))) (k : K) : lastMatch eqK es k = lastMatch eqK es' k := by
  have hd1 : Distinct (entryEq eqK) es := (distinct_iff_keys _).2 hd
  have hd2 : Distinct (entryEq eqK) es' := Distinct.perm he.entry hp hd1
  have h1 : es'.Perm (survivors eqK es) := by
    unfold survivors
    rw [keepLast_of_distinct hd1]
    exact hp.symm
  have h2 : es'.Perm (survivors eqK es') := by
    unfold survivors
    rw [keepLast_of_distinct hd2]
  rw [← find?_of_perm_survivors he.query h1, ← find?_of_perm_survivors he.query h2]

/-- **C25** (construction order) maps built from the same entries in different orders, even by different types, are
equal. -/
theorem c25_independent_of_order [Target] {eqK : K → K → Bool} {mt : Q → K → Bool} {es es' : List (K × V)}
    {I : MapImpl M Q K V} {J : MapImpl M' K K V} {m : M} {m' : M'} (hb : Built eqK mt es I m)
    (hb' : Built eqK eqK es' J m') (hp : es.Perm es') (hd : Distinct eqK (es.map (fun e => e.1)))
    {eqV : V → V → Bool} (hv : ∀ v, eqV v v = true) : I.eq J eqV m m' = .ok true := by
  obtain ⟨Inv, F⟩ := hb.facts
  obtain ⟨b, h1, h2⟩ := c25_map_eq_is_extensional hb hb' eqV
  rw [h1, h2.2]
  intro k
  rw [lastMatch_perm F.eq hp hd]
  cases lastMatch eqK es' k with
  | none => trivial
  | some e => exact hv e.2

attribute [local instance] w64 in
/-- Equal maps of two types (a scan map and an Eytzinger map) built from different lists with a repeated key. -/
example : ∃ m, EytzingerMap.new natCmp [(5, 'b'), (3, 'a')] = .ok m ∧
    (ScanMap.impl (Q := Nat) (fun a b => natCmp a b == .eq)).eq (EytzingerMap.impl natCmp) (fun a b => a == b)
      (ScanMap.new (fun a b => natCmp a b == .eq) [(3, 'x'), (5, 'b'), (3, 'a')]) m = .ok true ∧
    SameMapping (fun a b => natCmp a b == .eq) (fun a b => a == b) [(3, 'x'), (5, 'b'), (3, 'a')]
      [(5, 'b'), (3, 'a')] := by
  obtain ⟨m, h1, _⟩ := EytzingerMap.new_spec natCmp_lawful [(5, 'b'), (3, 'a')]
  have hb : Built _ _ [(3, 'x'), (5, 'b'), (3, 'a')] (ScanMap.impl (Q := Nat) (fun a b => natCmp a b == .eq)) _ :=
    .scan (LawfulCmp'.eqLawful natCmp_lawful) natCmp_query.query
  have hb' : Built _ _ _ (EytzingerMap.impl natCmp) m := .eytzinger natCmp_lawful natCmp_query h1
  have hs : SameMapping (fun a b => natCmp a b == .eq) (fun a b : Char => a == b) [(3, 'x'), (5, 'b'), (3, 'a')]
      [(5, 'b'), (3, 'a')] := by
    intro k
    by_cases h3 : k = 3
    · subst h3; exact rfl
    · by_cases h5 : k = 5
      · subst h5; exact rfl
      · have e3 : (natCmp k 3 == .eq) = false := by
          simp only [natCmp, beq_eq_false_iff_ne, ne_eq, Nat.compare_eq_eq]; exact h3
        have e5 : (natCmp k 5 == .eq) = false := by
          simp only [natCmp, beq_eq_false_iff_ne, ne_eq, Nat.compare_eq_eq]; exact h5
        simp only [lastMatch, List.foldl_cons, List.foldl_nil, e3, e5, Bool.false_eq_true, if_false, OptAgree]
  obtain ⟨b, h2, h3⟩ := c25_map_eq_is_extensional hb hb' (fun a b => a == b)
  exact ⟨m, h1, by rw [h2, h3.2 hs], hs⟩

/-- **C35** Any two maps built from the same entry sequence answer every lookup identically, have the same length
and the same entries up to order — whatever the map types, hash functions and construction routes. -/
theorem c35_same_entries_same_map [Target] {eqK : K → K → Bool} {mt : Q → K → Bool} {es es' : List (K × V)}
    {I : MapImpl M Q K V} {J : MapImpl M' Q K V} {m : M} {m' : M'} (hb : Built eqK mt es I m)
    (hb' : Built eqK mt es' J m') (hs : ∀ k, lastMatch eqK es k = lastMatch eqK es' k) :
    (∀ q, I.get m q = J.get m' q) ∧ (∀ q, I.getKeyValue m q = J.getKeyValue m' q) ∧
    (∀ q, I.containsKey m q = J.containsKey m' q) ∧ I.len m = J.len m' ∧ (I.entries m).Perm (J.entries m') := by
  obtain ⟨Inv, F⟩ := hb.facts
  obtain ⟨Inv', F'⟩ := hb'.facts
  have hp : (I.entries m).Perm (J.entries m') := by
    refine (List.perm_ext_iff_of_nodup ?_ ?_).2 fun e => ?_
    · refine List.Pairwise.imp ?_ (F.lawful.distinct m F.inv)
      rintro a b h rfl
      have := F.eq.refl a.1
      simp only [entryEq] at h
      rw [this] at h; cases h
    · refine List.Pairwise.imp ?_ (F'.lawful.distinct m' F'.inv)
      rintro a b h rfl
      have := F.eq.refl a.1
      simp only [entryEq] at h
      rw [this] at h; cases h
    · rw [F.contents.mem, F'.contents.mem, hs]
  have hl : ∀ q, lastMatch mt es q = lastMatch mt es' q := by
    intro q
    rw [← find?_of_perm_survivors F.query F.perm q, ← find?_of_perm_survivors F'.query (hp.trans F'.perm) q]
  refine ⟨fun q => ?_, fun q => ?_, fun q => ?_, ?_, hp⟩
  · rw [F.lookups.get, F'.lookups.get, hl]
  · rw [F.lookups.getKeyValue, F'.lookups.getKeyValue, hl]
  · rw [F.lookups.containsKey, F'.lookups.containsKey, hl]
  · rw [F.lawful.len _ F.inv, F'.lawful.len _ F'.inv, hp.length_eq]

/-- **C35** (order of entries) with pairwise different keys the content does not depend on the order in which the entries
are given. -/
theorem c35_order_irrelevant [Target] {eqK : K → K → Bool} {mt : Q → K → Bool} {es es' : List (K × V)}
    {I : MapImpl M Q K V} {J : MapImpl M' Q K V} {m : M} {m' : M'} (hb : Built eqK mt es I m)
    (hb' : Built eqK mt es' J m') (hp : es.Perm es') (hd : Distinct eqK (es.map (fun e => e.1))) :
    (∀ q, I.get m q = J.get m' q) ∧ (∀ q, I.getKeyValue m q = J.getKeyValue m' q) ∧
    (∀ q, I.containsKey m q = J.containsKey m' q) ∧ I.len m = J.len m' ∧ (I.entries m).Perm (J.entries m') := by
  obtain ⟨Inv, F⟩ := hb.facts
  exact c35_same_entries_same_map hb hb' (lastMatch_perm F.eq hp hd)

/-- Two orders of two entries. -/
example : [(3, 'a'), (5, 'b')].Perm [(5, 'b'), (3, 'a')] ∧ Distinct natEq ([(3, 'a'), (5, 'b')].map (fun e => e.1)) ∧
    (ScanMap.impl natEq).get (ScanMap.new natEq [(3, 'a'), (5, 'b')]) 5 =
      (ScanMap.impl natEq).get (ScanMap.new natEq [(5, 'b'), (3, 'a')]) 5 :=
  ⟨.swap .., by unfold Distinct; decide, by decide⟩

end Frozen.Props
