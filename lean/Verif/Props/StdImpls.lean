import Verif.Lemmas.StdImpls
import Verif.Props.Maps
import Verif.Props.Sets

/-!
# C60: generic code sees the same on the standard collections and on frozen ones
-/

namespace Frozen.Props

open Frozen Frozen.Spec Frozen.Model

variable {M Q K V T : Type}

theorem built_perm_std [Target] {eqK : K → K → Bool} {mt : Q → K → Bool} {es : List (K × V)} {I : MapImpl M Q K V} {m : M}
    (hb : Built eqK mt es I m) {s : StdMap K V} (hmem : ∀ e, e ∈ s.entries ↔ lastMatch eqK es e.1 = some e)
    (hd : Distinct eqK (s.entries.map (fun e => e.1))) :
    (I.entries m).Perm s.entries ∧ Distinct (entryEq eqK) s.entries := by
  obtain ⟨Inv, F⟩ := hb.facts
  have hd' : Distinct (entryEq eqK) s.entries := List.pairwise_map.1 hd
  have he := F.eq.entry (V := V)
  have nodup : ∀ {l : List (K × V)}, Distinct (entryEq eqK) l → l.Nodup := by
    intro l h
    refine List.Pairwise.imp ?_ h
    rintro a b h rfl
    rw [he.refl] at h; cases h
  refine ⟨(List.perm_ext_iff_of_nodup (nodup (F.lawful.distinct m F.inv)) (nodup hd')).2 fun e => ?_, hd'⟩
  rw [hmem]
  exact F.contents.mem e

/-- **C60** (partial: for hash maps, programs that never ask `get_disjoint_mut` for equal keys that are all missing)
Take a standard `HashMap`, a hashbrown `HashMap` or a `BTreeMap` and a frozen map with the same entries.  A generic program that uses
them through the map traits, and treats the entries alike whatever their order, observes the same on both, step by step,
except for the order in which entries are listed; and it leaves the same entries behind.

Missing: `get_disjoint_mut` calls on a hash map for equal keys none of which is in the map.  For those the claim is
false, see `c60_absent_duplicates_violated`. -/
theorem c60_same_programs_partial [Target] {eqK : K → K → Bool} {mt : Q → K → Bool} {es : List (K × V)} {I : MapImpl M Q K V} {m : M}
    (hb : Built eqK mt es I m) (kind : StdKind) {s : StdMap K V}
    (hmem : ∀ e, e ∈ s.entries ↔ lastMatch eqK es e.1 = some e) (hd : Distinct eqK (s.entries.map (fun e => e.1)))
    {eqQ : Q → Q → Bool} (hsym : ∀ a b, eqQ a b = true → eqQ b a = true) (hc : EqCompatible eqQ mt)
    (hr : EqRespected eqQ mt) (ops : List (Op Q K V)) (ho : ∀ op ∈ ops, OrderFree op)
    (hp : kind = .hash → ∀ op ∈ ops, DuplicatesPresent eqQ mt (s.entries.map (fun e => e.1)) op) :
    List.Forall₂ SameOut (I.run eqQ m ops).1 (s.run kind mt eqQ ops).1 ∧
      (I.entries (I.run eqQ m ops).2).Perm (s.run kind mt eqQ ops).2.entries := by
  obtain ⟨h1, h2⟩ := built_perm_std hb hmem hd
  obtain ⟨Inv, F⟩ := hb.facts
  obtain ⟨a1, a2, _⟩ := run_sim F.query F.lawful hc ops F.inv
  obtain ⟨b1, b2⟩ := StdMap.run_sim F.eq F.query kind hsym hc hr ops h2 hp
  obtain ⟨c1, c2⟩ := dictRun_perm F.query eqQ ops ho h1 h2
  rw [a1, a2, b1, b2]
  exact ⟨c1, c2⟩

/-- **C60** (`BTreeMap`) Without any condition on the keys asked for. -/
theorem c60_btree [Target] {eqK : K → K → Bool} {mt : Q → K → Bool} {es : List (K × V)} {I : MapImpl M Q K V} {m : M}
    (hb : Built eqK mt es I m) {s : StdMap K V}
    (hmem : ∀ e, e ∈ s.entries ↔ lastMatch eqK es e.1 = some e) (hd : Distinct eqK (s.entries.map (fun e => e.1)))
    {eqQ : Q → Q → Bool} (hsym : ∀ a b, eqQ a b = true → eqQ b a = true) (hc : EqCompatible eqQ mt)
    (hr : EqRespected eqQ mt) (ops : List (Op Q K V)) (ho : ∀ op ∈ ops, OrderFree op) :
    List.Forall₂ SameOut (I.run eqQ m ops).1 (s.run .btree mt eqQ ops).1 ∧
      (I.entries (I.run eqQ m ops).2).Perm (s.run .btree mt eqQ ops).2.entries :=
  c60_same_programs_partial hb .btree hmem hd hsym hc hr ops ho (fun h => by cases h)

/-- **C60** (the exact condition) On a hash map, a `get_disjoint_mut` step is seen as on the frozen map if and only if equal
keys among those asked for, if there are any, include some that are in the map. -/
theorem c60_disjoint_iff [Target] {eqK : K → K → Bool} {mt : Q → K → Bool} {es : List (K × V)} {I : MapImpl M Q K V} {m : M}
    (hb : Built eqK mt es I m) {s : StdMap K V}
    (hmem : ∀ e, e ∈ s.entries ↔ lastMatch eqK es e.1 = some e) (hd : Distinct eqK (s.entries.map (fun e => e.1)))
    {eqQ : Q → Q → Bool} (hsym : ∀ a b, eqQ a b = true → eqQ b a = true) (hc : EqCompatible eqQ mt)
    (hr : EqRespected eqQ mt) (qs : List Q) (f : Nat → V → V) :
    SameOut (I.step eqQ m (.disjointMut qs f)).1 (s.step .hash mt eqQ (.disjointMut qs f)).1 ↔
      DuplicatesPresent eqQ mt (s.entries.map (fun e => e.1)) (.disjointMut (K := K) qs f) := by
  constructor
  · intro h hnd
    by_contra hno
    -- the frozen map panics
    have h1 : (I.step eqQ m (.disjointMut qs f)).1 = .panic := by
      obtain ⟨Inv, F⟩ := hb.facts
      simp only [MapImpl.step]
      rw [disjoint_spec F.lawful F.inv, if_pos]
      · rfl
      · by_contra hs
        exact hnd ((someEqual_iff eqQ qs).1 (by simpa using hs))
    -- the hash map does not
    have h2 : samePosition (qs.map (fun q => s.entries.findIdx? (fun e => mt q e.1))) = false := by
      rw [samePosition_iff, List.Nodup, List.pairwise_filterMap, List.pairwise_map, List.pairwise_iff_getElem]
      intro i j hi hj hij x hx y hy hxy
      subst hxy
      simp only [id] at hx hy
      apply hno
      rw [List.findIdx?_eq_some_iff_getElem] at hx hy
      obtain ⟨hl, a1, _⟩ := hx
      obtain ⟨_, a2, _⟩ := hy
      exact ⟨i, j, _, _, hij, List.getElem?_eq_getElem hi, List.getElem?_eq_getElem hj, hc _ _ _ a1 a2, _,
        List.mem_map_of_mem (List.getElem_mem hl), a1⟩
    have h3 : (s.step .hash mt eqQ (.disjointMut qs f)).1 ≠ .panic := by
      simp only [StdMap.step, StdMap.getDisjointMut, StdMap.getManyMut, h2, Bool.false_eq_true, if_false]
      rw [if_pos ((samePosition_iff _).1 h2)]
      simp
    rw [h1] at h
    generalize (s.step .hash mt eqQ (.disjointMut qs f)).1 = o at *
    cases h
    exact h3 rfl
  · intro h
    have := (c60_same_programs_partial hb .hash hmem hd hsym hc hr [.disjointMut qs f] (by simp [OrderFree])
      (fun _ op ho => by rw [List.mem_singleton] at ho; subst ho; exact h)).1
    simpa [MapImpl.run, StdMap.run] using this

/-- A map with the keys 3 and 5, as a standard map. -/
def exampleStd : StdMap Nat Char := ⟨[(5, 'b'), (3, 'a')]⟩

/-- **C60** (refuted for absent equal keys) Generic code that calls `get_disjoint_mut` for the missing key 9 twice gets `[None, None]` from a
standard `HashMap` and a panic from a frozen map with the same entries. -/
theorem c60_absent_duplicates_violated [Target] :
    Built natEq natEq [(3, 'a'), (5, 'b')] (ScanMap.impl natEq) (ScanMap.new natEq [(3, 'a'), (5, 'b')]) ∧
    (∀ e, e ∈ exampleStd.entries ↔ lastMatch natEq [(3, 'a'), (5, 'b')] e.1 = some e) ∧
    (exampleStd.step .hash natEq natEq (.disjointMut [9, 9] (fun _ v => v))).1 = .values [none, none] ∧
    ((ScanMap.impl natEq).step natEq (ScanMap.new natEq [(3, 'a'), (5, 'b')]) (.disjointMut [9, 9] (fun _ v => v))).1 =
      .panic := by
  refine ⟨.scan natEq_lawful natEq_query, ?_, by decide, by decide⟩
  rintro ⟨k, c⟩
  simp only [exampleStd, lastMatch, natEq, List.foldl, List.mem_cons, List.not_mem_nil, or_false, Prod.mk.injEq]
  by_cases h5 : k = 5
  · subst h5; simp [eq_comm]
  · by_cases h3 : k = 3
    · subst h3; simp [eq_comm]
    · simp [h3, h5]

/-- Non-trivial case of `c60_same_programs_partial` (hash map): the duplicates asked for are in the map; both panic, and the stores
before and after reach the same entries. -/
example :
    (exampleStd.run .hash natEq natEq [.update 3 (fun _ => 'z'), .disjointMut [3, 9, 3] (fun _ v => v),
      .disjointMut [5, 9] (fun _ _ => 'y'), .get 3, .iterate]).1 =
      [.value (some 'a'), .panic, .values [some 'b', none], .value (some 'z'), .entries [(5, 'y'), (3, 'z')]] ∧
    ((ScanMap.impl natEq).run natEq (ScanMap.new natEq [(3, 'a'), (5, 'b')]) [.update 3 (fun _ => 'z'),
      .disjointMut [3, 9, 3] (fun _ v => v), .disjointMut [5, 9] (fun _ _ => 'y'), .get 3, .iterate]).1 =
      [.value (some 'a'), .panic, .values [some 'b', none], .value (some 'z'), .entries [(3, 'z'), (5, 'y')]] := by
  decide

/-- **C60** (collecting) A standard hash map and a frozen map collected from the same entries, repeated keys included, have the
same keys up to equality, the same number of entries, and the same value for every query; and the frozen map shows the last
of equal keys, the standard map the first. -/
theorem c60_collected_hash [Target] {eqK : K → K → Bool} {mt : Q → K → Bool} {es : List (K × V)} {I : MapImpl M Q K V} {m : M}
    (hb : Built eqK mt es I m) {s : StdMap K V} (hs : s.entries.Perm (hashCollect eqK es)) :
    (∀ q, (StdMap.impl mt).get s q = I.get m q) ∧
    (∀ q, (StdMap.impl mt).containsKey s q = I.containsKey m q) ∧
    (StdMap.impl (V := V) mt).len s = I.len m ∧
    ∀ q, I.getKeyValue m q = .ok (lastMatch mt es q) ∧
      (StdMap.impl mt).getKeyValue s q =
        .ok ((firstMatch mt es q).bind (fun f => (lastMatch mt es q).map (fun l => (f.1, l.2)))) := by
  obtain ⟨Inv, F⟩ := hb.facts
  have hd := hashCollect_distinct F.eq es
  have hd' : Distinct (entryEq eqK) s.entries := Distinct.perm F.eq.entry hs.symm hd
  have hf : ∀ q, s.entries.find? (fun e => mt q e.1) =
      (firstMatch mt es q).bind (fun f => (lastMatch mt es q).map (fun l => (f.1, l.2))) := by
    intro q
    rw [← lastMatch_of_distinct F.query hd', lastMatch_perm F.query hs hd, lastMatch_of_distinct F.query hd,
      hashCollect_find F.eq F.query]
    have h := firstMatch_isSome mt es q
    cases h1 : firstMatch mt es q <;> cases h2 : lastMatch mt es q <;> simp [h1, h2] at h ⊢
  have hl : ∀ q, lastMatch mt es q = (I.entries m).find? (fun e => mt q e.1) :=
    fun q => (find?_of_perm_survivors F.query F.perm q).symm
  refine ⟨fun q => ?_, fun q => ?_, ?_, fun q => ⟨?_, ?_⟩⟩
  · rw [F.lawful.get m F.inv, ← hl]
    show Except.ok ((s.entries.find? (fun e => mt q e.1)).map (fun e => e.2)) = _
    rw [hf]
    have h := firstMatch_isSome mt es q
    cases h1 : firstMatch mt es q <;> cases h2 : lastMatch mt es q <;> simp [h1, h2] at h ⊢
  · rw [F.lawful.containsKey m F.inv, ← hl]
    show Except.ok (s.entries.find? (fun e => mt q e.1)).isSome = _
    rw [hf]
    have h := firstMatch_isSome mt es q
    cases h1 : firstMatch mt es q <;> cases h2 : lastMatch mt es q <;> simp [h1, h2] at h ⊢
  · have hrep : Representatives eqK es (s.entries.map (fun e => e.1)) := by
      refine ⟨List.pairwise_map.2 hd', fun e he => ?_, fun k hk => ?_⟩
      · have hne : lastMatch eqK es e.1 ≠ none := by
          rw [Ne, lastMatch_eq_none_iff]
          intro h
          have := h e he
          rw [F.eq.refl] at this; cases this
        have h2 := hashCollect_find F.eq F.eq.query es e.1
        obtain ⟨l, hl'⟩ := Option.ne_none_iff_exists'.1 hne
        rw [hl'] at h2
        have h3 := List.find?_some h2
        have h4 := List.mem_of_find?_eq_some h2
        exact ⟨_, List.mem_map_of_mem (hs.mem_iff.2 h4), h3⟩
      · obtain ⟨x, hx, rfl⟩ := List.mem_map.1 hk
        have h2 := hashCollect_find F.eq F.eq.query es x.1
        cases h3 : lastMatch eqK es x.1 with
        | some l =>
          obtain ⟨h4, h5⟩ := lastMatch_mem h3
          exact ⟨l, h4, F.eq.symm _ _ h5⟩
        | none =>
          rw [h3, Option.map_none, List.find?_eq_none] at h2
          exact absurd (F.eq.refl x.1) (h2 x (hs.mem_iff.1 hx))
    have := (c05_len hb).1 _ hrep
    rw [this, List.length_map]
    rfl
  · rw [F.lawful.getKeyValue m F.inv, ← hl]
  · show Except.ok (s.entries.find? (fun e => mt q e.1)) = _
    rw [hf]

/-- **C60** (refuted for the keys shown) Keys 3 and 13 are equal for the key type (equality modulo 10) but can be told apart.  Of the
two, a standard hash map collected from the entries keeps the first, a frozen map the last. -/
theorem c60_collected_keys_violated [Target] :
    Built mod10Eq mod10Eq [(3, 'a'), (13, 'b')] (ScanMap.impl mod10Eq) (ScanMap.new mod10Eq [(3, 'a'), (13, 'b')]) ∧
    (StdMap.impl mod10Eq).getKeyValue ⟨hashCollect mod10Eq [(3, 'a'), (13, 'b')]⟩ 3 = .ok (some (3, 'b')) ∧
    (ScanMap.impl mod10Eq).getKeyValue (ScanMap.new mod10Eq [(3, 'a'), (13, 'b')]) 3 = .ok (some (13, 'b')) :=
  ⟨.scan mod10Eq_lawful mod10Eq_query, by decide, by decide⟩

/-- **C60** (collecting into a `BTreeMap`) A `BTreeMap` collected from the same entries has exactly the entries of the frozen map. -/
theorem c60_collected_btree [Target] {cmp : K → K → Ordering} (hcmp : LawfulCmp cmp) {mt : Q → K → Bool} {es : List (K × V)}
    {I : MapImpl M Q K V} {m : M} (hb : Built (fun a b => cmp a b == .eq) mt es I m) :
    (btreeCollect cmp es).Perm (I.entries m) ∧
    ∀ q, (StdMap.impl mt).getKeyValue ⟨btreeCollect cmp es⟩ q = I.getKeyValue m q := by
  obtain ⟨Inv, F⟩ := hb.facts
  have hp := btreeCollect_perm hcmp es
  refine ⟨hp.trans F.perm.symm, fun q => ?_⟩
  rw [F.lawful.getKeyValue m F.inv, find?_of_perm_survivors F.query F.perm]
  show Except.ok ((btreeCollect cmp es).find? (fun e => mt q e.1)) = _
  rw [find?_of_perm_survivors F.query hp]

example : btreeCollect natCmp [(7, 'x'), (3, 'a'), (7, 'y'), (1, 'q'), (3, 'b')] = [(1, 'q'), (3, 'b'), (7, 'y')] := by
  cbv

/-- **C60** (sets) A standard set is a set in the sense of the set operations, so that all that is proved about them (C26–C31) also
holds when one or both of the operands are standard sets. -/
theorem c60_sets {eqT : T → T → Bool} (he : LawfulEq' eqT) {xs : List T} (hd : Distinct eqT xs) :
    IsSet eqT (fun x => ∃ y ∈ xs, eqT x y = true) ((stdSetImpl eqT).view xs) where
  contains x := ⟨_, rfl, by simp⟩
  sound x hx := ⟨x, hx, he.refl x⟩
  complete x h := h
  distinct := hd
  len := rfl
  congr x y hxy := by
    rintro ⟨z, hz, h⟩
    exact ⟨z, hz, he.trans y x z (he.symm _ _ hxy) h⟩

attribute [local instance] w64 in
/-- The union of a frozen set with a standard set. -/
example {I : SetImpl M Nat Nat} {m : M} (h : BuiltSet natEq natEq [1, 2, 3] I m) :
    Produces natEq Union.next (Union.new (I.view m) ((stdSetImpl natEq).view [7, 2]))
      (fun x => (∃ y ∈ [1, 2, 3], natEq x y = true) ∨ ∃ y ∈ [7, 2], natEq x y = true)
      ((I.view m).items ++ [7, 2]) :=
  c26_union natEq_lawful (c32_is_set h (fun _ _ => rfl)) (c60_sets natEq_lawful (by unfold Distinct; decide))

/-- **C60** (sets, queries) A standard set and a frozen set with the same elements answer every query alike: `contains`, `get` and `len`; and they iterate over
the same elements. -/
theorem c60_same_sets [Target] {eqT : T → T → Bool} {mt : Q → T → Bool} {xs : List T} {I : SetImpl M Q T} {m : M} (hb : BuiltSet eqT mt xs I m)
    {s : List T} (hmem : ∀ x, x ∈ s ↔ lastOf eqT xs x = some x) (hd : Distinct eqT s) :
    (∀ q, (stdSetImpl mt).contains s q = I.contains m q) ∧ (∀ q, (stdSetImpl mt).get s q = I.get m q) ∧
    (stdSetImpl mt).len s = I.len m ∧ ((stdSetImpl mt).items s).Perm (I.items m) := by
  obtain ⟨he, hq, hc⟩ := hb.spec
  have nodup : ∀ {l : List T}, Distinct eqT l → l.Nodup := by
    intro l h
    refine List.Pairwise.imp ?_ h
    rintro a b h rfl
    rw [he.refl] at h; cases h
  have hp : s.Perm (I.items m) := by
    refine (List.perm_ext_iff_of_nodup (nodup hd) (nodup hc.distinct)).2 fun x => ?_
    rw [hmem, hc.mem]
  have same : ∀ {q x}, mt q x = true → mt q = eqT x := by
    intro q x h
    funext y
    rw [Bool.eq_iff_iff]
    exact hq.congr q x y h
  have last : ∀ {q x}, mt q x = true → lastOf mt xs q = lastOf eqT xs x := by
    intro q x h
    unfold lastOf
    rw [same h]
  have hget : ∀ q, s.find? (mt q) = lastOf mt xs q := by
    intro q
    cases h1 : s.find? (mt q) with
    | some y =>
      have hy := List.find?_some h1
      rw [last hy, (hmem y).1 (List.mem_of_find?_eq_some h1)]
    | none =>
      cases h2 : lastOf mt xs q with
      | none => rfl
      | some x =>
        have hx := (lastOf_some h2).2
        have : x ∈ s := (hmem x).2 (by rw [← last hx, h2])
        exact absurd hx (List.find?_eq_none.1 h1 x this)
  refine ⟨fun q => ?_, fun q => ?_, ?_, hp⟩
  · rw [hc.contains, ← lastOf_isSome, ← hget]
    show Except.ok (s.any (mt q)) = _
    congr 1
    rw [Bool.eq_iff_iff, List.find?_isSome, List.any_eq_true]
  · rw [hc.get, ← hget]
    rfl
  · rw [hc.len]
    exact hp.length_eq

theorem hashSetCollect_facts {eqT : T → T → Bool} (he : LawfulEq' eqT) {mt : Q → T → Bool} (hq : LawfulQuery eqT mt) (xs : List T) :
    Distinct eqT (hashSetCollect eqT xs) ∧ (∀ x ∈ hashSetCollect eqT xs, x ∈ xs) ∧
    ∀ q, (hashSetCollect eqT xs).find? (mt q) = xs.find? (mt q) := by
  induction xs using List.reverseRecOn with
  | nil => exact ⟨List.Pairwise.nil, fun x h => h, fun q => rfl⟩
  | append_singleton xs x ih =>
    obtain ⟨h1, h2, h3⟩ := ih
    have e : hashSetCollect eqT (xs ++ [x]) = hashSetInsert eqT (hashSetCollect eqT xs) x := by
      simp [hashSetCollect, List.foldl_append]
    rw [e]
    unfold hashSetInsert
    split
    · rename_i hany
      refine ⟨h1, fun y hy => List.mem_append_left _ (h2 y hy), fun q => ?_⟩
      rw [List.find?_append, h3]
      cases hf : xs.find? (mt q) with
      | some y => rfl
      | none =>
        obtain ⟨y, hy, hxy⟩ := List.any_eq_true.1 hany
        have hny := List.find?_eq_none.1 hf y (h2 y hy)
        have : mt q x = false := by
          by_contra hc
          exact hny ((hq.congr q x y (by simpa using hc)).2 hxy)
        simp [this]
    · rename_i hany
      refine ⟨?_, ?_, fun q => by rw [List.find?_append, List.find?_append, h3]⟩
      · unfold Distinct
        rw [List.pairwise_append]
        refine ⟨h1, by simp, fun a ha b hb => ?_⟩
        obtain rfl : b = x := by simpa using hb
        by_contra hc
        exact hany (List.any_eq_true.2 ⟨a, ha, he.symm _ _ (by simpa using hc)⟩)
      · intro y hy
        rcases List.mem_append.1 hy with hy | hy
        · exact List.mem_append_left _ (h2 y hy)
        · exact List.mem_append_right _ hy

/-- **C60** (collecting into a hash set) The same answers from `contains` and `len` as the frozen set collected from the same elements. `get`, which shows the
element itself, gives the first of equal elements and the frozen set the last. -/
theorem c60_collected_hash_set [Target] {eqT : T → T → Bool} {mt : Q → T → Bool} {xs : List T} {I : SetImpl M Q T} {m : M} (hb : BuiltSet eqT mt xs I m)
    {s : List T} (hs : s.Perm (hashSetCollect eqT xs)) :
    (∀ q, (stdSetImpl mt).contains s q = I.contains m q) ∧ (stdSetImpl mt).len s = I.len m ∧
    ∀ q, (stdSetImpl mt).get s q = .ok (xs.find? (mt q)) ∧ I.get m q = .ok (xs.reverse.find? (mt q)) := by
  obtain ⟨he, hq, hc⟩ := hb.spec
  obtain ⟨h1, h2, h3⟩ := hashSetCollect_facts he hq xs
  have hd : Distinct eqT s := Distinct.perm he hs.symm h1
  have hget : ∀ q, s.find? (mt q) = xs.find? (mt q) := by
    intro q
    rw [← h3]
    cases hf : (hashSetCollect eqT xs).find? (mt q) with
    | none =>
      rw [List.find?_eq_none] at hf ⊢
      exact fun x hx => hf x (hs.mem_iff.1 hx)
    | some y =>
      have hy := List.find?_some hf
      have hym := hs.mem_iff.2 (List.mem_of_find?_eq_some hf)
      cases hg : s.find? (mt q) with
      | none => exact absurd hy (List.find?_eq_none.1 hg y hym)
      | some z =>
        have hz := List.find?_some hg
        have hzm := List.mem_of_find?_eq_some hg
        by_cases hyz : z = y
        · rw [hyz]
        · have e1 := (hq.congr q z y hz).1 hy
          have : eqT z y = false ∨ eqT y z = false := by
            rcases List.getElem_of_mem hzm with ⟨i, hi, rfl⟩
            rcases List.getElem_of_mem hym with ⟨j, hj, rfl⟩
            rcases Nat.lt_trichotomy i j with h | h | h
            · exact Or.inl (List.pairwise_iff_getElem.1 hd i j hi hj h)
            · subst h; exact absurd rfl hyz
            · exact Or.inr (List.pairwise_iff_getElem.1 hd j i hj hi h)
          rcases this with h | h
          · rw [h] at e1; cases e1
          · rw [he.symm _ _ e1] at h; cases h
  refine ⟨fun q => ?_, ?_, fun q => ⟨?_, hc.get q⟩⟩
  · rw [hc.contains]
    show Except.ok (s.any (mt q)) = _
    congr 1
    have a1 : ∀ l : List T, l.any (mt q) = (l.find? (mt q)).isSome := fun l => by
      rw [Bool.eq_iff_iff, List.find?_isSome, List.any_eq_true]
    rw [a1, a1, hget]
  · refine (c32_len hb hd (fun x hx => ?_) (fun y hy => ?_)).symm
    · have hf := (hashSetCollect_facts he he.query xs).2.2 x
      cases hx' : xs.find? (eqT x) with
      | none => exact absurd (he.refl x) (List.find?_eq_none.1 hx' x hx)
      | some y =>
        rw [hx'] at hf
        exact ⟨y, hs.mem_iff.2 (List.mem_of_find?_eq_some hf), List.find?_some hf⟩
    · exact ⟨y, h2 y (hs.mem_iff.1 hy), he.refl y⟩
  · show Except.ok (s.find? (mt q)) = _
    rw [hget]

/-- **C60** (collecting into a `BTreeSet`) A `BTreeSet` collected from the same elements has exactly the elements of the frozen set, and answers alike. -/
theorem c60_collected_btree_set [Target] {cmp : T → T → Ordering} (hcmp : LawfulCmp cmp) {mt : Q → T → Bool} {xs : List T} {I : SetImpl M Q T} {m : M}
    (hb : BuiltSet (fun a b => cmp a b == .eq) mt xs I m) :
    (∀ q, (stdSetImpl mt).contains (btreeSetCollect cmp xs) q = I.contains m q) ∧
    (∀ q, (stdSetImpl mt).get (btreeSetCollect cmp xs) q = I.get m q) ∧
    (stdSetImpl mt).len (btreeSetCollect cmp xs) = I.len m ∧ (btreeSetCollect cmp xs).Perm (I.items m) := by
  have hsc := (c32_set_contents (BuiltSet.ofMap (Built.scan (es := unitEntries xs) hb.spec.1 hb.spec.1.query)))
  have hp : (btreeSetCollect cmp xs).Perm ((unitEntries xs |> survivors (fun a b => cmp a b == .eq)).map (fun e => e.1)) :=
    (btreeCollect_perm hcmp (unitEntries xs)).map _
  have hp2 : ((inlineSetImpl (ScanMap.impl (fun a b => cmp a b == .eq))).items (ScanMap.new (fun a b => cmp a b == .eq) (unitEntries xs))).Perm
      ((unitEntries xs |> survivors (fun a b => cmp a b == .eq)).map (fun e => e.1)) := by
    obtain ⟨Inv, F⟩ := (Built.scan (es := unitEntries xs) hb.spec.1 hb.spec.1.query).facts
    exact F.perm.map _
  have hp3 := hp.trans hp2.symm
  refine c60_same_sets hb (fun x => ?_) ?_
  · rw [hp3.mem_iff]
    exact hsc.mem x
  · exact Distinct.perm hb.spec.1 hp3.symm hsc.distinct

/-- **C60** (refuted for the elements shown) As for maps: of 3 and 13, equal modulo 10, a standard hash set keeps the first, a frozen set the last. -/
theorem c60_collected_elements_violated [Target] :
    BuiltSet mod10Eq mod10Eq [3, 13] (inlineSetImpl (ScanMap.impl mod10Eq)) (ScanMap.new mod10Eq (unitEntries [3, 13])) ∧
    (stdSetImpl mod10Eq).get (hashSetCollect mod10Eq [3, 13]) 3 = .ok (some 3) ∧
    (inlineSetImpl (ScanMap.impl mod10Eq)).get (ScanMap.new mod10Eq (unitEntries [3, 13])) 3 = .ok (some 13) :=
  ⟨.ofMap (.scan mod10Eq_lawful mod10Eq_query), by decide, by decide⟩

/-- Collected sets. -/
example : hashSetCollect natEq [7, 3, 7, 1] = [7, 3, 1] ∧ btreeSetCollect natCmp [7, 3, 7, 1] = [1, 3, 7] := by
  constructor <;> cbv

attribute [local instance] w64 in
/-- A standard set with the elements 2 and 1 against a frozen one made from 1, 2, 1. -/
example : (∀ q, (stdSetImpl natEq).get [2, 1] q =
    (inlineSetImpl (ScanMap.impl natEq)).get (ScanMap.new natEq (unitEntries [1, 2, 1])) q) :=
  (c60_same_sets (BuiltSet.ofMap (.scan natEq_lawful (LawfulEq'.query natEq_lawful))) (fun x => by
    unfold lastOf natEq
    simp only [List.reverse_cons, List.reverse_nil, List.nil_append, List.cons_append, List.find?_cons, List.find?_nil, List.mem_cons,
      List.not_mem_nil, or_false]
    by_cases h1 : x = 1
    · subst h1; simp
    · by_cases h2 : x = 2
      · subst h2; simp
      · have e1 : (x == 1) = false := by simpa using h1
        have e2 : (x == 2) = false := by simpa using h2
        simp [h1, h2, e1, e2]) (by unfold Distinct; decide)).2.1

end Frozen.Props
