import Verif.Lemmas.History
import Verif.Lemmas.Built
import Verif.Model.StdImpls
import Verif.Props.StdSpec

/-! # Lemmas: the standard collections behind the map traits -/

namespace Frozen.Model

open Frozen Frozen.Spec Frozen.Props

variable {M Q K V T : Type}

theorem StdMap.lawful (eqK : K → K → Bool) (mt : Q → K → Bool) (he : LawfulEq' eqK) :
    LawfulMap (StdMap.impl (V := V) mt) eqK mt (fun s => Distinct (entryEq eqK) s.entries) where
  get _ _ _ := rfl
  getMut _ _ _ := rfl
  getKeyValue _ _ _ := rfl
  containsKey _ _ _ := rfl
  len _ _ := rfl
  distinct _ h := h
  write_entries _ _ _ _ := rfl
  write_inv s h i v := by
    show Distinct (entryEq eqK) (writeAt s.entries i v)
    have hk : (writeAt s.entries i v).map Prod.fst = s.entries.map Prod.fst := by
      unfold writeAt
      apply List.ext_getElem?
      intro n
      simp only [List.getElem?_map, List.getElem?_modify]
      split <;> cases s.entries[n]? <;> simp
    have : Distinct eqK (s.entries.map Prod.fst) := List.pairwise_map.2 h
    rw [← hk] at this
    exact List.pairwise_map.1 this

theorem samePosition_iff (ps : List (Option Nat)) : samePosition ps = false ↔ (ps.filterMap id).Nodup := by
  induction ps with
  | nil => simp [samePosition]
  | cons p ps ih =>
    cases p with
    | none => simpa [samePosition] using ih
    | some i => simp [samePosition, ih]

theorem sameOut_of_eq {o o' : Out K V} (h : o = o') : SameOut o o' := h ▸ .same o

/-- Dictionaries that list the same entries in a different order behave alike. -/
theorem dictUpdates_perm (mt : Q → K → Bool) (f : Nat → V → V) (qs : List Q) :
    ∀ (n : Nat) {d d' : List (K × V)}, d.Perm d' → (dictUpdates mt f n qs d).Perm (dictUpdates mt f n qs d') := by
  induction qs with
  | nil => intro n d d' h; exact h
  | cons q qs ih => intro n d d' h; exact ih (n + 1) (h.map _)

theorem lastMatch_perm {eqK : K → K → Bool} {mt : Q → K → Bool} (hq : LawfulQuery eqK mt) {d d' : List (K × V)}
    (hp : d.Perm d') (hd : Distinct (entryEq eqK) d') (q : Q) : lastMatch mt d q = lastMatch mt d' q := by
  refine lastMatch_of_perm_survivors hq ?_ q
  unfold survivors
  rw [keepLast_of_distinct hd]
  exact hp

theorem mapIdx_const {A B : Type} (f : Nat → A → B) (h : ∀ i j a, f i a = f j a) (l : List A) :
    l.mapIdx f = l.map (f 0) := by
  apply List.ext_getElem?
  intro n
  simp only [List.getElem?_mapIdx, List.getElem?_map]
  cases l[n]? with
  | none => rfl
  | some a => simp [h n 0 a]

theorem dictStep_perm {eqK : K → K → Bool} {mt : Q → K → Bool} (hq : LawfulQuery eqK mt) (eqQ : Q → Q → Bool)
    {d d' : List (K × V)} (hp : d.Perm d') (hd : Distinct (entryEq eqK) d') {op : Op Q K V} (ho : OrderFree op) :
    SameOut (dictStep eqQ mt d op).1 (dictStep eqQ mt d' op).1 ∧
      (dictStep eqQ mt d op).2.Perm (dictStep eqQ mt d' op).2 := by
  have hl := lastMatch_perm hq hp hd
  cases op with
  | get q => simp only [dictStep, hl]; exact ⟨.same _, hp⟩
  | getKeyValue q => simp only [dictStep, hl]; exact ⟨.same _, hp⟩
  | containsKey q => simp only [dictStep, hl]; exact ⟨.same _, hp⟩
  | index q =>
    simp only [dictStep, hl]
    cases lastMatch mt d' q with
    | none => exact ⟨.same _, hp⟩
    | some e => exact ⟨.same _, hp⟩
  | len => simp only [dictStep, hp.length_eq]; exact ⟨.same _, hp⟩
  | iterate => exact ⟨.entries hp, hp⟩
  | update q f => simp only [dictStep, hl]; exact ⟨.same _, hp.map _⟩
  | iterMut f =>
    refine ⟨.same _, ?_⟩
    simp only [dictStep]
    rw [mapIdx_const _ (fun i j a => by rw [ho i j]), mapIdx_const _ (fun i j a => by rw [ho i j])]
    exact hp.map _
  | valuesMut f =>
    refine ⟨.same _, ?_⟩
    simp only [dictStep]
    rw [mapIdx_const _ (fun i j a => by rw [ho i j]), mapIdx_const _ (fun i j a => by rw [ho i j])]
    exact hp.map _
  | disjointMut qs f =>
    simp only [dictStep, hl]
    split
    · exact ⟨.same _, hp⟩
    · exact ⟨.same _, dictUpdates_perm mt f qs 0 hp⟩

theorem distinct_of_keys {eqK : K → K → Bool} {d d' : List (K × V)} (h : d.map Prod.fst = d'.map Prod.fst)
    (hd : Distinct (entryEq eqK) d) : Distinct (entryEq eqK) d' := by
  have : Distinct eqK (d.map Prod.fst) := List.pairwise_map.2 hd
  rw [h] at this
  exact List.pairwise_map.1 this

theorem dictRun_perm {eqK : K → K → Bool} {mt : Q → K → Bool} (hq : LawfulQuery eqK mt) (eqQ : Q → Q → Bool)
    (ops : List (Op Q K V)) (ho : ∀ op ∈ ops, OrderFree op) : ∀ {d d' : List (K × V)}, d.Perm d' →
    Distinct (entryEq eqK) d' →
    List.Forall₂ SameOut (dictRun eqQ mt d ops).1 (dictRun eqQ mt d' ops).1 ∧
      (dictRun eqQ mt d ops).2.Perm (dictRun eqQ mt d' ops).2 := by
  induction ops with
  | nil => intro d d' hp _; exact ⟨.nil, hp⟩
  | cons op ops ih =>
    intro d d' hp hd
    obtain ⟨h1, h2⟩ := dictStep_perm hq eqQ hp hd (ho op (List.mem_cons_self ..))
    obtain ⟨h3, h4⟩ := ih (fun o h => ho o (List.mem_cons_of_mem _ h)) h2
      (distinct_of_keys (dictStep_keys eqQ mt d' op).symm hd)
    exact ⟨.cons h1 h3, h4⟩

/-- The positions that two queries of a list find. -/
theorem samePosition_of_present {eqQ : Q → Q → Bool} {mt : Q → K → Bool} (hr : EqRespected eqQ mt)
    (hsym : ∀ a b, eqQ a b = true → eqQ b a = true)
    {d : List (K × V)} {qs : List Q} {i j : Nat} {q q' : Q} (hij : i < j) (hi : qs[i]? = some q) (hj : qs[j]? = some q')
    (he : eqQ q q' = true) (hk : ∃ k ∈ d.map Prod.fst, mt q k = true) :
    samePosition (qs.map (fun q => d.findIdx? (fun e => mt q e.1))) = true := by
  by_contra hc
  have hn := (samePosition_iff _).1 (by simpa using hc)
  have hfun : (fun e : K × V => mt q e.1) = fun e => mt q' e.1 := by
    funext e
    cases h1 : mt q e.1 with
    | true => rw [hr q q' e.1 he h1]
    | false =>
      cases h2 : mt q' e.1 with
      | false => rfl
      | true => rw [hr q' q e.1 (hsym _ _ he) h2] at h1; cases h1
  obtain ⟨k, hk, hm⟩ := hk
  obtain ⟨e, he', rfl⟩ := List.mem_map.1 hk
  cases hp : d.findIdx? (fun e => mt q e.1) with
  | none => rw [List.findIdx?_eq_none_iff] at hp; rw [hp e he'] at hm; cases hm
  | some p =>
    have h1 : (qs.map (fun q => d.findIdx? (fun e => mt q e.1)))[i]? = some (some p) := by
      rw [List.getElem?_map, hi]; simp [hp]
    have h2 : (qs.map (fun q => d.findIdx? (fun e => mt q e.1)))[j]? = some (some p) := by
      rw [List.getElem?_map, hj, ← hp, hfun]; rfl
    generalize qs.map (fun q => d.findIdx? (fun e => mt q e.1)) = ps at *
    obtain ⟨hli, e1⟩ := List.getElem?_eq_some_iff.1 h1
    obtain ⟨hlj, e2⟩ := List.getElem?_eq_some_iff.1 h2
    have hps : ps.Pairwise (fun a b => ∀ x, a = some x → b = some x → False) := by
      rw [List.Nodup, List.pairwise_filterMap] at hn
      refine hn.imp ?_
      intro a b h x ha hb
      exact h x (by simp [ha]) x (by simp [hb]) rfl
    exact List.pairwise_iff_getElem.1 hps i j hli hlj hij p e1 e2

/-- A step on a standard map is a step on its dictionary. -/
theorem StdMap.step_sim {eqK : K → K → Bool} {mt : Q → K → Bool} (he : LawfulEq' eqK) (hq : LawfulQuery eqK mt)
    (kind : StdKind) {eqQ : Q → Q → Bool} (hsym : ∀ a b, eqQ a b = true → eqQ b a = true) (hc : EqCompatible eqQ mt)
    (hr : EqRespected eqQ mt) {s : StdMap K V} (hs : Distinct (entryEq eqK) s.entries) {op : Op Q K V}
    (hd : kind = .hash → DuplicatesPresent eqQ mt (s.entries.map Prod.fst) op) :
    (s.step kind mt eqQ op).1 = (dictStep eqQ mt s.entries op).1 ∧
    (s.step kind mt eqQ op).2.entries = (dictStep eqQ mt s.entries op).2 := by
  have base := Frozen.Model.step_sim hq (StdMap.lawful (V := V) eqK mt he) (eqQ := eqQ) hc hs op
  cases op with
  | disjointMut qs f =>
    cases kind with
    | btree => exact ⟨base.1, base.2.1⟩
    | hash =>
      have hd := hd rfl
      have L := StdMap.lawful (V := V) eqK mt he
      simp only [StdMap.step, StdMap.getDisjointMut, StdMap.getManyMut, dictStep]
      by_cases hsm : Distinct eqQ qs
      · have hnd := positions_nodup hc s.entries hsm
        rw [(samePosition_iff _).2 hnd, (someEqual_iff eqQ qs).2 hsm]
        simp only [Bool.false_eq_true, if_false, if_pos hnd]
        obtain ⟨h1, _⟩ := storeAll_spec hq L f qs 0 _ s hs rfl
        refine ⟨?_, h1⟩
        congr 1
        rw [List.map_map]
        refine List.map_congr_left fun q _ => ?_
        simp only [Function.comp]
        rw [lastMatch_of_distinct hq hs]
        cases hi : s.entries.findIdx? (fun e => mt q e.1) with
        | none =>
          have : s.entries.find? (fun e => mt q e.1) = none := by
            rw [List.find?_eq_none]
            rw [List.findIdx?_eq_none_iff] at hi
            intro e he; rw [hi e he]; simp
          rw [this]; rfl
        | some i =>
          show (s.entries[i]?).map (fun e => e.2) = _
          rw [findIdx_find hi]
      · obtain ⟨i, j, q, q', hij, hi, hj, heq, hk⟩ := hd hsm
        rw [samePosition_of_present hr hsym hij hi hj heq hk]
        have : someEqual eqQ qs = true := by
          by_contra hn
          exact hsm ((someEqual_iff eqQ qs).1 (by simpa using hn))
        rw [this]
        exact ⟨rfl, rfl⟩
  | _ => exact ⟨base.1, base.2.1⟩

theorem StdMap.run_sim {eqK : K → K → Bool} {mt : Q → K → Bool} (he : LawfulEq' eqK) (hq : LawfulQuery eqK mt)
    (kind : StdKind) {eqQ : Q → Q → Bool} (hsym : ∀ a b, eqQ a b = true → eqQ b a = true) (hc : EqCompatible eqQ mt)
    (hr : EqRespected eqQ mt) (ops : List (Op Q K V)) : ∀ {s : StdMap K V}, Distinct (entryEq eqK) s.entries →
    (kind = .hash → ∀ op ∈ ops, DuplicatesPresent eqQ mt (s.entries.map Prod.fst) op) →
    (s.run kind mt eqQ ops).1 = (dictRun eqQ mt s.entries ops).1 ∧
    (s.run kind mt eqQ ops).2.entries = (dictRun eqQ mt s.entries ops).2 := by
  induction ops with
  | nil => intro s _ _; exact ⟨rfl, rfl⟩
  | cons op ops ih =>
    intro s hs hd
    obtain ⟨h1, h2⟩ := StdMap.step_sim he hq kind hsym hc hr hs (fun h => hd h op (List.mem_cons_self ..))
    have hk := dictStep_keys eqQ mt s.entries op
    rw [← h2] at hk
    obtain ⟨h3, h4⟩ := ih (s := (s.step kind mt eqQ op).2) (distinct_of_keys hk.symm hs)
      (fun h o ho => by rw [hk]; exact hd h o (List.mem_cons_of_mem _ ho))
    rw [h2] at h3 h4
    simp only [StdMap.run, dictRun]
    exact ⟨by rw [h1, h3], h4⟩

/-! ## Collecting entries with repeated keys -/

theorem hashInsert_distinct {eqK : K → K → Bool} (he : LawfulEq' eqK) {es : List (K × V)}
    (hd : Distinct (entryEq eqK) es) (e : K × V) : Distinct (entryEq eqK) (hashInsert eqK es e) := by
  unfold hashInsert
  split
  · refine distinct_of_keys ?_ hd
    rw [List.map_map]
    refine List.map_congr_left fun x _ => ?_
    simp only [Function.comp]
    split <;> rfl
  · rename_i h
    simp only [List.any_eq_true, not_exists, not_and, Bool.not_eq_true] at h
    refine List.pairwise_append.2 ⟨hd, List.pairwise_singleton .., ?_⟩
    intro a ha b hb
    rw [List.mem_singleton] at hb
    subst hb
    show eqK a.1 b.1 = false
    cases h' : eqK a.1 b.1 with
    | false => rfl
    | true =>
      have h2 := h a ha
      rw [he.symm _ _ h'] at h2
      cases h2

theorem hashInsert_find {eqK : K → K → Bool} {mt : Q → K → Bool} (he : LawfulEq' eqK) (hq : LawfulQuery eqK mt)
    {es : List (K × V)} (e : K × V) (q : Q) :
    (hashInsert eqK es e).find? (fun x => mt q x.1) =
      if mt q e.1 then some (((es.find? (fun x => mt q x.1)).map (fun x => x.1)).getD e.1, e.2)
      else es.find? (fun x => mt q x.1) := by
  have hiff : ∀ x : K × V, mt q e.1 = true → mt q x.1 = eqK e.1 x.1 := by
    intro x h
    cases h1 : eqK e.1 x.1 with
    | true => exact (hq.congr q e.1 x.1 h).2 h1
    | false =>
      cases h2 : mt q x.1 with
      | false => rfl
      | true => rw [(hq.congr q e.1 x.1 h).1 h2] at h1; cases h1
  unfold hashInsert
  by_cases hm : mt q e.1 = true
  · rw [if_pos hm]
    split
    · rename_i h
      clear he hq
      induction es with
      | nil => simp at h
      | cons x xs ih =>
        cases hx : eqK e.1 x.1 with
        | true =>
          simp only [List.map_cons, hx, if_true, List.find?_cons, hiff x hm, Option.map_some, Option.getD_some]
        | false =>
          have h' : xs.any (fun x => eqK e.1 x.1) = true := by simpa [hx] using h
          have hmx : mt q x.1 = false := by rw [hiff x hm, hx]
          simp only [List.map_cons, hx, Bool.false_eq_true, if_false, List.find?_cons, hmx]
          exact ih h'
    · rename_i h
      have hn : es.find? (fun x => mt q x.1) = none := by
        rw [List.find?_eq_none]
        intro x hx
        rw [hiff x hm]
        simp only [List.any_eq_true, not_exists, not_and, Bool.not_eq_true] at h
        simp [h x hx]
      rw [List.find?_append, hn]
      simp [hm]
  · rw [if_neg hm]
    split
    · rename_i h
      clear hiff h
      induction es with
      | nil => rfl
      | cons x xs ih =>
        cases hx : eqK e.1 x.1 with
        | true =>
          have hmx : mt q x.1 = false := by
            cases h2 : mt q x.1 with
            | false => rfl
            | true =>
              exact absurd ((hq.congr q x.1 e.1 h2).2 (he.symm _ _ hx)) hm
          simp only [List.map_cons, hx, if_true, List.find?_cons, hmx]
          exact ih
        | false =>
          simp only [List.map_cons, hx, Bool.false_eq_true, if_false, List.find?_cons]
          rw [ih]
    · rw [List.find?_append]
      simp [hm]

theorem hashCollect_append (eqK : K → K → Bool) (es : List (K × V)) (e : K × V) :
    hashCollect eqK (es ++ [e]) = hashInsert eqK (hashCollect eqK es) e := by
  unfold hashCollect; rw [List.foldl_append]; rfl

theorem hashCollect_distinct {eqK : K → K → Bool} (he : LawfulEq' eqK) (es : List (K × V)) :
    Distinct (entryEq eqK) (hashCollect eqK es) := by
  induction es using List.reverseRecOn with
  | nil => exact List.Pairwise.nil
  | append_singleton es e ih => rw [hashCollect_append]; exact hashInsert_distinct he ih e

theorem lastMatch_append (mt : Q → K → Bool) (es : List (K × V)) (e : K × V) (q : Q) :
    lastMatch mt (es ++ [e]) q = if mt q e.1 then some e else lastMatch mt es q := by
  unfold lastMatch; rw [List.foldl_append]; rfl

theorem firstMatch_append (mt : Q → K → Bool) (es : List (K × V)) (e : K × V) (q : Q) :
    firstMatch mt (es ++ [e]) q = (firstMatch mt es q).or (if mt q e.1 then some e else none) := by
  unfold firstMatch
  rw [List.find?_append]
  cases h : mt q e.1 <;> simp [h]

theorem firstMatch_isSome (mt : Q → K → Bool) (es : List (K × V)) (q : Q) :
    (firstMatch mt es q).isSome = (lastMatch mt es q).isSome := by
  induction es using List.reverseRecOn with
  | nil => rfl
  | append_singleton es e ih =>
    rw [firstMatch_append, lastMatch_append]
    cases h : mt q e.1 with
    | true => simp
    | false => simpa using ih

/-- A collected hash map answers with the first of the matching keys and the last of their values. -/
theorem hashCollect_find {eqK : K → K → Bool} {mt : Q → K → Bool} (he : LawfulEq' eqK) (hq : LawfulQuery eqK mt)
    (es : List (K × V)) (q : Q) :
    (hashCollect eqK es).find? (fun x => mt q x.1) =
      (lastMatch mt es q).map (fun l => (((firstMatch mt es q).map (fun f => f.1)).getD l.1, l.2)) := by
  induction es using List.reverseRecOn with
  | nil => rfl
  | append_singleton es e ih =>
    rw [hashCollect_append, hashInsert_find he hq, ih, lastMatch_append, firstMatch_append]
    cases h : mt q e.1 with
    | true =>
      have hs := firstMatch_isSome mt es q
      cases h1 : firstMatch mt es q <;> cases h2 : lastMatch mt es q <;> simp [h1, h2] at hs ⊢
    | false => simp

theorem dedupSorted_eq {cmp : K → K → Ordering} (hc : LawfulCmp cmp) : ∀ {L : List (K × V)},
    L.Pairwise (fun x y => leOf (fun (a b : K × V) => cmp a.1 b.1) x y = true) →
    dedupSorted cmp L = keepLast (fun x y => cmp x.1 y.1 == .eq) L
  | [], _ => rfl
  | [x], _ => rfl
  | x :: y :: xs, hs => by
    have ih := dedupSorted_eq hc (List.pairwise_cons.1 hs).2
    cases h : cmp x.1 y.1 == .eq with
    | true =>
      simp only [dedupSorted, h, if_true]
      rw [ih]
      conv => rhs; unfold keepLast
      rw [List.any_cons, h]
      rfl
    | false =>
      simp only [dedupSorted, h, Bool.false_eq_true, if_false]
      rw [ih]
      conv => rhs; unfold keepLast
      rw [if_neg]
      intro hany
      obtain ⟨z, hz, hxz⟩ := List.any_eq_true.1 hany
      have hxz : cmp x.1 z.1 = .eq := by simpa using hxz
      have hyz : cmp y.1 z.1 ≠ .gt := by
        rcases List.mem_cons.1 hz with rfl | hz
        · rw [hc.refl]; simp
        · have := (List.pairwise_cons.1 (List.pairwise_cons.1 hs).2).1 z hz
          simpa [leOf] using this
      have hzx : cmp z.1 x.1 ≠ .gt := by rw [hc.swap, hxz]; simp
      have hyx := hc.trans _ _ _ hyz hzx
      have hxy : cmp x.1 y.1 ≠ .gt := by
        have := (List.pairwise_cons.1 hs).1 y (List.mem_cons_self ..)
        simpa [leOf] using this
      rw [hc.swap] at hyx
      cases hcase : cmp x.1 y.1 <;> simp_all

theorem btreeCollect_perm {cmp : K → K → Ordering} (hc : LawfulCmp cmp) (es : List (K × V)) :
    (btreeCollect cmp es).Perm (survivors (fun a b => cmp a b == .eq) es) := by
  have hs : (es.mergeSort (leOf (fun (a b : K × V) => cmp a.1 b.1))).Pairwise
      (fun x y => leOf (fun (a b : K × V) => cmp a.1 b.1) x y = true) :=
    List.pairwise_mergeSort (leOf_trans (hc.entry (V := V))) (leOf_total (hc.entry (V := V))) es
  have h1 := sortedAndDedupped_eq (hc.entry (V := V)) es
  have h2 := sortedAndDedupped_survivors hc es
  have h3 := dedupSorted_eq hc hs
  unfold btreeCollect
  rw [show (fun (x y : K × V) => cmp x.1 y.1 != .gt) = leOf (fun (a b : K × V) => cmp a.1 b.1) from rfl, h3]
  rw [← h1]
  exact h2

end Frozen.Model
