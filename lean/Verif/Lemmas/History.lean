import Verif.Lemmas.Built
import Verif.Lemmas.Iterators
import Verif.Props.HistorySpec
import Verif.Props.Dedup

/-! # Lemmas about client programs -/

namespace Frozen.Model

open Frozen Frozen.Spec Frozen.Props

variable {M Q K V : Type}

theorem someEqual_iff (eqQ : Q → Q → Bool) (qs : List Q) : someEqual eqQ qs = false ↔ Distinct eqQ qs := by
  induction qs with
  | nil => simp [someEqual, Distinct]
  | cons q qs ih =>
    unfold someEqual
    rw [Bool.or_eq_false_iff, ih]
    unfold Distinct
    rw [List.pairwise_cons]
    simp

theorem unchecked_spec {I : MapImpl M Q K V} {eqK : K → K → Bool} {mt : Q → K → Bool} {Inv : M → Prop}
    (L : LawfulMap I eqK mt Inv) {m : M} (hm : Inv m) (qs : List Q) :
    I.getDisjointUncheckedMut m qs = .ok (qs.map (fun q => (I.entries m).findIdx? (fun e => mt q e.1))) := by
  induction qs with
  | nil => rfl
  | cons q qs ih =>
    simp only [MapImpl.getDisjointUncheckedMut, L.getMut m hm q, ih, bind, Except.bind, List.map_cons]

theorem disjoint_spec {I : MapImpl M Q K V} {eqK : K → K → Bool} {mt : Q → K → Bool} {Inv : M → Prop}
    (L : LawfulMap I eqK mt Inv) {m : M} (hm : Inv m) (eqQ : Q → Q → Bool) (qs : List Q) :
    I.getDisjointMut eqQ m qs =
      if someEqual eqQ qs then .error (.panic "duplicate keys found")
      else .ok (qs.map (fun q => (I.entries m).findIdx? (fun e => mt q e.1))) := by
  unfold MapImpl.getDisjointMut
  obtain ⟨b, h1, h2⟩ := c08_has_duplicates eqQ qs
  have h3 := c08_no_duplicates_iff_distinct eqQ qs
  rw [h1] at h3 ⊢
  simp only [bind, Except.bind, unchecked_spec L hm]
  cases b with
  | false => rw [(someEqual_iff eqQ qs).2 (h3.1 rfl)]
  | true =>
    have : someEqual eqQ qs = true := by
      by_contra hc
      have := h3.2 ((someEqual_iff eqQ qs).1 (by simpa using hc))
      cases this
    rw [this]

/-- Positions of different queries differ. -/
theorem positions_nodup {eqQ : Q → Q → Bool} {mt : Q → K → Bool} (hc : EqCompatible eqQ mt) (d : List (K × V))
    {qs : List Q} (hd : Distinct eqQ qs) :
    ((qs.map (fun q => d.findIdx? (fun e => mt q e.1))).filterMap id).Nodup := by
  rw [List.filterMap_map]
  unfold Distinct at hd
  induction qs with
  | nil => simp
  | cons q qs ih =>
    obtain ⟨h1, h2⟩ := List.pairwise_cons.1 hd
    rw [List.filterMap_cons]
    cases hp : (id ∘ fun q => d.findIdx? fun e => mt q e.1) q with
    | none => exact ih h2
    | some i =>
      rw [List.nodup_cons]
      refine ⟨?_, ih h2⟩
      intro hm
      obtain ⟨q', hq', hp'⟩ := List.mem_filterMap.1 hm
      simp only [Function.comp_apply, id_eq] at hp hp'
      rw [List.findIdx?_eq_some_iff_getElem] at hp hp'
      obtain ⟨hlt, a1, _⟩ := hp
      obtain ⟨_, a2, _⟩ := hp'
      have := h1 q' hq'
      rw [hc q q' _ a1 a2] at this
      cases this

/-! ## Stores -/

theorem modifyRef_entries {I : MapImpl M Q K V} {eqK : K → K → Bool} {mt : Q → K → Bool} {Inv : M → Prop}
    (L : LawfulMap I eqK mt Inv) {m : M} (hm : Inv m) (i : Nat) (f : V → V) :
    I.entries (I.modifyRef m i f) = (I.entries m).modify i (fun e => (e.1, f e.2)) ∧ Inv (I.modifyRef m i f) := by
  unfold MapImpl.modifyRef MapImpl.readRef
  cases h : (I.entries m)[i]? with
  | none =>
    refine ⟨?_, hm⟩
    rw [List.getElem?_eq_none_iff] at h
    simp only [Option.map_none]
    rw [List.modify_eq_self (by omega)]
  | some e =>
    simp only [Option.map_some]
    refine ⟨?_, L.write_inv m hm _ _⟩
    rw [L.write_entries m hm, writeAt]
    apply List.ext_getElem?
    intro j
    rw [List.getElem?_modify, List.getElem?_modify]
    by_cases hj : i = j
    · subst hj; simp [h]
    · simp [hj]

/-- Changing the value at the position of a query is the dictionary update. -/
theorem modify_eq_update {eqK : K → K → Bool} {mt : Q → K → Bool} (hq : LawfulQuery eqK mt) {d : List (K × V)}
    (hd : Distinct (entryEq eqK) d) {q : Q} {i : Nat} (hi : d.findIdx? (fun e => mt q e.1) = some i) (f : V → V) :
    d.modify i (fun e => (e.1, f e.2)) = dictUpdate mt d q f := by
  rw [List.findIdx?_eq_some_iff_getElem] at hi
  obtain ⟨hlt, h1, _⟩ := hi
  apply List.ext_getElem?
  intro j
  unfold dictUpdate
  rw [List.getElem?_modify, List.getElem?_map]
  cases hj : d[j]? with
  | none => simp
  | some e =>
    simp only [Option.map_some]
    by_cases hij : i = j
    · subst hij
      rw [List.getElem?_eq_getElem hlt] at hj
      cases hj
      simp [h1]
    · have : mt q e.1 = false := by
        by_contra hc
        exact hij (Distinct.unique_pos (hq.entryClass q) hd (List.getElem?_eq_getElem hlt) hj h1 (by simpa using hc))
      simp [hij, this]

theorem update_none {mt : Q → K → Bool} {d : List (K × V)} {q : Q} (hi : d.findIdx? (fun e => mt q e.1) = none)
    (f : V → V) : dictUpdate mt d q f = d := by
  rw [List.findIdx?_eq_none_iff] at hi
  unfold dictUpdate
  conv_rhs => rw [← List.map_id d]
  apply List.map_congr_left
  intro e he
  simp [hi e he]

theorem dictUpdate_keys (mt : Q → K → Bool) (d : List (K × V)) (q : Q) (f : V → V) :
    (dictUpdate mt d q f).map Prod.fst = d.map Prod.fst := by
  unfold dictUpdate
  rw [List.map_map]
  apply List.map_congr_left
  intro e _
  simp only [Function.comp_apply]
  split <;> rfl

theorem findIdx?_of_keys {d d' : List (K × V)} (h : d.map Prod.fst = d'.map Prod.fst) (p : K → Bool) :
    d.findIdx? (fun e => p e.1) = d'.findIdx? (fun e => p e.1) := by
  rw [findIdx?_key, findIdx?_key, h]

theorem storeAll_spec {I : MapImpl M Q K V} {eqK : K → K → Bool} {mt : Q → K → Bool} {Inv : M → Prop}
    (hq : LawfulQuery eqK mt) (L : LawfulMap I eqK mt Inv) (f : Nat → V → V) :
    ∀ (qs : List Q) (n : Nat) (ps : List (Option Nat)) (m : M), Inv m →
      ps = qs.map (fun q => (I.entries m).findIdx? (fun e => mt q e.1)) →
      I.entries (I.storeAll f n ps m) = dictUpdates mt f n qs (I.entries m) ∧ Inv (I.storeAll f n ps m)
  | [], n, ps, m, hm, hps => by subst hps; exact ⟨rfl, hm⟩
  | q :: qs, n, ps, m, hm, hps => by
    subst hps
    rw [List.map_cons]
    cases hi : (I.entries m).findIdx? (fun e => mt q e.1) with
    | none =>
      simp only [MapImpl.storeAll, dictUpdates]
      rw [update_none hi]
      exact storeAll_spec hq L f qs (n + 1) _ m hm rfl
    | some i =>
      obtain ⟨h1, h2⟩ := modifyRef_entries L hm i (f n)
      rw [modify_eq_update hq (L.distinct m hm) hi] at h1
      obtain ⟨h3, h4⟩ := storeAll_spec hq L f qs (n + 1)
        (qs.map (fun q => (I.entries m).findIdx? (fun e => mt q e.1))) (I.modifyRef m i (f n)) h2 (by
          apply List.map_congr_left
          intro q' _
          apply findIdx?_of_keys
          rw [h1, dictUpdate_keys])
      rw [h1] at h3
      exact ⟨h3, h4⟩

theorem modify_middle {A : Type} (l r : List A) (a : A) (f : A → A) :
    (l ++ a :: r).modify l.length f = l ++ f a :: r := by
  induction l with
  | nil => rfl
  | cons x l ih => simp only [List.cons_append, List.length_cons, List.modify_succ_cons, ih]

theorem forMut_spec {I : MapImpl M Q K V} {eqK : K → K → Bool} {mt : Q → K → Bool} {Inv : M → Prop}
    (L : LawfulMap I eqK mt Inv) (f : Nat → K → V → V) :
    ∀ (B A : List (K × V)) (m : M), Inv m → I.entries m = A ++ B →
      I.entries (I.forMut f A.length ((B.zipIdx A.length).map (fun p => (p.1.1, p.2))) m) =
        A ++ B.mapIdx (fun i e => (e.1, f (A.length + i) e.1 e.2)) ∧
      Inv (I.forMut f A.length ((B.zipIdx A.length).map (fun p => (p.1.1, p.2))) m)
  | [], A, m, hm, he => by rw [List.append_nil] at he; simpa [MapImpl.forMut] using ⟨he, hm⟩
  | e :: B, A, m, hm, he => by
    simp only [List.zipIdx_cons, List.map_cons, MapImpl.forMut]
    obtain ⟨h1, h2⟩ := modifyRef_entries L hm A.length (f A.length e.1)
    rw [he, modify_middle] at h1
    rw [List.append_cons] at h1
    have := forMut_spec L f B (A ++ [(e.1, f A.length e.1 e.2)]) _ h2 h1
    simp only [List.length_append, List.length_cons, List.length_nil, Nat.zero_add] at this
    refine ⟨?_, this.2⟩
    rw [this.1]
    simp only [List.mapIdx_cons, Nat.add_zero, List.append_assoc, List.cons_append, List.nil_append]
    congr 2
    apply List.ext_getElem?
    intro j
    simp only [List.getElem?_mapIdx]
    rw [Nat.add_assoc, Nat.add_comm 1 j]

theorem mapIdx_keys (d : List (K × V)) (f : Nat → K × V → V) :
    (d.mapIdx (fun i e => (e.1, f i e))).map Prod.fst = d.map Prod.fst := by
  apply List.ext_getElem?
  intro j
  simp only [List.getElem?_map, List.getElem?_mapIdx, Option.map_map, Function.comp_def]

theorem dictUpdates_keys (mt : Q → K → Bool) (f : Nat → V → V) (qs : List Q) (n : Nat) (d : List (K × V)) :
    (dictUpdates mt f n qs d).map Prod.fst = d.map Prod.fst := by
  induction qs generalizing n d with
  | nil => rfl
  | cons q qs ih => rw [dictUpdates, ih, dictUpdate_keys]

theorem dictStep_keys (eqQ : Q → Q → Bool) (mt : Q → K → Bool) (d : List (K × V)) (op : Op Q K V) :
    (dictStep eqQ mt d op).2.map Prod.fst = d.map Prod.fst := by
  cases op <;> simp only [dictStep, dictUpdate_keys, mapIdx_keys]
  case index q => split <;> rfl
  case disjointMut qs f => split <;> simp only [dictUpdates_keys]

theorem dictRun_keys (eqQ : Q → Q → Bool) (mt : Q → K → Bool) (d : List (K × V)) (ops : List (Op Q K V)) :
    (dictRun eqQ mt d ops).2.map Prod.fst = d.map Prod.fst := by
  induction ops generalizing d with
  | nil => rfl
  | cons op ops ih => simp only [dictRun, ih, dictStep_keys]

theorem lastMatch_of_distinct {eqK : K → K → Bool} {mt : Q → K → Bool} (hq : LawfulQuery eqK mt) {d : List (K × V)}
    (hd : Distinct (entryEq eqK) d) (q : Q) : lastMatch mt d q = d.find? (fun e => mt q e.1) := by
  refine (find?_of_perm_survivors hq ?_ q).symm
  unfold survivors
  rw [keepLast_of_distinct hd]

theorem findIdx_find {p : K → Bool} {d : List (K × V)} {i : Nat} (h : d.findIdx? (fun e => p e.1) = some i) :
    d[i]? = d.find? (fun e => p e.1) := by
  rw [List.findIdx?_eq_some_iff_getElem] at h
  obtain ⟨hlt, h1, h2⟩ := h
  rw [List.getElem?_eq_getElem hlt, eq_comm, List.find?_eq_some_iff_getElem]
  exact ⟨h1, i, hlt, rfl, fun j hj => by simpa using h2 j hj⟩

/-- One step of a program: the map and the dictionary agree. -/
theorem step_sim {I : MapImpl M Q K V} {eqK : K → K → Bool} {mt : Q → K → Bool} {Inv : M → Prop}
    (hq : LawfulQuery eqK mt) (L : LawfulMap I eqK mt Inv) {eqQ : Q → Q → Bool} (hc : EqCompatible eqQ mt) {m : M}
    (hm : Inv m) (op : Op Q K V) :
    (I.step eqQ m op).1 = (dictStep eqQ mt (I.entries m) op).1 ∧
    I.entries (I.step eqQ m op).2 = (dictStep eqQ mt (I.entries m) op).2 ∧ Inv (I.step eqQ m op).2 := by
  have hlm := lastMatch_of_distinct hq (L.distinct m hm)
  cases op with
  | get q => simp only [MapImpl.step, dictStep, L.get m hm, Out.ofRes, hlm]; exact ⟨trivial, trivial, hm⟩
  | getKeyValue q => simp only [MapImpl.step, dictStep, L.getKeyValue m hm, Out.ofRes, hlm]; exact ⟨trivial, trivial, hm⟩
  | containsKey q => simp only [MapImpl.step, dictStep, L.containsKey m hm, Out.ofRes, hlm]; exact ⟨trivial, trivial, hm⟩
  | index q =>
    simp only [MapImpl.step, dictStep, MapImpl.index, L.get m hm, hlm, bind, Except.bind]
    cases (I.entries m).find? (fun e => mt q e.1) with
    | none => exact ⟨rfl, rfl, hm⟩
    | some e => exact ⟨rfl, rfl, hm⟩
  | len => simp only [MapImpl.step, dictStep, L.len m hm]; exact ⟨trivial, trivial, hm⟩
  | iterate => exact ⟨rfl, rfl, hm⟩
  | update q f =>
    simp only [MapImpl.step, dictStep, L.getMut m hm, hlm]
    cases hi : (I.entries m).findIdx? (fun e => mt q e.1) with
    | none =>
      have : (I.entries m).find? (fun e => mt q e.1) = none := by
        rw [List.findIdx?_eq_none_iff] at hi
        rw [List.find?_eq_none]; intro e he; simp [hi e he]
      rw [this, update_none hi]
      exact ⟨rfl, rfl, hm⟩
    | some i =>
      obtain ⟨h1, h2⟩ := modifyRef_entries L hm i f
      rw [modify_eq_update hq (L.distinct m hm) hi] at h1
      rw [← findIdx_find hi]
      exact ⟨rfl, h1, h2⟩
  | iterMut f =>
    have := forMut_spec L f (I.entries m) [] m hm rfl
    simp only [List.length_nil, List.nil_append, Nat.zero_add] at this
    exact ⟨rfl, this.1, this.2⟩
  | valuesMut f =>
    have := forMut_spec L (fun n _ => f n) (I.entries m) [] m hm rfl
    simp only [List.length_nil, List.nil_append, Nat.zero_add] at this
    exact ⟨rfl, this.1, this.2⟩
  | disjointMut qs f =>
    simp only [MapImpl.step, dictStep, disjoint_spec L hm]
    cases he : someEqual eqQ qs with
    | true => simp only [if_true]; exact ⟨rfl, trivial, hm⟩
    | false =>
      simp only [Bool.false_eq_true, if_false]
      rw [if_pos (positions_nodup hc _ ((someEqual_iff eqQ qs).1 he))]
      obtain ⟨h1, h2⟩ := storeAll_spec hq L f qs 0 _ m hm rfl
      refine ⟨?_, h1, h2⟩
      simp only [List.map_map, Out.values.injEq]
      apply List.map_congr_left
      intro q _
      simp only [Function.comp_apply, hlm]
      cases hi : (I.entries m).findIdx? (fun e => mt q e.1) with
      | none =>
        have : (I.entries m).find? (fun e => mt q e.1) = none := by
          rw [List.findIdx?_eq_none_iff] at hi
          rw [List.find?_eq_none]; intro e he; simp [hi e he]
        rw [this]; rfl
      | some i => rw [← findIdx_find hi]; rfl

theorem run_sim {I : MapImpl M Q K V} {eqK : K → K → Bool} {mt : Q → K → Bool} {Inv : M → Prop}
    (hq : LawfulQuery eqK mt) (L : LawfulMap I eqK mt Inv) {eqQ : Q → Q → Bool} (hc : EqCompatible eqQ mt)
    (ops : List (Op Q K V)) : ∀ {m : M}, Inv m →
    (I.run eqQ m ops).1 = (dictRun eqQ mt (I.entries m) ops).1 ∧
    I.entries (I.run eqQ m ops).2 = (dictRun eqQ mt (I.entries m) ops).2 ∧ Inv (I.run eqQ m ops).2 := by
  induction ops with
  | nil => intro m hm; exact ⟨rfl, rfl, hm⟩
  | cons op ops ih =>
    intro m hm
    obtain ⟨h1, h2, h3⟩ := step_sim hq L hc hm op
    obtain ⟨h4, h5, h6⟩ := ih h3
    simp only [MapImpl.run, dictRun]
    rw [h2] at h4 h5
    exact ⟨by rw [h1, h4], h5, h6⟩

end Frozen.Model
