import Verif.Lemmas.Emit
import Verif.Props.MapSpec

/-! # Lemmas: everything built by a constructor is a lawful map holding the surviving entries -/

namespace Frozen.Model

open Frozen Frozen.Spec Frozen.Props

variable {M Q K V : Type}

theorem EmitsGood.facts [Target] {t : QueryTraits Q K} {eqK : K → K → Bool} {mt : Q → K → Bool} {em : Emitter} {F : Type}
    {r : Res (Except String (Item (Emitted K V)))} {es : List (K × V)} {item : Item (Emitted K V)} {m : InlineMap K V}
    {eq' : K → K → Bool} {cmp' : K → K → Ordering} {fz : FzKind → List (K × V) → Option (Res F)}
    (hg : EmitsGood t eqK mt em r (survivors eqK es)) (h : r = .ok (.ok item))
    (hc : item.ctor.compile eq' cmp' fz = some (.ok (.inl m))) (he : LawfulEq' eqK) (hq : LawfulQuery eqK mt) :
    Facts eqK mt es (InlineMap.impl t) m (InlineMap.Inv t eqK mt) := by
  obtain ⟨n, gen, out, h1, h2, m', h3, h4, h5⟩ := hg
  rw [h1] at h
  have := Emitter.finish_inv h
  rw [h2] at this
  cases this
  rw [h3] at hc
  cases hc
  exact ⟨he, hq, InlineMap.lawful t hq, h4, h5⟩

theorem intoArray_inv {α : Type} {xs ys : List α} {n : Nat} (h : intoArray xs n = .ok ys) : ys = xs ∧ xs.length = n := by
  unfold intoArray at h
  split at h
  · rename_i hl; cases h; exact ⟨rfl, hl⟩
  · cases h

theorem InlineMap.scanNew_inv [Target] {t : QueryTraits Q K} {eqK : K → K → Bool} {sz : Nat} {es : List (K × V)}
    {m : InlineMap K V} (h : InlineMap.scanNew sz eqK es = .ok m) :
    InlineMap.Inv t eqK t.equivalent m ∧ m.entries = survivors eqK es ∧ m.sz = sz := by
  unfold InlineMap.scanNew at h
  rw [usingEq_eq_keepLast] at h
  simp only [bind, Except.bind] at h
  cases ha : intoArray (keepLast (fun x y => eqK x.1 y.1) es) sz with
  | error e => rw [ha] at h; cases h
  | ok ys =>
    rw [ha] at h
    cases h
    obtain ⟨rfl, hl⟩ := intoArray_inv ha
    exact ⟨⟨hl.symm, rfl, survivors_distinct eqK es⟩, rfl, rfl⟩

theorem InlineMap.eytzingerNew_inv [Target] {t : QueryTraits Q K} {cmp : K → K → Ordering} (hc : LawfulCmp cmp)
    (hq : LawfulQueryCmp cmp t.compare) {sz : Nat} {es : List (K × V)}
    {m : InlineMap K V} (h : InlineMap.eytzingerNew sz cmp es = .ok m) :
    InlineMap.Inv t (fun a b => cmp a b == .eq) (fun q k => t.compare q k == .eq) m ∧
      m.entries.Perm (survivors (fun a b => cmp a b == .eq) es) ∧ m.sz = sz := by
  have hp := sortedAndDedupped_survivors hc es
  have hst := sortedAndDedupped_strict (hc.entry (V := V)) es
  unfold InlineMap.eytzingerNew at h
  obtain ⟨A, hA, hl, hget⟩ := eytzingerLayout_spec (sortedAndDedupped es (fun x y => cmp x.1 y.1))
  simp only [hA, bind, Except.bind] at h
  cases ha : intoArray A sz with
  | error e => rw [ha] at h; cases h
  | ok ys =>
    rw [ha] at h
    cases h
    obtain ⟨rfl, hl'⟩ := intoArray_inv ha
    exact ⟨⟨hl'.symm, cmp, hc, hq, rfl, rfl, _, hA, hst⟩, (eytzingerLayout_perm hA).trans hp, rfl⟩

theorem _root_.Frozen.Props.Built.facts [Target] {eqK : K → K → Bool} {mt : Q → K → Bool} {es : List (K × V)} {I : MapImpl M Q K V} {m : M}
    (hb : Built eqK mt es I m) : ∃ Inv, Facts eqK mt es I m Inv := by
  cases hb with
  | scan he hq =>
    obtain ⟨h1, h2⟩ := ScanMap.new_spec (eqK := eqK) es
    refine ⟨_, he, hq, ScanMap.lawful hq, h2, ?_⟩
    show (ScanMap.new eqK es).entries.Perm _
    rw [h1]
  | @eytzinger _ _ _ cmp qcmp _ m hc hq h =>
    obtain ⟨m', h1, h2, h3⟩ := EytzingerMap.new_spec hc es
    rw [h] at h1; cases h1
    exact ⟨_, LawfulCmp'.eqLawful hc, hq.query, EytzingerMap.lawful hc hq, h2, h3⟩
  | @dense _ _ _ b cmp index qindex _ m hs hn h =>
    suffices hh : DenseMap.Inv index m ∧ m.entries.Perm (survivors (fun a b => cmp a b == .eq) es) from
      ⟨_, LawfulCmp'.eqLawful hs.lawfulCmp, hs.query qindex, DenseMap.lawful hs qindex, hh.1, hh.2⟩
    obtain ⟨c1, c2⟩ := DenseMap.new_cases b hs (es := es) rfl hn
    have hp := sortedAndDedupped_survivors hs.lawfulCmp es
    have hst := sortedAndDedupped_strict (hs.lawfulCmp.entry (V := V)) es
    generalize sortedAndDedupped es (fun x y => cmp x.1 y.1) = S at *
    by_cases hne : S = []
    · rw [c1 hne] at h
      cases h
      refine ⟨DenseMap.default_inv index, ?_⟩
      rw [hne] at hp
      exact hp
    · obtain ⟨f, l, hf, hl, hfl, _⟩ := ascending_ends hs hst hne
      obtain ⟨c3, c4⟩ := c2 f l hf hl
      by_cases hc : index l.1 + 1 - index f.1 = S.length
      · obtain ⟨m', h1, h2, h3⟩ := c3 hc
        rw [h] at h1; cases h1
        exact ⟨h2, by show m.entries.Perm _; rw [h3]; exact hp⟩
      · obtain ⟨c5, c6⟩ := c4 hc
        have hb := hs.bound l.1
        cases b with
        | release => rw [c5 (Or.inr rfl)] at h; cases h
        | debug =>
          by_cases hsp : index l.1 - index f.1 < usizeMax
          · rw [c5 (Or.inl hsp)] at h; cases h
          · rw [c6 (by omega) rfl] at h; cases h
  | @sparse _ _ _ b cmp index qindex _ m hs h =>
    suffices hh : SparseMap.Inv index m ∧ m.entries.Perm (survivors (fun a b => cmp a b == .eq) es) from
      ⟨_, LawfulCmp'.eqLawful hs.lawfulCmp, hs.query qindex, SparseMap.lawful hs qindex, hh.1, hh.2⟩
    have hp := sortedAndDedupped_survivors hs.lawfulCmp es
    have hst := sortedAndDedupped_strict (hs.lawfulCmp.entry (V := V)) es
    unfold SparseMap.new at h
    generalize sortedAndDedupped es (fun x y => cmp x.1 y.1) = S at *
    by_cases hne : S = []
    · rw [hne] at h hp
      cases h
      exact ⟨SparseMap.default_inv index, hp⟩
    · have hemp : S.isEmpty = false := by rw [List.isEmpty_eq_false_iff]; exact hne
      simp only [hemp, Bool.false_eq_true, if_false] at h
      obtain ⟨f, l, hf, hl, hfl, _⟩ := ascending_ends hs hst hne
      obtain ⟨m', h1, h2, h3⟩ := SparseMap.fromSortedAndDedupped_spec b hs hst hf hl
        (SparseMap.fromSorted_ok_size b hs hst hf hl h)
      rw [h] at h1; cases h1
      exact ⟨h2, by show m.entries.Perm _; rw [h3]; exact hp⟩
  | @hash _ _ _ cm find sort _ _ hK hQ _ m hf hs he hq hh hn h =>
    obtain ⟨c1, c2⟩ := HashMap.withHasher_spec cm hf hs he (hK := bridgeHash hK) (hk := hK) (fun _ => rfl) hh.key es hn
    by_cases hcap : (survivors eqK es).length ≤ cm.maxCapacity
    · obtain ⟨m', h1, h2, h3⟩ := c1 hcap
      rw [h] at h1; cases h1
      exact ⟨_, he, hq, HashMap.lawful hq hh (fun _ => rfl), h2, h3⟩
    · rw [c2 (by omega)] at h; cases h
  | @fzHash _ _ _ find sort _ _ hK hQ _ m hf hs he hq hh hn h =>
    obtain ⟨m', h1, h2, h3⟩ := FzHashMap.withHasher_spec hf hs he hh.key es hn
    rw [h] at h1; cases h1
    exact ⟨_, he, hq, HashMap.lawful hq hh (fun _ => rfl), h2, h3⟩
  | @fzOrdered _ _ _ cmp qcmp _ m hc hq h =>
    obtain ⟨m', h1, h2, h3⟩ := FzOrderedMap.new_spec hc es
    rw [h] at h1; cases h1
    exact ⟨_, LawfulCmp'.eqLawful hc, hq.query, EytzingerMap.lawful hc hq, h2, h3⟩
  | @fzScalar _ _ _ b sort cmp index qindex _ m hso hs hn h =>
    obtain ⟨m', h1, h2, h3⟩ := FzScalarMap.new_spec b hso hs es hn (by
      intro x hx y hy
      by_contra hge
      have := hs.bound x.1
      obtain ⟨e, he⟩ := FzScalarMap.new_over b sort hs hx hy (by omega)
      rw [he] at h; cases h)
    rw [h] at h1; cases h1
    exact ⟨_, LawfulCmp'.eqLawful hs.lawfulCmp, hs.query qindex, FzScalarMap.lawful hs qindex, h2, h3⟩
  | @fzString _ sort bhStr bhSlice _ m hso hn h =>
    obtain ⟨m', h1, h2, h3⟩ := FzStringMap.withHasher_spec hso bhStr bhSlice es hn
    rw [h] at h1; cases h1
    exact ⟨_, strEq_lawful, strEq_query, FzStringMap.lawful bhStr bhSlice, h2, h3⟩
  | @inlineScan _ _ _ t _ _ _ _ he hq h =>
    obtain ⟨h1, h2, _⟩ := InlineMap.scanNew_inv (t := t) h
    exact ⟨_, he, hq, InlineMap.lawful t hq, h1, .of_eq h2⟩
  | @inlineEytzinger _ _ _ t cmp _ _ _ hc hq h =>
    obtain ⟨h1, h2, _⟩ := InlineMap.eytzingerNew_inv hc hq h
    exact ⟨_, LawfulCmp'.eqLawful hc, hq.query, InlineMap.lawful t hq.query, h1, h2⟩
  | @emitHash _ _ _ _ _ t _ _ _ _ _ _ _ _ _ _ _ _ _ _ _ hfind hsort heB he hq hseed hB hh hag hhash hn h hc =>
    exact ⟨_, (Emitter.emitHash_spec hfind hsort heB he hseed hB hh hag hhash hn).facts h hc he hq⟩
  | @emitOrdered _ _ _ _ _ t _ _ _ cmp _ _ _ _ _ _ hB hcm hq heqv hag hn h hc =>
    exact ⟨_, (Emitter.emitOrdered_spec hB hcm hq heqv hag hn).facts h hc (LawfulCmp'.eqLawful hcm) hq.query⟩
  | @emitScalar _ _ _ _ _ t _ _ b _ _ _ cmp indexK _ _ _ _ _ _ hsort hB hk heqv hag hn h hc =>
    refine ⟨_, (Emitter.emitScalar_spec b hsort hB hk heqv hag hn ?_).facts h hc
      (LawfulCmp'.eqLawful hk.lawfulCmp) (hk.query t.index)⟩
    intro x hx y hy
    by_contra hge
    have := hB.bound x.key
    exact Emitter.emitScalar_over b hB hx hy (by omega) _ h
  | @emitString _ _ _ _ t _ _ _ _ _ _ bytesK _ _ _ _ _ _ hsort hseed heqv hstr hslice hag hn hkl h hc =>
    refine ⟨_, (Emitter.emitString_spec hsort hseed heqv hstr hslice hag hn hkl).facts h hc
      (strEq_lawful.comap bytesK) ?_⟩
    rw [heqv]
    refine ⟨fun q a b h => ?_⟩
    rw [eq_of_beq h]

/-! ## Consequences -/

theorem lastMatch_self {eqK : K → K → Bool} (he : LawfulEq' eqK) {es : List (K × V)} {e : K × V} :
    e ∈ survivors eqK es ↔ lastMatch eqK es e.1 = some e := by
  rw [← find?_of_perm_survivors he.query (List.Perm.refl _)]
  constructor
  · intro h
    obtain ⟨i, hi⟩ := List.getElem?_of_mem h
    refine (find_of_pos ?_ hi (he.refl _)).1
    intro i j a b ha hb hpa hpb
    exact Distinct.unique_pos (he.entry.isClass e) (survivors_distinct eqK es) ha hb hpa hpb
  · intro h
    exact List.mem_of_find?_eq_some h

theorem Facts.lookups {eqK : K → K → Bool} {mt : Q → K → Bool} {es : List (K × V)} {I : MapImpl M Q K V} {m : M}
    {Inv : M → Prop} (F : Facts eqK mt es I m Inv) : Lookups I m mt es := by
  have hf := fun q => find?_of_perm_survivors F.query F.perm q
  refine ⟨fun q => ?_, fun q => ?_, fun q => ?_, fun q => ?_⟩
  · rw [F.lawful.get m F.inv, hf]
  · rw [F.lawful.getKeyValue m F.inv, hf]
  · rw [F.lawful.containsKey m F.inv, hf]
  · refine ⟨_, F.lawful.getMut m F.inv q, ?_, ?_⟩
    · rw [← hf, List.findIdx?_eq_none_iff, List.find?_eq_none]; simp
    · intro i hi
      rw [← hf]
      rw [List.findIdx?_eq_some_iff_getElem] at hi
      obtain ⟨hlt, h1, h2⟩ := hi
      rw [List.getElem?_eq_getElem hlt, eq_comm, List.find?_eq_some_iff_getElem]
      exact ⟨h1, i, hlt, rfl, fun j hj => by simpa using h2 j hj⟩

theorem Facts.contents {eqK : K → K → Bool} {mt : Q → K → Bool} {es : List (K × V)} {I : MapImpl M Q K V} {m : M}
    {Inv : M → Prop} (F : Facts eqK mt es I m Inv) : Contents I m eqK es where
  mem e := by rw [F.perm.mem_iff]; exact lastMatch_self F.eq
  distinct := (distinct_iff_keys _).1 (F.lawful.distinct m F.inv)

/-- A list of pairwise different keys is at most as long as any list covering it. -/
theorem distinct_length_le {eqK : K → K → Bool} (he : LawfulEq' eqK) :
    ∀ {A B : List K}, Distinct eqK A → (∀ a ∈ A, ∃ b ∈ B, eqK a b = true) → A.length ≤ B.length
  | [], _, _, _ => by simp
  | a :: A, B, hd, hc => by
    obtain ⟨b, hb, hab⟩ := hc a (by simp)
    have hd' := List.pairwise_cons.1 hd
    obtain ⟨B1, B2, rfl⟩ := List.append_of_mem hb
    have := distinct_length_le he (A := A) (B := B1 ++ B2) hd'.2 (by
      intro x hx
      obtain ⟨c, hc', hxc⟩ := hc x (by simp [hx])
      refine ⟨c, ?_, hxc⟩
      have hne : c ≠ b := by
        rintro rfl
        have := hd'.1 x hx
        rw [he.trans a c x hab (he.symm _ _ hxc)] at this
        cases this
      simp only [List.mem_append, List.mem_cons] at hc' ⊢
      tauto)
    simp only [List.length_append, List.length_cons] at this ⊢
    omega

theorem Facts.len {eqK : K → K → Bool} {mt : Q → K → Bool} {es : List (K × V)} {I : MapImpl M Q K V} {m : M}
    {Inv : M → Prop} (F : Facts eqK mt es I m Inv) {R : List K} (hR : Representatives eqK es R) :
    I.len m = R.length := by
  rw [F.lawful.len m F.inv]
  have hd := (distinct_iff_keys _).1 (F.lawful.distinct m F.inv)
  have h1 : ((I.entries m).map Prod.fst).length ≤ R.length := by
    refine distinct_length_le F.eq hd ?_
    intro a ha
    obtain ⟨e, he, rfl⟩ := List.mem_map.1 ha
    exact hR.covers e (survivors_mem (F.perm.mem_iff.1 he))
  have h2 : R.length ≤ ((I.entries m).map Prod.fst).length := by
    refine distinct_length_le F.eq hR.distinct ?_
    intro k hk
    obtain ⟨e, he, hek⟩ := hR.only k hk
    obtain ⟨e', h3, h4⟩ := exists_mem_keepLast F.eq.entry he
    exact ⟨e'.1, List.mem_map.2 ⟨e', F.perm.mem_iff.2 h3, rfl⟩, F.eq.trans _ _ _ (F.eq.symm _ _ hek) h4⟩
  simp only [List.length_map] at h1 h2
  omega

end Frozen.Model
