import Verif.Lemmas.Iterators
import Verif.Props.DebugSpec
import Verif.Props.Sets

/-! # C62: what `{:?}` of a collection or an iterator shows -/

namespace Frozen.Props

open Frozen Frozen.Spec Frozen.Model

variable {K V T M Q S A X : Type}

/-! ## Helpers -/

theorem walksM_of_walks {I : IterImpl S A} {toList : S → List A} (w : Walks I toList) :
    WalksM (fun s => .ok (I.next s)) (fun _ => True) toList where
  nil s _ h := ⟨s, by rw [w.nil s h], trivial, h⟩
  cons s a r _ h := by
    obtain ⟨s', h1, h2⟩ := w.cons s a r h
    exact ⟨s', by rw [h1], trivial, h2⟩

theorem debugListOf_eq {next : S → Res (Option A × S)} {Inv : S → Prop} {toList : S → List A}
    (w : WalksM next Inv toList) (F : Fmt X) (dA : A → X) {s : S} (hi : Inv s) {fuel : Nat}
    (hf : (toList s).length < fuel) :
    debugListOf F next dA fuel s = .ok (some (F.list ((toList s).map dA))) := by
  simp only [debugListOf, w.collect fuel s hi hf, bind, Except.bind, Option.map_some]

theorem showsRest_of_walks {next : S → Res (Option A × S)} {Inv : S → Prop} {toList : S → List A}
    (w : WalksM next Inv toList) {debug : S → Res (Option X)} {shape : List A → X} {s0 : S} (hi : Inv s0)
    (h : ∀ s, Inv s → debug s = .ok (some (shape (toList s)))) : ShowsRest next debug shape s0 := by
  intro given s hr
  obtain ⟨_, hs⟩ := w.reaches hr hi
  obtain ⟨s', h1, _⟩ := w.yields _ s hs rfl
  exact ⟨_, s', h1, h s hs⟩

theorem yields_walks {next : S → Res (Option A × S)} {Inv : S → Prop} {toList : S → List A}
    (w : WalksM next Inv toList) {s s' : S} {items : List A} (h : Yields next s items s') (hi : Inv s) :
    toList s = items := by
  induction h with
  | @nil s s' h =>
    cases hl : toList s with
    | nil => rfl
    | cons a r =>
      obtain ⟨t, h1, _⟩ := w.cons s a r hi hl
      rw [h] at h1; cases h1
  | @cons s s1 s' a as h _ ih =>
    cases hl : toList s with
    | nil =>
      obtain ⟨t, h1, _⟩ := w.nil s hi hl
      rw [h] at h1; cases h1
    | cons b r =>
      obtain ⟨t, h1, h2, h3⟩ := w.cons s b r hi hl
      rw [h] at h1; cases h1
      rw [← ih h2, h3]

/-! ## Collections -/

/-- **C62** (maps) `{:?}` of a map built by any constructor writes, as `debug_map` does, the entries in the order of
iteration; these are one entry per different key, with the value given last. -/
theorem c62_map [Target] {eqK : K → K → Bool} {mt : Q → K → Bool} {es : List (K × V)} {I : MapImpl M Q K V} {m : M}
    (hb : Built eqK mt es I m) (F : Fmt X) (dK : K → X) (dV : V → X) :
    ∃ items s', Yields (fun s => .ok (mapIter.next s)) (I.iter m) items s' ∧
      debugMap F dK dV I m = .ok (some (F.map (items.map (fun e => (dK e.1, dV e.2))))) ∧
      (∀ e, e ∈ items ↔ lastMatch eqK es e.1 = some e) ∧ Distinct eqK (items.map (fun e => e.1)) := by
  obtain ⟨Inv, f⟩ := hb.facts
  have w := walksM_of_walks (walks_mapIter (K := K) (V := V))
  obtain ⟨s', h1, _⟩ := w.yields _ (I.iter m) trivial rfl
  refine ⟨_, s', h1, ?_, f.contents.mem, f.contents.distinct⟩
  simp only [debugMap, debugMapOf, w.collect ((I.entries m).length + 1) (I.iter m) trivial (Nat.lt_succ_self _), bind,
    Except.bind, Option.map_some]

/-- **C62** (sets) `{:?}` of a set built by any constructor writes, as `debug_set` does, for every different element the
one given last, once. -/
theorem c62_set [Target] {eqT : T → T → Bool} {mt : Q → T → Bool} {xs : List T} {I : SetImpl M Q T} {m : M}
    (hb : BuiltSet eqT mt xs I m) (F : Fmt X) (dT : T → X) :
    ∃ items, items = I.items m ∧ debugSet F dT I m = .ok (some (F.set (items.map dT))) ∧
      (∀ x, x ∈ items ↔ lastOf eqT xs x = some x) ∧ Distinct eqT items := by
  have w := walksM_of_walks (walks_setIter (T := T))
  refine ⟨_, rfl, ?_, (c32_set_contents hb).mem, (c32_set_contents hb).distinct⟩
  have := w.collect ((I.items m).length + 1) ⟨(I.items m).map (fun x => (x, ()))⟩ trivial (by simp)
  simp only [List.map_map, Function.comp_def, List.map_id'] at this
  simp only [debugSet, debugSetOf, this, bind, Except.bind, Option.map_some]

/-! ## Iterators written as lists of their items -/

/-- **C62** (borrowing iterators) `iter`, `keys`, `values` of a map and `iter` of a set are written, at every point of the
iteration, as the list of the items that are still to come. -/
theorem c62_borrowing (F : Fmt X) (dK : K → X) (dV : V → X) (s0 : StdIter (K × V)) (t0 : StdIter (K × Unit)) :
    ShowsRest (fun s => .ok (mapIter.next s)) (debugIter F dK dV)
      (fun items => F.list (items.map (fun e => F.pair (dK e.1) (dV e.2)))) s0 ∧
    ShowsRest (fun s => .ok (mapKeys.next s)) (debugKeys F dK) (fun items => F.list (items.map dK)) s0 ∧
    ShowsRest (fun s => .ok (mapValues.next s)) (debugValues F dV) (fun items => F.list (items.map dV)) s0 ∧
    ShowsRest (fun s => .ok (setIter.next s)) (debugSetIter F dK) (fun items => F.list (items.map dK)) t0 := by
  refine ⟨?_, ?_, ?_, ?_⟩
  · exact showsRest_of_walks (walksM_of_walks walks_mapIter) trivial (fun s hs =>
      debugListOf_eq (walksM_of_walks walks_mapIter) F _ hs (Nat.lt_succ_self _))
  · exact showsRest_of_walks (walksM_of_walks walks_mapKeys) trivial (fun s hs =>
      debugListOf_eq (walksM_of_walks walks_mapKeys) F _ hs (by simp))
  · exact showsRest_of_walks (walksM_of_walks walks_mapValues) trivial (fun s hs =>
      debugListOf_eq (walksM_of_walks walks_mapValues) F _ hs (by simp))
  · exact showsRest_of_walks (walksM_of_walks walks_setIter) trivial (fun s hs =>
      debugListOf_eq (walksM_of_walks walks_setIter) F _ hs (by simp))

theorem unionList_length (c1 c2 : T → Bool) (u : Model.Union T) :
    (unionList c1 c2 u).length ≤ u.iter1.length + u.iter2.length := by
  unfold unionList
  split
  · rw [List.length_append]; have := List.length_filter_le (fun x => !c1 x) u.iter2; omega
  · rw [List.length_append]; have := List.length_filter_le (fun x => !c2 x) u.iter1; omega

theorem interList_length (c1 c2 : T → Bool) (u : Intersection T) :
    (interList c1 c2 u).length ≤ u.iter1.length + u.iter2.length := by
  unfold interList
  split
  · have := List.length_filter_le c2 u.iter1; omega
  · have := List.length_filter_le c1 u.iter2; omega

section algebra

variable {eqT : T → T → Bool} {A B : T → Prop} {s1 s2 : SetView T}

/-- **C62** (set operations) `union`, `intersection` and `difference` are written, at every point, as the list of the
elements that are still to come. -/
theorem c62_operations (h1 : IsSet eqT A s1) (h2 : IsSet eqT B s2) (F : Fmt X) (dT : T → X) :
    ShowsRest Union.next (debugUnion F dT) (fun items => F.list (items.map dT)) (Union.new s1 s2) ∧
    ShowsRest Intersection.next (debugIntersection F dT) (fun items => F.list (items.map dT))
      (Intersection.new s1 s2) ∧
    ShowsRest Difference.next (debugDifference F dT) (fun items => F.list (items.map dT)) (Difference.new s1 s2) := by
  obtain ⟨c1, d1, e1⟩ := h1.decider
  obtain ⟨c2, d2, e2⟩ := h2.decider
  refine ⟨?_, ?_, ?_⟩
  · refine showsRest_of_walks (union_walks d1 d2) ⟨rfl, rfl⟩ (fun s hs => debugListOf_eq (union_walks d1 d2) F _ hs ?_)
    have := unionList_length c1 c2 s
    omega
  · refine showsRest_of_walks (intersection_walks d1 d2) ⟨rfl, rfl⟩
      (fun s hs => debugListOf_eq (intersection_walks d1 d2) F _ hs ?_)
    have := interList_length c1 c2 s
    omega
  · refine showsRest_of_walks (difference_walks d2) rfl (fun s hs => debugListOf_eq (difference_walks d2) F _ hs ?_)
    have := List.length_filter_le (fun x => !c2 x) s.iter1
    omega

theorem debugOptDifference_eq {s2 : SetView T} {c2 : T → Bool} (d2 : ∀ x, s2.contains x = .ok (c2 x)) (F : Fmt X)
    (dT : T → X) (o : Option (Difference T)) (ho : ∀ d, o = some d → d.s2 = s2) :
    debugOptDifference F dT o =
      .ok (some (if o.isSome then F.tuple "Some" [F.list ((diffList c2 o).map dT)] else F.tuple "None" [])) := by
  cases o with
  | none => rfl
  | some d =>
    have := debugListOf_eq (difference_walks d2) F dT (ho d rfl) (fuel := d.iter1.length + 1)
      (by have := List.length_filter_le (fun x => !c2 x) d.iter1; omega)
    simp only [debugOptDifference, debugDifference, this, bind, Except.bind, Option.map_some, Option.isSome_some,
      if_true, diffList]

/-- **C62** (partial: symmetric difference) `symmetric_difference` is written, at every point, as the two parts that
are still to come, elements of the first set and then elements of the second; but also as a `Chain` of two options, so
that the text tells more than the items (`c62_violated`). -/
theorem c62_symmetric_difference_partial (h1 : IsSet eqT A s1) (h2 : IsSet eqT B s2) (F : Fmt X) (dT : T → X)
    {given : List T} {s : SymmetricDifference T}
    (hr : Reaches SymmetricDifference.next (SymmetricDifference.new s1 s2) given s) :
    ∃ l1 l2 s', Yields SymmetricDifference.next s (l1 ++ l2) s' ∧ (∀ x ∈ l1, A x ∧ ¬ B x) ∧ (∀ x ∈ l2, B x ∧ ¬ A x) ∧
      ∃ a b, debugSymmetricDifference F dT s = .ok (some (F.struct "Chain" [("a", a), ("b", b)])) ∧
        (a = F.tuple "Some" [F.list (l1.map dT)] ∨ a = F.tuple "None" [] ∧ l1 = []) ∧
        (b = F.tuple "Some" [F.list (l2.map dT)] ∨ b = F.tuple "None" [] ∧ l2 = []) := by
  obtain ⟨c1, d1, e1⟩ := h1.decider
  obtain ⟨c2, d2, e2⟩ := h2.decider
  have w := symdiff_walks d1 d2
  obtain ⟨hl, hs⟩ := w.reaches hr (symdiff_inv s1 s2)
  obtain ⟨s', hy, _⟩ := w.yields _ s hs rfl
  have hrest : (∀ x ∈ diffList c2 s.a, x ∈ s1.items ∧ c2 x = false) ∧
      ∀ x ∈ diffList c1 s.b, x ∈ s2.items ∧ c1 x = false := by
    have hsub : ∀ x, x ∈ diffList c2 s.a ++ diffList c1 s.b →
        (x ∈ s1.items ∧ c2 x = false) ∨ (x ∈ s2.items ∧ c1 x = false) := by
      intro x hx
      have : x ∈ diffList c2 (SymmetricDifference.new s1 s2).a ++ diffList c1 (SymmetricDifference.new s1 s2).b := by
        rw [hl]; exact List.mem_append_right _ hx
      simpa [diffList, SymmetricDifference.new, Difference.new] using this
    have hno : ∀ (c : T → Bool) (o : Option (Difference T)) (x : T), x ∈ diffList c o → c x = false := by
      intro c o x hx
      cases o with
      | none => cases hx
      | some d => simpa using (List.mem_filter.1 hx).2
    constructor
    · intro x hx
      have h3 := hno _ _ _ hx
      rcases hsub x (List.mem_append_left _ hx) with h | h
      · exact h
      · rw [(e2 x).2 (h2.sound x h.1)] at h3; cases h3
    · intro x hx
      have h3 := hno _ _ _ hx
      rcases hsub x (List.mem_append_right _ hx) with h | h
      · rw [(e1 x).2 (h1.sound x h.1)] at h3; cases h3
      · exact h
  refine ⟨diffList c2 s.a, diffList c1 s.b, s', hy, ?_, ?_,
    if s.a.isSome then F.tuple "Some" [F.list ((diffList c2 s.a).map dT)] else F.tuple "None" [],
    if s.b.isSome then F.tuple "Some" [F.list ((diffList c1 s.b).map dT)] else F.tuple "None" [], ?_, ?_, ?_⟩
  · intro x hx
    obtain ⟨h3, h4⟩ := hrest.1 x hx
    exact ⟨h1.sound x h3, fun h => by rw [(e2 x).2 h] at h4; cases h4⟩
  · intro x hx
    obtain ⟨h3, h4⟩ := hrest.2 x hx
    exact ⟨h2.sound x h3, fun h => by rw [(e1 x).2 h] at h4; cases h4⟩
  · simp only [debugSymmetricDifference, debugOptDifference_eq d2 F dT s.a hs.1,
      debugOptDifference_eq d1 F dT s.b hs.2, bind, Except.bind, Option.bind_some, Option.map_some]
  · cases s.a with
    | none => exact .inr ⟨rfl, rfl⟩
    | some d => exact .inl rfl
  · cases s.b with
    | none => exact .inr ⟨rfl, rfl⟩
    | some d => exact .inl rfl

end algebra

/-! ## Iterators written through the iterator they wrap -/

/-- **C62** (owning and mutable iterators) `into_iter` of a map or set and `iter_mut` are written by the items that are
still to come (with the current values), but not as a plain list: inside `IntoIter(…)`, `IntoIter { inner: … }` with a
`()` beside every element, and `IterMut(…)`. -/
theorem c62_owning (F : Fmt X) (dK : K → X) (dV : V → X) (vals : Nat → V) (s0 : StdIter (K × V))
    (t0 : StdIter (K × Unit)) (u0 : StdIter (K × Nat)) :
    ShowsRest (fun s => .ok (mapIntoIter.next s)) (debugIntoIter F dK dV)
      (fun items => F.tuple "IntoIter" [F.list (items.map (fun e => F.pair (dK e.1) (dV e.2)))]) s0 ∧
    ShowsRest (fun s => .ok (setIntoIter.next s)) (debugSetIntoIter F dK)
      (fun items => F.struct "IntoIter"
        [("inner", F.tuple "IntoIter" [F.list (items.map (fun x => F.pair (dK x) F.unit))])]) t0 ∧
    ShowsRest (fun s => .ok (mapIterMut.next s)) (debugIterMut F dK dV vals)
      (fun items => F.tuple "IterMut" [F.list (items.map (fun e => F.pair (dK e.1) (dV (vals e.2))))]) u0 := by
  refine ⟨?_, ?_, ?_⟩
  · exact showsRest_of_walks (walksM_of_walks walks_mapIntoIter) trivial (fun s _ => rfl)
  · refine showsRest_of_walks (walksM_of_walks walks_setIntoIter) trivial (fun s _ => ?_)
    simp only [debugSetIntoIter, debugVecIntoIter, List.map_map, Function.comp_def]
  · exact showsRest_of_walks (walksM_of_walks walks_mapIterMut) trivial (fun s _ => rfl)

/-- **C62** All those iterators tell nothing but their items. -/
theorem c62_only_items (F : Fmt X) (dK : K → X) (dV : V → X) (vals : Nat → V) :
    ShowsOnlyItems (fun s => .ok (mapIter.next s)) (debugIter F dK dV) ∧
    ShowsOnlyItems (fun s => .ok (mapKeys.next s)) (debugKeys (V := V) F dK) ∧
    ShowsOnlyItems (fun s => .ok (mapValues.next s)) (debugValues (K := K) F dV) ∧
    ShowsOnlyItems (fun s => .ok (setIter.next s)) (debugSetIter F dK) ∧
    ShowsOnlyItems (fun s => .ok (mapIntoIter.next s)) (debugIntoIter F dK dV) ∧
    ShowsOnlyItems (fun s => .ok (setIntoIter.next s)) (debugSetIntoIter F dK) ∧
    ShowsOnlyItems (fun s => .ok (mapIterMut.next s)) (debugIterMut F dK dV vals) := by
  have key : ∀ {S A : Type} {I : IterImpl S A} {toList : S → List A} (_ : Walks I toList) {debug : S → Res (Option X)}
      {shape : List A → X}, (∀ s0, ShowsRest (fun s => .ok (I.next s)) debug shape s0) →
      ShowsOnlyItems (fun s => .ok (I.next s)) debug := by
    intro S A I toList w debug shape h s t items s' t' h1 h2
    obtain ⟨r1, _, h3, h4⟩ := h s [] s .refl
    obtain ⟨r2, _, h5, h6⟩ := h t [] t .refl
    have w' := walksM_of_walks w
    rw [h4, h6, ← yields_walks w' h3 trivial, ← yields_walks w' h5 trivial, yields_walks w' h1 trivial,
      yields_walks w' h2 trivial]
  have b := fun s0 t0 => c62_borrowing (V := V) F dK dV s0 t0
  have o := fun s0 t0 u0 => c62_owning F dK dV vals s0 t0 u0
  exact ⟨key walks_mapIter fun s => (b s ⟨[]⟩).1, key walks_mapKeys fun s => (b s ⟨[]⟩).2.1,
    key walks_mapValues fun s => (b s ⟨[]⟩).2.2.1, key walks_setIter fun t => (b ⟨[]⟩ t).2.2.2,
    key walks_mapIntoIter fun s => (o s ⟨[]⟩ ⟨[]⟩).1, key walks_setIntoIter fun t => (o ⟨[]⟩ t ⟨[]⟩).2.1,
    key walks_mapIterMut fun u => (o ⟨[]⟩ ⟨[]⟩ u).2.2⟩

/-! ## Iterators that show what they will not give -/

/-- **C62** (violated: exactly when) `into_keys` and `into_values` write both the keys and the values that are still
inside: two of them are written alike exactly if both their keys and their values are. -/
theorem c62_into_keys_iff (F : Fmt X) (hF : Fmt.Injective F) (dK : K → X) (dV : V → X) (s t : StdIter (K × V)) :
    (debugIntoKeys F dK dV s = debugIntoKeys F dK dV t ↔
      s.rest.map (fun e => (dK e.1, dV e.2)) = t.rest.map (fun e => (dK e.1, dV e.2))) ∧
    (debugIntoValues F dK dV s = debugIntoValues F dK dV t ↔
      s.rest.map (fun e => (dK e.1, dV e.2)) = t.rest.map (fun e => (dK e.1, dV e.2))) := by
  have hp : ∀ l r : List (K × V), l.map (fun e => F.pair (dK e.1) (dV e.2)) = r.map (fun e => F.pair (dK e.1) (dV e.2)) →
      l.map (fun e => (dK e.1, dV e.2)) = r.map (fun e => (dK e.1, dV e.2)) := by
    intro l
    induction l with
    | nil => intro r h; cases r with
      | nil => rfl
      | cons b r => cases h
    | cons a l ih => intro r h; cases r with
      | nil => cases h
      | cons b r =>
        rw [List.map_cons, List.map_cons] at h
        injection h with h1 h2
        have h3 := hF.tuple _ _ _ h1
        simp only [List.cons.injEq, and_true] at h3
        rw [List.map_cons, List.map_cons, ih r h2, h3.1, h3.2]
  have hm : ∀ l r : List (K × V), l.map (fun e => (dK e.1, dV e.2)) = r.map (fun e => (dK e.1, dV e.2)) →
      l.map (fun e => F.pair (dK e.1) (dV e.2)) = r.map (fun e => F.pair (dK e.1) (dV e.2)) := by
    intro l r h
    have := congrArg (List.map (fun p : X × X => F.pair p.1 p.2)) h
    simpa only [List.map_map, Function.comp_def] using this
  have hv : debugVecIntoIter F dK dV s = debugVecIntoIter F dK dV t ↔
      s.rest.map (fun e => (dK e.1, dV e.2)) = t.rest.map (fun e => (dK e.1, dV e.2)) := by
    unfold debugVecIntoIter
    constructor
    · intro h
      have h1 := hF.tuple _ _ _ h
      simp only [List.cons.injEq, and_true] at h1
      exact hp _ _ (hF.list _ _ h1)
    · intro h; rw [hm _ _ h]
  constructor <;>
  · constructor
    · intro h
      injection h with h
      injection h with h
      have h1 := hF.struct _ _ _ h
      simp only [List.cons.injEq, Prod.mk.injEq, and_true, true_and] at h1
      exact hv.1 h1
    · intro h
      simp only [debugIntoKeys, debugIntoValues, hv.2 h]

/-- **C62** (violated) `into_keys`, `into_values`, `values_mut` and `symmetric_difference` are not written by their items
alone: there are two of each that will give the same items and are written differently. -/
theorem c62_violated :
    ¬ ShowsOnlyItems (fun s => .ok (mapIntoKeys.next s)) (debugIntoKeys plainFmt (toString : Nat → _) (toString : Nat → _)) ∧
    ¬ ShowsOnlyItems (fun s => .ok (mapIntoValues.next s))
      (debugIntoValues plainFmt (toString : Nat → _) (toString : Nat → _)) ∧
    ¬ ShowsOnlyItems (fun s => .ok (mapValuesMut.next s))
      (debugValuesMut plainFmt (toString : Nat → _) (toString : Nat → _) (fun i => i)) ∧
    ¬ ShowsOnlyItems SymmetricDifference.next (debugSymmetricDifference plainFmt (toString : Nat → _)) := by
  refine ⟨fun h => ?_, fun h => ?_, fun h => ?_, fun h => ?_⟩
  · have := h ⟨[(1, 5)]⟩ ⟨[(1, 6)]⟩ [1] ⟨[]⟩ ⟨[]⟩ (.cons rfl (.nil rfl)) (.cons rfl (.nil rfl))
    revert this; decide
  · have := h ⟨[(5, 1)]⟩ ⟨[(6, 1)]⟩ [1] ⟨[]⟩ ⟨[]⟩ (.cons rfl (.nil rfl)) (.cons rfl (.nil rfl))
    revert this; decide
  · have := h ⟨[(5, 0)]⟩ ⟨[(6, 0)]⟩ [0] ⟨[]⟩ ⟨[]⟩ (.cons rfl (.nil rfl)) (.cons rfl (.nil rfl))
    revert this; decide
  · have := h (SymmetricDifference.new (scanSet [1]) (scanSet [])) (SymmetricDifference.new (scanSet []) (scanSet [1]))
      [1] ⟨none, some ⟨[], scanSet [1]⟩⟩ ⟨none, some ⟨[], scanSet []⟩⟩ (.cons rfl (.nil rfl)) (.cons rfl (.nil rfl))
    revert this; decide

attribute [local instance] w64 in
/-- What is written for a map, a set and some of their iterators; and the hypotheses of C62 for them. -/
example : (∃ A B, IsSet natEq A (scanSet [1, 2, 3]) ∧ IsSet natEq B (scanSet [3, 4])) ∧
    debugMap plainFmt toString toString (ScanMap.impl natEq) (ScanMap.new natEq [(1, 10), (2, 20), (1, 30)])
      = .ok (some "{2: 20, 1: 30}") ∧
    debugKeys plainFmt (toString : Nat → _) (mapIter.next ⟨[(1, 10), (2, 20), (3, 30)]⟩).2 = .ok (some "[2, 3]") ∧
    debugIntoKeys plainFmt (toString : Nat → _) (toString : Nat → _) ⟨[(1, 10), (2, 20)]⟩
      = .ok (some "IntoKeys { inner: IntoIter([(1, 10), (2, 20)]) }") ∧
    debugIntoValues plainFmt (toString : Nat → _) (toString : Nat → _) ⟨[(1, 10), (2, 20)]⟩
      = .ok (some "IntoValues { inner: IntoIter([(1, 10), (2, 20)]) }") ∧
    debugUnion plainFmt toString (Union.new (scanSet [1, 2, 3]) (scanSet [3, 4])) = .ok (some "[1, 2, 3, 4]") ∧
    debugSymmetricDifference plainFmt toString (SymmetricDifference.new (scanSet [1, 2, 3]) (scanSet [3, 4]))
      = .ok (some "Chain { a: Some([1, 2]), b: Some([4]) }") := by
  refine ⟨⟨_, _, scanSet_isSet _, scanSet_isSet _⟩, ?_⟩
  decide

/-- A formatter with the injectivity that `c62_into_keys_iff` asks for: texts as trees. -/
inductive Tree where
  | leaf (n : Nat)
  | node (name : String) (kind : Nat) (fields : List (String × Tree))

def treeFmt : Fmt Tree where
  list xs := .node "" 0 (xs.map (fun x => ("", x)))
  set xs := .node "" 1 (xs.map (fun x => ("", x)))
  map xs := .node "" 2 (xs.map (fun x => ("", .node "" 3 [("", x.1), ("", x.2)])))
  tuple n xs := .node n 4 (xs.map (fun x => ("", x)))
  struct n xs := .node n 5 xs
  unit := .node "" 6 []

example : Fmt.Injective treeFmt := by
  have hinj : Function.Injective (fun x : Tree => ("", x)) := fun a b h => by injection h
  refine ⟨fun xs ys h => ?_, fun n xs ys h => ?_, fun n xs ys h => ?_⟩
  · injection h with _ _ h
    exact List.map_injective_iff.2 hinj h
  · injection h with _ _ h
    exact List.map_injective_iff.2 hinj h
  · injection h

end Frozen.Props
