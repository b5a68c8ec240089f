import Verif.Lemmas.EffectDebug
import Verif.Lemmas.EffectMaps

/-!
# C96: `Debug` with sinks that fail and elements whose `Debug` has effects
-/

namespace Frozen.Props

open Frozen.Spec Frozen.Model

variable {W S A K V T M Q : Type} {st : DebugStyle W}

/-- **C96** (steps, maps and sets). `{:?}` of a map does this and nothing else, whatever the sink and the `Debug` of keys and values do: it writes a bracket, formats
key and value of one entry after the other, in the order of iteration, and writes a bracket; it stops with the first step that fails or panics and returns
what that returned.  The entries are the keys given, each once with its last value.  Likewise for sets. -/
theorem c96_steps [Target] :
    (∀ {eqK : K → K → Bool} {mt : Q → K → Bool} {es : List (K × V)} {I : MapImpl M Q K V} {m : M}, Built eqK mt es I m →
      ∀ (dK : K → Eff W Bool) (dV : V → Eff W Bool), ∃ items s', Yields (fun s => .ok (mapIter.next s)) (I.iter m) items s' ∧
        Performs (debugMapE st dK dV I m) (steps st (items.map fun e => [dK e.1, st.colon, dV e.2])) ∧
        (∀ e, e ∈ items ↔ lastMatch eqK es e.1 = some e) ∧ Distinct eqK (items.map (fun e => e.1))) ∧
    (∀ {eqT : T → T → Bool} {mt : Q → T → Bool} {xs : List T} {I : SetImpl M Q T} {m : M}, BuiltSet eqT mt xs I m →
      ∀ (dT : T → Eff W Bool), Performs (debugSetE st dT I m) (steps st ((I.items m).map fun x => [dT x])) ∧
        (∀ x, x ∈ I.items m ↔ lastOf eqT xs x = some x) ∧ Distinct eqT (I.items m)) := by
  refine ⟨fun {eqK mt es I m} hb dK dV => ?_, fun {eqT mt xs I m} hb dT => ?_⟩
  · obtain ⟨items, s', h1, -, h3, h4⟩ := c62_map hb plainFmt (fun _ => "") (fun _ => "")
    have hi := yields_walks (walksM_of_walks walks_mapIter) h1 trivial
    refine ⟨items, s', h1, ?_, h3, h4⟩
    show Performs (debugE _ _ _ _ _) _
    rw [(walks_follows walks_mapIter).debug]
    simp only [hi]
    exact debug_perform (fun _ _ => rfl) (mapEntry_true st dK dV) (by rw [← hi]; exact Nat.lt_succ_of_le (Nat.le_of_eq rfl))
  · obtain ⟨items, rfl, -, h3, h4⟩ := c62_set hb plainFmt (fun _ => "")
    refine ⟨?_, h3, h4⟩
    show Performs (debugE _ _ _ _ _) _
    rw [(walks_follows walks_setIter).debug]
    have : (((I.items m).map fun x => (x, ())).map fun x => x.1) = I.items m := by rw [List.map_map]; exact List.map_id _
    simp only [this]
    exact debug_perform (fun _ _ => rfl) (listEntry_true st dT) (Nat.lt_succ_self _)

/-- **C96** (steps, iterators). `{:?}` of an iterator formats the items that are left, likewise, and leaves the iterator as it is. -/
theorem c96_iterators (s : StdIter (K × V)) (t : StdIter (T × Unit)) (dE : K × V → Eff W Bool) (dK : K → Eff W Bool) (dV : V → Eff W Bool) (dT : T → Eff W Bool) :
    Performs (debugIterE st dE s) (steps st (s.rest.map fun e => [dE e])) ∧
    Performs (debugKeysE st dK s) (steps st (s.rest.map fun e => [dK e.1])) ∧
    Performs (debugValuesE st dV s) (steps st (s.rest.map fun e => [dV e.2])) ∧
    Performs (debugSetIterE st dT t) (steps st (t.rest.map fun e => [dT e.1])) := by
  refine ⟨?_, ?_, ?_, ?_⟩
  · show Performs (debugE _ _ _ _ _) _
    rw [(walks_follows walks_mapIter).debug]
    exact debug_perform (fun _ _ => rfl) (listEntry_true st dE) (Nat.lt_succ_self _)
  · show Performs (debugE _ _ _ _ _) _
    rw [(walks_follows walks_mapKeys).debug]
    have := debug_perform (st := st) (entry := listEntryE st dK) (fun _ _ => rfl) (listEntry_true st dK) (l := s.rest.map fun e => e.1)
      (fuel := s.rest.length + 1) (by simp)
    rwa [List.map_map] at this
  · show Performs (debugE _ _ _ _ _) _
    rw [(walks_follows walks_mapValues).debug]
    have := debug_perform (st := st) (entry := listEntryE st dV) (fun _ _ => rfl) (listEntry_true st dV) (l := s.rest.map fun e => e.2)
      (fuel := s.rest.length + 1) (by simp)
    rwa [List.map_map] at this
  · show Performs (debugE _ _ _ _ _) _
    rw [(walks_follows walks_setIter).debug]
    have := debug_perform (st := st) (entry := listEntryE st dT) (fun _ _ => rfl) (listEntry_true st dT) (l := t.rest.map fun e => e.1)
      (fuel := t.rest.length + 1) (by simp)
    rwa [List.map_map] at this

section

variable {out : W → List Char} {sure : Prop} {x : StyleText}

/-- **C96** (text, maps). What a call of `{:?}` leaves in the sink is the text of the map or, if it fails or panics, the beginning of that text.  It does not fail if
neither the sink nor `Debug` of keys and values do. -/
theorem c96_text_map [Target] {eqK : K → K → Bool} {mt : Q → K → Bool} {es : List (K × V)} {I : MapImpl M Q K V} {m : M} (hb : Built eqK mt es I m)
    (hst : StyleWrites out sure st x) {dK : K → Eff W Bool} {dV : V → Eff W Bool} {tK : K → List Char} {tV : V → List Char}
    (hK : ∀ k, Writes out sure (dK k) (tK k)) (hV : ∀ v, Writes out sure (dV v) (tV v)) :
    ∃ items : List (K × V), (∀ e, e ∈ items ↔ lastMatch eqK es e.1 = some e) ∧ Distinct eqK (items.map (fun e => e.1)) ∧
      WritesWhole out sure (debugMapE st dK dV I m) (wholeText x (items.map fun e => tK e.1 ++ x.colon ++ tV e.2)) := by
  obtain ⟨items, s', h1, -, h3, h4⟩ := c62_map hb plainFmt (fun _ => "") (fun _ => "")
  have hi := yields_walks (walksM_of_walks walks_mapIter) h1 trivial
  refine ⟨items, h3, h4, ?_⟩
  show WritesWhole out sure (debugE _ _ _ _ _) _
  rw [(walks_follows walks_mapIter).debug]
  simp only [hi]
  have := debug_writes hst (entry := mapEntryE st dK dV) (fun _ _ => rfl) (mapEntry_writes hst hK hV) (p := allPlan items) (fuel := (I.entries m).length + 1)
    (by rw [← hi, allPlan, List.length_map]; exact Nat.lt_succ_of_le (Nat.le_of_eq rfl))
    (allPlan_tests (R := Looks out sure) fun w => ⟨rfl, .inr rfl, fun _ => rfl⟩)
  rwa [wanted_all] at this

/-- **C96** (text, set operations). The same for `{:?}` of a union, an intersection and a difference, which look elements up while they are formatted: lookups may do
anything to the state of the program except write to the sink. -/
theorem c96_text_operations {eqT : T → T → Bool} {A B : T → Prop} {a b : SetViewE W T} (he : LawfulEq' eqT) (ha : IsSetE (Looks out sure) eqT A a)
    (hb : IsSetE (Looks out sure) eqT B b) (hst : StyleWrites out sure st x) {dT : T → Eff W Bool} {tT : T → List Char}
    (hT : ∀ y, Writes out sure (dT y) (tT y)) :
    ShowsMembers out sure x tT eqT (debugUnionE st dT (UnionE.new a b)) (fun y => A y ∨ B y) (a.items ++ b.items) ∧
    ShowsMembers out sure x tT eqT (debugIntersectionE st dT (IntersectionE.new a b)) (fun y => A y ∧ B y) (a.items ++ b.items) ∧
    ShowsMembers out sure x tT eqT (debugDifferenceE st dT (DifferenceE.new a b)) (fun y => A y ∧ ¬ B y) a.items := by
  obtain ⟨c1, h1, i1⟩ := ha
  obtain ⟨c2, h2, i2⟩ := hb
  have lk : ∀ {s : SetViewE W T} {c : T → Bool}, (∀ y, Looks out sure (s.contains y) (.ok (c y))) → ∀ y, Looks out sure (s.lacks y) (.ok (!c y)) := by
    intro s c h y w
    obtain ⟨g1, g2, g3⟩ := h y w
    rw [lacks_run]
    refine ⟨g1, ?_, fun hs => by simp only [g3 hs]; rfl⟩
    rcases g2 with ⟨m, g⟩ | g
    · exact .inl ⟨m, by rw [g]; rfl⟩
    · exact .inr (by simp only [g]; rfl)
  obtain ⟨t1, t2, t3, -⟩ := plans_tests (R := Looks out sure) (c1 := c1) (c2 := c2) (a := a) (b := b) (fun w => ⟨rfl, .inr rfl, fun _ => rfl⟩) h1 h2 (lk h1) (lk h2)
  obtain ⟨f1, f2, f3, -⟩ := plans_facts (a := a) (b := b) c1 c2
  have key : ∀ {p : Plan W T} {fuel : Nat}, p.length < fuel → (∀ e ∈ p, Looks out sure e.2.2 (.ok e.2.1)) →
      WritesWhole out sure (debugE st (listEntryE st dT) planNext fuel p) (wholeText x ((wanted p).map tT)) :=
    fun hl hp => debug_writes hst (fun _ _ => rfl) (listEntry_writes hst hT) hl hp
  refine ⟨⟨wanted (unionPlan c1 c2 (UnionE.new a b)), ?_⟩, ⟨wanted (interPlan c1 c2 (IntersectionE.new a b)), ?_⟩, ⟨wanted (diffPlan c2 (DifferenceE.new a b)), ?_⟩⟩
  · obtain ⟨g1, g2, g3⟩ := unionList_facts he i1 i2 (isSet_bool i1) (isSet_bool i2)
    refine ⟨by rw [f1]; exact g1, by rw [f1]; exact g2, by rw [f1]; exact g3, ?_⟩
    show WritesWhole out sure (debugE _ _ _ _ _) _
    rw [(union_follows c1 c2).debug]
    exact key (unionPlan_length c1 c2 _) t1
  · obtain ⟨g1, g2, g3⟩ := interList_facts he i1 i2 (isSet_bool i1) (isSet_bool i2)
    refine ⟨by rw [f2]; exact g1, by rw [f2]; exact g2, by rw [f2]; exact g3, ?_⟩
    show WritesWhole out sure (debugE _ _ _ _ _) _
    rw [(inter_follows c1 c2).debug]
    exact key (interPlan_length c1 c2 _) t2
  · obtain ⟨g1, g2, g3⟩ := diff_facts he i1 i2 (isSet_bool i2)
    refine ⟨by rw [f3]; exact g1, by rw [f3]; exact g2, by rw [f3]; exact g3, ?_⟩
    show WritesWhole out sure (debugE _ _ _ _ _) _
    rw [(diff_follows c2).debug]
    exact key (diffPlan_length c2 _) t3

end

/-- **C96** (the text of maps). With `{:?}` the text of a map is the entries, `key: value`, separated by commas, in braces. -/
theorem c96_plain (parts : List (List Char)) : wholeText plainMapText parts = ['{'] ++ List.intercalate [',', ' '] parts ++ ['}'] := by
  have later : ∀ ps : List (List Char), partsText plainMapText true ps = (ps.map fun p => [',', ' '] ++ p).flatten := by
    intro ps
    induction ps with
    | nil => rfl
    | cons p ps ih => simp only [partsText, ih]; simp [plainMapText]
  have : partsText plainMapText false parts = List.intercalate [',', ' '] parts := by
    cases parts with
    | nil => rfl
    | cons p ps =>
      simp only [partsText, later]
      induction ps generalizing p with
      | nil => simp [plainMapText, List.intercalate]
      | cons q qs ih =>
        have := ih q
        simp [plainMapText, List.intercalate] at this ⊢
        exact this
  simp only [wholeText, this]
  rfl

/-- **C96** (memory safety). Whatever the sink, `Debug` of the user and the lookups do, formatting a set operation runs into no undefined behaviour, and ends. -/
theorem c96_memory_safe [Target] {a b : SetViewE W T} (ha : AnySetE a) (hb : AnySetE b) (h1 : SafeCode st.opening) (h2 : ∀ f, SafeCode (st.before f))
    (h3 : SafeCode st.after) (h4 : SafeCode st.closing) {dT : T → Eff W Bool} (hT : ∀ y, SafeCode (dT y)) :
    FormatsSafely (debugUnionE st dT (UnionE.new a b)) ∧ FormatsSafely (debugIntersectionE st dT (IntersectionE.new a b)) ∧
    FormatsSafely (debugDifferenceE st dT (DifferenceE.new a b)) := by
  have hs : ∀ {c d : Eff W Bool}, SafeCode c → SafeCode d → SafeCode (thenE c d) := fun hc hd =>
    Sure.safe (P := fun _ => True) (Sure.bind (Sure.of hc) fun _ _ => Sure.ite (fun _ => Sure.of hd) (fun _ => Sure.pure trivial))
  have he : ∀ ok hf y, SafeCode (listEntryE st dT ok hf y) := by
    intro ok hf y
    cases ok with
    | true => exact hs (h2 hf) (hs (hT y) h3)
    | false => exact fun w => NoUb.ok _
  obtain ⟨t1, t2, t3, -⟩ := plans_tests (R := fun c _ => SafeCode c) (c1 := fun _ => true) (c2 := fun _ => true) (a := a) (b := b) (fun w => NoUb.ok _)
    ha.safe hb.safe (lacks_safe ha.safe) (lacks_safe hb.safe)
  refine ⟨?_, ?_, ?_⟩
  · show FormatsSafely (debugE _ _ _ _ _)
    rw [(union_follows (fun _ => true) fun _ => true).debug]
    exact debug_safe h1 h4 he (unionPlan_length _ _ _) t1
  · show FormatsSafely (debugE _ _ _ _ _)
    rw [(inter_follows (fun _ => true) fun _ => true).debug]
    exact debug_safe h1 h4 he (interPlan_length _ _ _) t2
  · show FormatsSafely (debugE _ _ _ _ _)
    rw [(diff_follows fun _ => true).debug]
    exact debug_safe h1 h4 he (diffPlan_length _ _) t3

/-! ## Cases -/

/-- A sink that holds 12 characters and refuses what does not fit. -/
def boundedWrite (t : String) : Eff (List Char) Bool := fun w => if w.length + t.toList.length ≤ 12 then (.ok true, w ++ t.toList) else (.ok false, w)

theorem boundedWrite_writes (t : String) : Writes id False (boundedWrite t) t.toList := by
  intro w
  unfold boundedWrite
  by_cases h : w.length + t.toList.length ≤ 12
  · exact ⟨t.toList, List.prefix_refl _, by simp [h], .inr (.inr ⟨by simp [h], rfl⟩), False.elim⟩
  · exact ⟨[], List.nil_prefix, by simp [h], .inr (.inl (by simp [h])), False.elim⟩

/-- `{:?}` of maps on that sink. -/
def boundedStyle : DebugStyle (List Char) where
  opening := boundedWrite "{"
  before later := if later then boundedWrite ", " else pure true
  colon := boundedWrite ": "
  after := pure true
  closing := boundedWrite "}"

theorem boundedStyle_writes : StyleWrites id False boundedStyle plainMapText where
  opening := boundedWrite_writes "{"
  first := .nil
  later := boundedWrite_writes ", "
  colon := boundedWrite_writes ": "
  after := .nil
  closing := boundedWrite_writes "}"

attribute [local instance] w64 in
/-- A map of two entries just fits; of the text of three, the beginning is written and `Err` returned. -/
example :
    let d : Nat → Eff (List Char) Bool := fun n => boundedWrite (toString n)
    (∃ items : List (Nat × Nat), (∀ e, e ∈ items ↔ lastMatch natEq [(1, 2), (3, 4), (5, 6)] e.1 = some e) ∧ Distinct natEq (items.map (fun e => e.1)) ∧
      WritesWhole id False (debugMapE boundedStyle d d (ScanMap.impl natEq : MapImpl _ Nat _ _) (ScanMap.new natEq [(1, 2), (3, 4), (5, 6)]))
        (wholeText plainMapText (items.map fun e => (toString e.1).toList ++ [':', ' '] ++ (toString e.2).toList))) ∧
    debugMapE boundedStyle d d (ScanMap.impl natEq : MapImpl _ Nat _ _) (ScanMap.new natEq [(1, 2), (3, 4)]) [] = (.ok (some true), "{1: 2, 3: 4}".toList) ∧
    debugMapE boundedStyle d d (ScanMap.impl natEq : MapImpl _ Nat _ _) (ScanMap.new natEq [(1, 2), (3, 4), (5, 6)]) [] =
      (.ok (some false), "{1: 2, 3: 4".toList) := by
  refine ⟨c96_text_map (Built.scan natEq_lawful (LawfulEq'.query natEq_lawful)) boundedStyle_writes (tK := fun k => (toString k).toList)
    (tV := fun v => (toString v).toList) (fun k => boundedWrite_writes _) (fun v => boundedWrite_writes _), ?_, ?_⟩ <;> cbv

attribute [local instance] w64 in
/-- The steps of formatting a set of two elements, with a `Debug` that fails on 2: the bracket at the end is not written. -/
example :
    let d : Nat → Eff (List Char) Bool := fun n => if n = 2 then pure false else boundedWrite (toString n)
    Performs (debugSetIterE boundedStyle d ⟨[(1, ()), (2, ()), (3, ())]⟩) (steps boundedStyle [[d 1], [d 2], [d 3]]) ∧
    debugSetIterE boundedStyle d ⟨[(1, ()), (2, ()), (3, ())]⟩ [] = (.ok (some false), "{1, ".toList) := by
  intro d
  exact ⟨(c96_iterators (st := boundedStyle) (K := Nat) (V := Nat) ⟨[]⟩ ⟨[(1, ()), (2, ()), (3, ())]⟩ (fun _ => pure true) (fun _ => pure true) (fun _ => pure true)
    d).2.2.2, by decide⟩

attribute [local instance] w64 in
/-- A difference of two sets. -/
example :
    let d : Nat → Eff (List Char) Bool := fun n => boundedWrite (toString n)
    let eqv : Nat → Nat → Eff (List Char) Bool := fun q k => Eff.lift (.ok (natEq q k))
    ShowsMembers id False plainMapText (fun n => (toString n).toList) natEq
      (debugDifferenceE boundedStyle d (DifferenceE.new (scanSetE eqv [1, 2, 3]) (scanSetE eqv [2]))) (fun y => Among natEq [1, 2, 3] y ∧ ¬ Among natEq [2] y)
      (scanSetE eqv [1, 2, 3]).items ∧
    debugDifferenceE boundedStyle d (DifferenceE.new (scanSetE eqv [1, 2, 3]) (scanSetE eqv [2])) [] = (.ok (some true), "{1, 3}".toList) := by
  intro d eqv
  have h : ∀ xs, IsSetE (Looks id False) natEq (Among natEq xs) (scanSetE eqv xs) := by
    intro xs
    obtain ⟨c, h1, h2⟩ := setViewE_isSetE (relQuiet (List Char)) (S := ScanMap.searchE eqv) (I := ScanMap.impl natEq)
      (Built.scan (es := unitEntries xs) natEq_lawful (LawfulEq'.query natEq_lawful)) (.scan fun _ _ _ => rfl)
    exact ⟨c, fun y w => by have h1 : _ = _ := h1 y w; exact ⟨congrArg Prod.snd h1, .inr (congrArg Prod.fst h1), fun _ => congrArg Prod.fst h1⟩, h2⟩
  exact ⟨(c96_text_operations natEq_lawful (h _) (h _) boundedStyle_writes (fun y => boundedWrite_writes _)).2.2, by decide⟩

attribute [local instance] w64 in
/-- The steps of formatting a map of two entries, with any `Debug` of keys and values. -/
example (st : DebugStyle Nat) (dK dV : Nat → Eff Nat Bool) :
    Performs (debugMapE st dK dV (ScanMap.impl natEq : MapImpl _ Nat _ _) (ScanMap.new natEq [(1, 2), (3, 4)]))
      [st.opening, st.before false, dK 1, st.colon, dV 2, st.after, st.before true, dK 3, st.colon, dV 4, st.after, st.closing] := by
  obtain ⟨items, s', h1, h2, -⟩ := (c96_steps (st := st) (T := Nat)).1
    (Built.scan (mt := natEq) (es := [(1, 2), (3, 4)]) natEq_lawful (LawfulEq'.query natEq_lawful)) dK dV
  have hi : [(1, 2), (3, 4)] = items := yields_walks (walksM_of_walks walks_mapIter) h1 trivial
  subst hi
  exact h2

attribute [local instance] w64 in
/-- Lookups that say `true` every other time and count in the state of the program, in which the sink counts what is written: formatting ends. -/
example :
    let flip : Nat → Nat → Eff Nat Bool := fun _ _ n => (.ok (n % 2 == 0), n + 1)
    let st : DebugStyle Nat := ⟨fun n => (.ok true, n + 1), fun _ n => (.ok (n != 9), n + 1), pure true, pure true, fun n => (.ok true, n + 1)⟩
    let a := scanSetE flip [1, 2, 3]
    let b := scanSetE flip [5]
    FormatsSafely (debugUnionE st (fun _ n => (.ok true, n + 3)) (UnionE.new a b)) ∧
    debugUnionE st (fun _ n => (.ok true, n + 3)) (UnionE.new a b) 0 = (.ok (some false), 13) := by
  intro flip st a b
  have h : ∀ xs, AnySetE (scanSetE flip xs) := fun xs => ⟨_, _, _, _, .scan (fun mt => ⟨_, .scan mt _, .refl⟩) (fun _ _ _ => NoUb.ok _), rfl⟩
  exact ⟨(c96_memory_safe (h _) (h _) (fun _ => NoUb.ok _) (fun _ _ => NoUb.ok _) (fun _ => NoUb.ok _) (fun _ => NoUb.ok _) (fun _ _ => NoUb.ok _)).1, rfl⟩

end Frozen.Props
