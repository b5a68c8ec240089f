import Verif.Lemmas.Effects
import Verif.Lemmas.EffectBuild
import Verif.Lemmas.EffectBuildSafe
import Verif.Props.EffectMapSpec
import Verif.Props.Equality
import Verif.Props.Clones

/-!
# Comparing and cloning maps with user code that has effects
-/

namespace Frozen.Props

open Frozen.Spec Frozen.Model

variable {W M M' Q K V V' : Type}

theorem Sense.rel {R : (A : Type) → Eff W A → Res A → Prop} (h : Sense R) : ∃ E : EffRel W, ∀ A x r, E.R A x r = R A x r := by
  cases h with
  | panicsOr => exact ⟨relPanicsOr W, fun _ _ _ => rfl⟩
  | always => exact ⟨relAlways W, fun _ _ _ => rfl⟩
  | marks bad => exact ⟨relMarks bad, fun _ _ _ => rfl⟩

theorem Sense.eq {R : (A : Type) → Eff W A → Res A → Prop} (h : Sense R) : ∃ E : EffRel W, R = fun A x r => E.R A x r := by
  obtain ⟨E, h1⟩ := h.rel
  exact ⟨E, by funext A x r; rw [h1]⟩

/-- Code that does nothing to the state. -/
def relQuiet (W : Type) : EffRel W where
  R A x r := Quiet x r
  lift r := fun _ => rfl
  bind := by
    intro A B x r f g hx hf w
    show Eff.bind x f w = _
    unfold Eff.bind
    rw [hx w]
    cases r with
    | ok a => exact hf a rfl w
    | error e => rfl

/-- What a search finds in a map made from `es`. -/
theorem EffRel.found [Target] (E : EffRel W) {eqK : K → K → Bool} {es : List (K × V)} {I : MapImpl M K K V} {m : M} {S : M → K → Eff W (Option Nat)}
    (hb : Built eqK eqK es I m) (hS : RunsWith (fun A x r => E.R A x (.ok r)) I S) (k : K) :
    ∃ p, E.R _ (S m k) (.ok p) ∧ I.found m p = lastMatch eqK es k := by
  obtain ⟨Inv, F⟩ := hb.facts
  obtain ⟨p, h1, h2, h3⟩ := F.lookups.getMut k
  have h4 := hS.rel E m k
  rw [h1] at h4
  refine ⟨p, h4, ?_⟩
  cases p with
  | none => rw [h2.1 rfl]; rfl
  | some i => rw [← h3 i rfl]; rfl

theorem EffRel.allEntriesIn [Target] (E : EffRel W) {eqK : K → K → Bool} {es' : List (K × V')} {J : MapImpl M' K K V'} {m' : M'}
    {S : M' → K → Eff W (Option Nat)} (hb : Built eqK eqK es' J m') (hS : RunsWith (fun A x r => E.R A x (.ok r)) J S) {eqV : V → V' → Bool}
    {eqE : V → V' → Eff W Bool} (he : ∀ v v', E.R Bool (eqE v v') (.ok (eqV v v'))) (l : List (K × V)) :
    E.R _ (allEntriesInE J S eqE m' l) (Model.allEntriesIn J eqV m' l) := by
  obtain ⟨Inv, F⟩ := hb.facts
  induction l with
  | nil => exact E.pure _
  | cons e l ih =>
    obtain ⟨p, h1, h2⟩ := E.found hb hS e.1
    unfold allEntriesInE Model.allEntriesIn
    refine E.bindOk h1 ?_
    rw [F.lookups.get e.1]
    rw [h2]
    cases lastMatch eqK es' e.1 with
    | none => exact E.pure _
    | some e' =>
      refine E.bindOk (he e.2 e'.2) ?_
      show E.R _ (if eqV e.2 e'.2 = true then _ else _) (if eqV e.2 e'.2 = true then _ else _)
      exact E.ite (fun _ => ih) (fun _ => E.pure _)

theorem allEntriesInE_safe {J : MapImpl M' K K V'} {S : M' → K → Eff W (Option Nat)} {m' : M'} {eqE : V → V' → Eff W Bool} (hS : ∀ k, SafeCode (S m' k))
    (he : ∀ v v', SafeCode (eqE v v')) : ∀ l : List (K × V), SafeCode (allEntriesInE J S eqE m' l)
  | [] => fun _ => NoUb.ok _
  | e :: l => by
    unfold allEntriesInE
    refine SafeCode.bind (hS e.1) (fun r => ?_)
    cases J.found m' r with
    | none => exact fun _ => NoUb.ok _
    | some e' =>
      refine SafeCode.bind (he _ _) (fun c => ?_)
      cases c with
      | true => exact allEntriesInE_safe hS he l
      | false => exact fun _ => NoUb.ok _

/-- The comparisons of values that `==` makes. -/
theorem allEntriesInE_record [Target] {eqK : K → K → Bool} {es' : List (K × V')} {J : MapImpl M' K K V'} {m' : M'}
    {S : M' → K → Eff (List (V × V')) (Option Nat)} (hb : Built eqK eqK es' J m') (hS : RunsWith (fun _ x r => Quiet x (.ok r)) J S) (eqV : V → V' → Bool) :
    ∀ l : List (K × V), ∃ c ps, (∀ w, allEntriesInE J S (recordEq eqV) m' l w = (.ok c, w ++ ps)) ∧ ValuesCompared eqK eqV l es' ps ∧
      (c = true → ps.length = l.length) ∧ Model.allEntriesIn J eqV m' l = .ok c
  | [] => ⟨true, [], fun w => by rw [List.append_nil]; rfl, ⟨fun i p h => by simp at h, fun i p h => by simp at h⟩, fun _ => rfl, rfl⟩
  | e :: l => by
    obtain ⟨p, h1, h2⟩ := (relQuiet _).found hb hS e.1
    have h1 : Quiet (S m' e.1) (.ok p) := h1
    obtain ⟨Inv, F⟩ := hb.facts
    have hget := F.lookups.get e.1
    unfold allEntriesInE Model.allEntriesIn
    have hstep : ∀ {B : Type} (f : Option Nat → Eff (List (V × V')) B) w, (S m' e.1 >>= f) w = f p w := by
      intro B f w
      show Eff.bind _ f w = _
      unfold Eff.bind
      rw [h1 w]
    simp only [hstep, h2, hget]
    cases hm : lastMatch eqK es' e.1 with
    | none => exact ⟨false, [], fun w => by rw [List.append_nil]; rfl, ⟨fun i p h => by simp at h, fun i p h => by simp at h⟩, (fun h => by cases h), rfl⟩
    | some e' =>
      cases hc : eqV e.2 e'.2 with
      | false =>
        refine ⟨false, [(e.2, e'.2)], fun w => ?_, ⟨fun i p h => ?_, fun i p h hi => ?_⟩, (fun h => by cases h), ?_⟩
        · show Eff.bind (recordEq eqV e.2 e'.2) _ w = _
          simp only [Eff.bind, recordEq, hc]
          rfl
        · cases i with
          | zero => simp at h; subst h; exact ⟨e.1, e'.1, rfl, hm⟩
          | succ i => simp at h
        · simp at hi
        · show (if eqV e.2 e'.2 = true then _ else _) = _
          rw [hc]; rfl
      | true =>
        obtain ⟨c, ps, g1, g2, g3, g4⟩ := allEntriesInE_record hb hS eqV l
        refine ⟨c, (e.2, e'.2) :: ps, fun w => ?_, ⟨fun i p h => ?_, fun i p h hi => ?_⟩, (fun h => by simp [g3 h]), ?_⟩
        · show Eff.bind (recordEq eqV e.2 e'.2) _ w = _
          simp only [Eff.bind, recordEq, hc, if_true, g1, List.append_assoc, List.singleton_append]
        · cases i with
          | zero => simp at h; subst h; exact ⟨e.1, e'.1, rfl, hm⟩
          | succ i => exact g2.pair i p (by simpa using h)
        · cases i with
          | zero => simp at h; subst h; exact hc
          | succ i => exact g2.before i p (by simpa using h) (by simpa using hi)
        · show (if eqV e.2 e'.2 = true then _ else _) = _
          rw [hc]; exact g4

/-! ## Clones -/

section

variable (E : EffRel W) {ck : K → Eff W K} {cv : V → Eff W V} {f : K → K} {g : V → V}

theorem EffRel.cloneEntries {es : List (K × V)} (h : ClonesE (fun A x r => E.R A x r) ck cv f g es) :
    E.R _ (Model.mapE (cloneEntryE ck cv) es) (.ok (es.map fun e => (f e.1, g e.2))) := by
  induction es with
  | nil => exact E.pure _
  | cons e es ih =>
    obtain ⟨h1, h2⟩ := h e (by simp)
    have h3 : E.R _ (cloneEntryE ck cv e) (.ok (f e.1, g e.2)) := E.bindOk h1 (E.bindOk h2 (E.pure _))
    exact E.bindOk h3 (E.bindOk (ih fun e' he => h e' (List.mem_cons_of_mem _ he)) (E.pure _))

/-- `Clone` without effects that gives the same clones. -/
theorem clonesTo_pure (es : List (K × V)) : ClonesTo (fun k => .ok (f k)) (fun v => .ok (g v)) f g es := fun _ _ => ⟨rfl, rfl⟩

theorem EffRel.scanClone {m : ScanMap K V} (h : ClonesE (fun A x r => E.R A x r) ck cv f g m.entries) :
    E.R _ (m.cloneE ck cv) (m.clone (fun k => .ok (f k)) (fun v => .ok (g v))) := by
  simp only [ScanMap.clone, cloneEntries_ok (clonesTo_pure m.entries)]
  exact E.bindOk (E.cloneEntries h) (E.pure _)

theorem EffRel.eytzingerClone {m : EytzingerMap K V} (h : ClonesE (fun A x r => E.R A x r) ck cv f g m.entries) :
    E.R _ (m.cloneE ck cv) (m.clone (fun k => .ok (f k)) (fun v => .ok (g v))) := by
  simp only [EytzingerMap.clone, cloneEntries_ok (clonesTo_pure m.entries)]
  exact E.bindOk (E.cloneEntries h) (E.pure _)

theorem EffRel.denseClone {m : DenseMap K V} (h : ClonesE (fun A x r => E.R A x r) ck cv f g m.entries) :
    E.R _ (m.cloneE ck cv) (m.clone (fun k => .ok (f k)) (fun v => .ok (g v))) := by
  simp only [DenseMap.clone, cloneEntries_ok (clonesTo_pure m.entries)]
  exact E.bindOk (E.cloneEntries h) (E.pure _)

theorem EffRel.sparseClone {m : SparseMap K V} (h : ClonesE (fun A x r => E.R A x r) ck cv f g m.entries) :
    E.R _ (m.cloneE ck cv) (m.clone (fun k => .ok (f k)) (fun v => .ok (g v))) := by
  simp only [SparseMap.clone, cloneEntries_ok (clonesTo_pure m.entries)]
  exact E.bindOk (E.cloneEntries h) (E.pure _)

theorem EffRel.hashClone {m : HashMap K V} (h : ClonesE (fun A x r => E.R A x r) ck cv f g m.table.entries) :
    E.R _ (m.cloneE ck cv) (m.clone (fun k => .ok (f k)) (fun v => .ok (g v))) := by
  simp only [HashMap.clone, HashTable.clone, cloneEntries_ok (clonesTo_pure m.table.entries)]
  exact E.bindOk (E.cloneEntries h) (E.pure _)

theorem EffRel.hashNCClone {m : HashMapNC K V} (h : ClonesE (fun A x r => E.R A x r) ck cv f g m.table.entries) :
    E.R _ (m.cloneE ck cv) (m.clone (fun k => .ok (f k)) (fun v => .ok (g v))) := by
  simp only [HashMapNC.clone, HashTableNC.clone, cloneEntries_ok (clonesTo_pure m.table.entries)]
  exact E.bindOk (E.cloneEntries h) (E.pure _)

theorem EffRel.scalarClone {m : FzScalarMap K V} (h : ClonesE (fun A x r => E.R A x r) ck cv f g m.entries) :
    E.R _ (m.cloneE ck cv) (m.clone (fun k => .ok (f k)) (fun v => .ok (g v))) := by
  cases m with
  | hash m => exact E.bind (E.hashClone h) (fun _ _ => E.pure _)
  | dense m => exact E.bind (E.denseClone h) (fun _ _ => E.pure _)
  | sparse m => exact E.bind (E.sparseClone h) (fun _ _ => E.pure _)

theorem EffRel.stringClone {g : V → V} {m : FzStringMap V} {cv : V → Eff W V} (h : ∀ e ∈ m.entries, E.R V (cv e.2) (.ok (g e.2))) :
    E.R _ (m.cloneE cv) (m.clone (fun v => .ok (g v))) := by
  have h' : ClonesE (fun A x r => E.R A x r) (fun k => Pure.pure k) cv (fun k => k) g m.entries := fun e he => ⟨E.pure _, h e he⟩
  cases m with
  | leftRange r m => exact E.bind (E.hashClone h') (fun _ _ => E.pure _)
  | rightRange r m => exact E.bind (E.hashClone h') (fun _ _ => E.pure _)
  | hash m => exact E.bind (E.hashClone h') (fun _ _ => E.pure _)

theorem EffRel.inlineClone {m : InlineMap K V} (h : ClonesE (fun A x r => E.R A x r) ck cv f g m.entries) :
    E.R _ (m.cloneE ck cv) (m.clone (fun k => .ok (f k)) (fun v => .ok (g v))) := by
  obtain ⟨sz, r⟩ := m
  refine E.bind (?_ : E.R _ (r.cloneE ck cv) (r.clone _ _)) (fun _ _ => E.pure _)
  cases r with
  | scan m => exact E.bind (E.scanClone h) (fun _ _ => E.pure _)
  | eytzinger m => exact E.bind (E.eytzingerClone h) (fun _ _ => E.pure _)
  | dense m => exact E.bind (E.denseClone h) (fun _ _ => E.pure _)
  | sparse m => exact E.bind (E.sparseClone h) (fun _ _ => E.pure _)
  | hash hs m => exact E.bind (E.hashClone h) (fun _ _ => E.pure _)
  | hashNC hs m => exact E.bind (E.hashNCClone h) (fun _ _ => E.pure _)

end

/-! ## Clones by arbitrary functions -/

theorem same_of_length {T A : Type} {P : List T → A} (hP : ∀ (F : T → T) l, P (l.map F) = P l) {l l' : List T} (h : l'.length = l.length) : P l' = P l := by
  cases l with
  | nil => rw [List.eq_nil_of_length_eq_zero h]
  | cons x r =>
    rw [← hP (fun _ => x) l', ← hP (fun _ => x) (x :: r)]
    simp only [List.map_const', h]

theorem findMut_length {T : Type} (t : HashTable T) {es : List T} (h : es.length = t.entries.length) (c : Nat) :
    HashTable.findMut ⟨t.slots, es, t.mask⟩ c (fun _ => false) = t.findMut c (fun _ => false) :=
  same_of_length (P := fun l => HashTable.findMut ⟨t.slots, l, t.mask⟩ c (fun _ => false))
    (fun F l => findMut_map F ⟨t.slots, l, t.mask⟩ _ _ (fun _ _ => rfl) c) h

theorem findMutNC_length {T : Type} (t : HashTableNC T) {es : List T} (h : es.length = t.entries.length) (c : Nat) :
    HashTableNC.findMut ⟨t.slots, es, t.mask⟩ c (fun _ => false) = t.findMut c (fun _ => false) :=
  same_of_length (P := fun l => HashTableNC.findMut ⟨t.slots, l, t.mask⟩ c (fun _ => false))
    (fun F l => findMutNC_map F ⟨t.slots, l, t.mask⟩ _ _ (fun _ _ => rfl) c) h

theorem denseGetMut_length (m : DenseMap K V) {es : List (K × V)} (h : es.length = m.entries.length) (qindex : Q → Nat) (q : Q) :
    DenseMap.getMut qindex ⟨m.min, m.max, es⟩ q = m.getMut qindex q :=
  same_of_length (P := fun l => DenseMap.getMut qindex ⟨m.min, m.max, l⟩ q) (fun F l => by
    simp only [DenseMap.getMut, bind, Except.bind, getUnchecked_map]
    cases getUnchecked l (qindex q - m.min) <;> rfl) h

theorem sparseGetMut_length (m : SparseMap K V) {es : List (K × V)} (h : es.length = m.entries.length) (qindex : Q → Nat) (q : Q) :
    SparseMap.getMut qindex ⟨m.min, m.max, m.lookup, es⟩ q = m.getMut qindex q :=
  same_of_length (P := fun l => SparseMap.getMut qindex ⟨m.min, m.max, m.lookup, l⟩ q) (fun F l => by
    simp only [SparseMap.getMut, bind, Except.bind, getUnchecked_map]
    cases getUnchecked m.lookup (qindex q - m.min) with
    | error e => rfl
    | ok i =>
      simp only []
      cases getUnchecked l (i - 1) <;> rfl) h

theorem Sure.cloneEntries {ck : K → Eff W K} {cv : V → Eff W V} (hk : ∀ k, SafeCode (ck k)) (hv : ∀ v, SafeCode (cv v)) (es : List (K × V)) :
    Sure (Model.mapE (cloneEntryE ck cv) es) (fun es' => es'.length = es.length) := by
  induction es with
  | nil => exact Sure.pure rfl
  | cons e es ih =>
    refine Sure.bind (P := fun _ => True) (Sure.bind (Sure.of (hk e.1)) (fun k _ => Sure.bind (Sure.of (hv e.2)) (fun v _ => Sure.pure trivial))) (fun e' _ => ?_)
    exact Sure.bind ih (fun es' h => Sure.pure (by simp [h]))

end Frozen.Props
