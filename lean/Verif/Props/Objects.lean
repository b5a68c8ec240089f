import Mathlib.Data.List.Forall2
import Verif.Props.History
import Verif.Props.ObjectSpec

/-!
# C84: which traits are the types of objects, and what calls through objects do
-/

namespace Frozen.Props

open Frozen.Spec Frozen.Model

variable {M Q K V : Type}

/-- A trait with a given name, of which there is one. -/
theorem compatible_inv {ts : List TraitDecl} {t : TraitDecl} (hu : ∀ t' ∈ ts, t'.name = t.name → t' = t) (h : DynCompatible ts t.name) :
    (∀ s ∈ t.supers, DynCompatible ts s.name) ∧ (∀ s ∈ t.supers, ∀ a ∈ s.args, ¬ HasSelf a) ∧ t.consts = [] ∧
      (∀ a ∈ t.types, a.generics = []) ∧ ∀ f ∈ t.fns, Dispatchable f ∨ NotForObjects f := by
  generalize hn : t.name = n at h
  cases h with
  | intro t' hd h1 h2 h3 h4 h5 =>
    obtain rfl := hu t' hd hn.symm
    exact ⟨h1, h2, h3, h4, h5⟩

/-- The traits at hand. -/
abbrev allTraits : List TraitDecl := crateTraits ++ stdTraits

theorem allTraits_unique : ∀ t ∈ allTraits, ∀ t' ∈ allTraits, t'.name = t.name → t' = t := by decide +kernel

instance decHasSelf : DecidablePred HasSelf
  | .self => isTrue trivial
  | .own _ => isFalse id
  | .name _ => isFalse id
  | .of f x => @instDecidableOr _ _ (decHasSelf f) (decHasSelf x)

instance : DecidablePred Dispatchable := fun f => by unfold Dispatchable; infer_instance

instance : DecidablePred NotForObjects := fun f => by unfold NotForObjects; infer_instance

theorem sized_incompatible : ¬ DynCompatible allTraits "Sized" := by
  intro h
  generalize hn : "Sized" = n at h
  cases h with
  | intro t hd => exact absurd hn ((by decide +kernel : ∀ t ∈ allTraits, "Sized" ≠ t.name) t hd)

theorem len_compatible : DynCompatible allTraits "Len" :=
  .intro lenDecl (by decide +kernel) (by simp [lenDecl]) (by decide) rfl (by decide) (by decide +kernel)

theorem mapQuery_compatible : DynCompatible allTraits "MapQuery" :=
  .intro mapQueryDecl (by decide +kernel) (by simpa [mapQueryDecl] using len_compatible) (by decide) rfl (by decide) (by decide +kernel)

theorem setQuery_compatible : DynCompatible allTraits "SetQuery" :=
  .intro setQueryDecl (by decide +kernel) (by simpa [setQueryDecl] using len_compatible) (by decide) rfl (by decide) (by decide +kernel)

theorem mapIteration_incompatible : ¬ DynCompatible allTraits "MapIteration" := fun h =>
  absurd (compatible_inv (t := mapIterationDecl) (allTraits_unique _ (by decide +kernel)) h).2.2.2.1 (by decide)

theorem setIteration_incompatible : ¬ DynCompatible allTraits "SetIteration" := fun h =>
  absurd (compatible_inv (t := setIterationDecl) (allTraits_unique _ (by decide +kernel)) h).2.2.2.1 (by decide)

theorem mapExtras_incompatible : ¬ DynCompatible allTraits "MapExtras" := fun h =>
  absurd (compatible_inv (t := mapExtrasDecl) (allTraits_unique _ (by decide +kernel)) h).2.2.2.2 (by decide +kernel)

theorem clone_incompatible : ¬ DynCompatible allTraits "Clone" := fun h =>
  sized_incompatible ((compatible_inv (t := { name := "Clone", supers := [{ name := "Sized" }], fns := [{ name := "clone", receiver := .ref, result := .self }] })
    (allTraits_unique _ (by decide +kernel)) h).1 _ (List.mem_singleton.mpr rfl))

theorem copy_incompatible : ¬ DynCompatible allTraits "Copy" := fun h =>
  clone_incompatible ((compatible_inv (t := { name := "Copy", supers := [{ name := "Clone" }] })
    (allTraits_unique _ (by decide +kernel)) h).1 _ (List.mem_singleton.mpr rfl))

/-- **C84.**  `MapQuery` and `SetQuery` are the types of objects, as documented, and the objects have all of their functions. -/
theorem c84_query_partial :
    (DynCompatible allTraits "MapQuery" ∧ ∀ f ∈ ["get", "get_mut", "contains_key", "len", "is_empty"], Callable allTraits "MapQuery" f) ∧
    (DynCompatible allTraits "SetQuery" ∧ ∀ f ∈ ["contains", "len", "is_empty"], Callable allTraits "SetQuery" f) := by
  have hl : ∀ f ∈ lenDecl.fns, Callable allTraits "Len" f.name := fun f hf =>
    .own lenDecl (by decide +kernel) f hf ((by decide +kernel : ∀ f ∈ lenDecl.fns, Dispatchable f) f hf)
  have hm : ∀ f ∈ mapQueryDecl.fns, Callable allTraits "MapQuery" f.name := fun f hf =>
    .own mapQueryDecl (by decide +kernel) f hf ((by decide +kernel : ∀ f ∈ mapQueryDecl.fns, Dispatchable f) f hf)
  have hs : ∀ f ∈ setQueryDecl.fns, Callable allTraits "SetQuery" f.name := fun f hf =>
    .own setQueryDecl (by decide +kernel) f hf ((by decide +kernel : ∀ f ∈ setQueryDecl.fns, Dispatchable f) f hf)
  have hml : ∀ f ∈ lenDecl.fns, Callable allTraits "MapQuery" f.name := fun f hf =>
    .inherited mapQueryDecl (by decide +kernel) { name := "Len" } (by decide) _ (hl f hf)
  have hsl : ∀ f ∈ lenDecl.fns, Callable allTraits "SetQuery" f.name := fun f hf =>
    .inherited setQueryDecl (by decide +kernel) { name := "Len" } (by decide) _ (hl f hf)
  simp only [lenDecl, mapQueryDecl, setQueryDecl, List.forall_mem_cons, List.not_mem_nil, false_imp_iff, implies_true, and_true] at hm hs hml hsl
  refine ⟨⟨mapQuery_compatible, ?_⟩, setQuery_compatible, ?_⟩ <;>
    simp only [List.forall_mem_cons, List.not_mem_nil, false_imp_iff, implies_true, and_true]
  · exact ⟨hm.1, hm.2.1, hm.2.2, hml.1, hml.2⟩
  · exact ⟨hs, hsl.1, hsl.2⟩

/-- **C84, violated.**  `MapIteration` and `SetIteration`, which are documented as dyn compatible, are not, and for that reason neither are `Map` and
`Set`. -/
theorem c84_violated :
    ¬ DynCompatible allTraits "MapIteration" ∧ ¬ DynCompatible allTraits "SetIteration" ∧ ¬ DynCompatible allTraits "Map" ∧
      ¬ DynCompatible allTraits "Set" :=
  ⟨mapIteration_incompatible, setIteration_incompatible,
   fun h => mapIteration_incompatible ((compatible_inv (t := mapDecl) (allTraits_unique _ (by decide +kernel)) h).1
     { name := "MapIteration", args := [.name "K", .name "V"] } (by decide)),
   fun h => setIteration_incompatible ((compatible_inv (t := setDecl) (allTraits_unique _ (by decide +kernel)) h).1
     { name := "SetIteration", args := [.name "T"] } (by decide))⟩

/-- **C84, exactly.**  Of the traits of the crate, these six are the types of objects. -/
theorem c84_compatible_iff (t : TraitDecl) (h : t ∈ crateTraits) :
    DynCompatible allTraits t.name ↔ t.name ∈ ["Len", "MapQuery", "SetQuery", "SetExtras", "SetOps", "Hasher"] := by
  simp only [crateTraits, List.mem_cons, List.not_mem_nil, or_false] at h
  have yes {n : String} (hn : n ∈ ["Len", "MapQuery", "SetQuery", "SetExtras", "SetOps", "Hasher"]) (hd : DynCompatible allTraits n) :
      DynCompatible allTraits n ↔ n ∈ ["Len", "MapQuery", "SetQuery", "SetExtras", "SetOps", "Hasher"] := ⟨fun _ => hn, fun _ => hd⟩
  have no {n : String} (hn : n ∉ ["Len", "MapQuery", "SetQuery", "SetExtras", "SetOps", "Hasher"]) (hd : ¬ DynCompatible allTraits n) :
      DynCompatible allTraits n ↔ n ∈ ["Len", "MapQuery", "SetQuery", "SetExtras", "SetOps", "Hasher"] := ⟨fun h => absurd h hd, fun h => absurd h hn⟩
  rcases h with rfl | rfl | rfl | rfl | rfl | rfl | rfl | rfl | rfl | rfl | rfl | rfl | rfl
  · exact yes (by decide) len_compatible
  · exact yes (by decide) mapQuery_compatible
  · exact no (by decide) mapIteration_incompatible
  · exact no (by decide) mapExtras_incompatible
  · exact no (by decide) c84_violated.2.2.1
  · exact yes (by decide) setQuery_compatible
  · exact no (by decide) setIteration_incompatible
  · exact yes (by decide) (.intro setExtrasDecl (by decide +kernel) (by simp [setExtrasDecl]) (by decide) rfl (by decide) (by decide +kernel))
  · exact no (by decide) c84_violated.2.2.2
  · exact yes (by decide) (.intro setOpsDecl (by decide +kernel) (by simp [setOpsDecl]) (by decide) rfl (by decide) (by decide +kernel))
  · exact yes (by decide) (.intro hasherDecl (by decide +kernel) (by simp [hasherDecl]) (by decide) rfl (by decide) (by decide +kernel))
  · exact no (by decide) (fun h => copy_incompatible ((compatible_inv (t := scalarDecl) (allTraits_unique _ (by decide +kernel)) h).1
      { name := "Copy" } (by decide)))
  · exact no (by decide) (fun h => absurd (compatible_inv (t := magnitudeDecl) (allTraits_unique _ (by decide +kernel)) h).2.2.1 (by decide))

/-- An object shows what a dictionary shows, whatever is done with it. -/
def Shows (o : DynMapQuery Q V) (d : SomeDict Q V) : Prop :=
  ∃ (M : Type) (I : MapImpl M Q d.K V) (m : M), o = I.object m ∧ ∀ ops : List (Op Q d.K V),
    (I.run (fun _ _ => true) m ops).1 = (dictRun (fun _ _ => true) d.mt d.entries ops).1

/-- Forget the type of keys in what is observed of one object. -/
theorem shows_step {o : DynMapQuery Q V} {d : SomeDict Q V} (h : Shows o d) (op : QueryOp Q V) :
    (o.step op).1 = (d.step op).1 ∧ Shows (o.step op).2 (d.step op).2 := by
  obtain ⟨M, I, m, rfl, h⟩ := h
  have next (op : Op Q d.K V) : (I.step (fun _ _ => true) m op).1 = (dictStep (fun _ _ => true) d.mt d.entries op).1 ∧
      ∀ ops, (I.run (fun _ _ => true) (I.step (fun _ _ => true) m op).2 ops).1 =
        (dictRun (fun _ _ => true) d.mt (dictStep (fun _ _ => true) d.mt d.entries op).2 ops).1 := by
    refine ⟨?_, fun ops => ?_⟩
    · have := h [op]
      simpa [MapImpl.run, dictRun] using this
    · have := h (op :: ops)
      simp only [MapImpl.run, dictRun, List.cons.injEq] at this
      exact this.2
  cases op with
  | get q =>
    refine ⟨?_, M, I, m, rfl, h⟩
    have := (next (.get q)).1
    simp only [MapImpl.step, dictStep] at this
    simp only [DynMapQuery.step, MapImpl.object, SomeDict.step]
    cases hr : I.get m q with
    | ok v => rw [hr] at this; simpa [Out.ofRes] using this
    | error e => rw [hr] at this; cases e <;> simp [Out.ofRes, Out.ofFault] at this
  | containsKey q =>
    refine ⟨?_, M, I, m, rfl, h⟩
    have := (next (.containsKey q)).1
    simp only [MapImpl.step, dictStep] at this
    simp only [DynMapQuery.step, MapImpl.object, SomeDict.step]
    cases hr : I.containsKey m q with
    | ok v => rw [hr] at this; simpa [Out.ofRes] using this
    | error e => rw [hr] at this; cases e <;> simp [Out.ofRes, Out.ofFault] at this
  | len =>
    refine ⟨?_, M, I, m, rfl, h⟩
    have := (next .len).1
    simpa [MapImpl.step, dictStep, DynMapQuery.step, MapImpl.object, SomeDict.step] using this
  | isEmpty =>
    refine ⟨?_, M, I, m, rfl, h⟩
    have := (next .len).1
    simp only [MapImpl.step, dictStep, Out.nat.injEq] at this
    simp [DynMapQuery.step, MapImpl.object, SomeDict.step, MapImpl.isEmpty, this]
  | update q f =>
    obtain ⟨h1, h2⟩ := next (.update q f)
    simp only [MapImpl.step, dictStep] at h1 h2
    simp only [DynMapQuery.step, MapImpl.object, SomeDict.step]
    cases hr : I.getMut m q with
    | error e => rw [hr] at h1; cases e <;> simp [Out.ofFault] at h1
    | ok p =>
      rw [hr] at h1 h2
      cases p with
      | none => exact ⟨by simpa using h1, M, I, m, rfl, h2⟩
      | some i => exact ⟨by simpa using h1, M, I, I.modifyRef m i f, rfl, h2⟩

theorem shows_run {os : List (DynMapQuery Q V)} {ds : List (SomeDict Q V)} (h : List.Forall₂ Shows os ds) (prog : List (Nat × QueryOp Q V)) :
    runObjects os prog = runDicts ds prog := by
  induction prog generalizing os ds with
  | nil => rfl
  | cons p r ih =>
    obtain ⟨i, op⟩ := p
    have hg : (os[i]? = none ∧ ds[i]? = none) ∨ ∃ o d, os[i]? = some o ∧ ds[i]? = some d ∧ Shows o d := by
      clear ih
      induction h generalizing i with
      | nil => exact .inl ⟨rfl, rfl⟩
      | cons hod _ ih =>
        cases i with
        | zero => exact .inr ⟨_, _, rfl, rfl, hod⟩
        | succ i => simpa using ih i
    have hset (o : DynMapQuery Q V) (d : SomeDict Q V) (hod : Shows o d) : List.Forall₂ Shows (os.set i o) (ds.set i d) := by
      clear ih hg
      induction h generalizing i with
      | nil => exact .nil
      | cons hod' h' ih =>
        cases i with
        | zero => exact .cons hod h'
        | succ i => exact .cons hod' (ih i)
    rcases hg with ⟨h1, h2⟩ | ⟨o, d, h1, h2, hod⟩
    · simp only [runObjects, runDicts, h1, h2, ih h]
    · obtain ⟨e1, e2⟩ := shows_step hod op
      simp only [runObjects, runDicts, h1, h2, e1, ih (hset _ _ e2)]

/-- **C84, calls.**  Code that works on a slice of `dyn MapQuery<Q, V>` objects, made from maps of any types, sees what it would see of the dictionaries
with the entries that the maps were built from: which map type is behind an object, and what type its keys have, does not show. -/
theorem c84_calls [Target] {os : List (DynMapQuery Q V)}
    (h : ∀ o ∈ os, ∃ (K M : Type) (I : MapImpl M Q K V) (m : M) (eqK : K → K → Bool) (mt : Q → K → Bool) (es : List (K × V)),
      Built eqK mt es I m ∧ o = I.object m) :
    ∃ ds : List (SomeDict Q V),
      List.Forall₂ (fun o d => ∃ (M : Type) (I : MapImpl M Q d.K V) (m : M) (eqK : d.K → d.K → Bool) (es : List (d.K × V)),
        Built eqK d.mt es I m ∧ o = I.object m ∧ (∀ e, e ∈ d.entries ↔ lastMatch eqK es e.1 = some e) ∧
          Distinct eqK (d.entries.map (fun e => e.1))) os ds ∧
      ∀ prog, runObjects os prog = runDicts ds prog := by
  suffices hd : ∃ ds : List (SomeDict Q V),
      List.Forall₂ (fun o d => ∃ (M : Type) (I : MapImpl M Q d.K V) (m : M) (eqK : d.K → d.K → Bool) (es : List (d.K × V)),
        Built eqK d.mt es I m ∧ o = I.object m ∧ (∀ e, e ∈ d.entries ↔ lastMatch eqK es e.1 = some e) ∧
          Distinct eqK (d.entries.map (fun e => e.1))) os ds ∧ List.Forall₂ Shows os ds by
    obtain ⟨ds, h1, h2⟩ := hd
    exact ⟨ds, h1, fun prog => shows_run h2 prog⟩
  induction os with
  | nil => exact ⟨[], .nil, .nil⟩
  | cons o os ih =>
    obtain ⟨ds, h1, h2⟩ := ih (fun o ho => h o (List.mem_cons_of_mem _ ho))
    obtain ⟨K, M, I, m, eqK, mt, es, hb, rfl⟩ := h o (List.mem_cons_self ..)
    obtain ⟨d, hd, hdist, hrun⟩ := c24_any_history hb (eqQ := fun _ _ => true) (fun _ _ _ _ _ => rfl)
    exact ⟨⟨K, mt, d⟩ :: ds, .cons ⟨M, I, m, eqK, es, hb, rfl, hd, hdist⟩ h1, .cons ⟨M, I, m, rfl, fun ops => (hrun ops).1⟩ h2⟩

/-- Two maps of different types, one that finds keys by their last digit and one that is ordered, behind objects of one type. -/
def demoObjects : List (DynMapQuery Nat String) :=
  [(ScanMap.impl mod10Eq).object (ScanMap.new mod10Eq [(3, "a"), (4, "b"), (13, "c")]),
   (FzOrderedMap.impl natCmp).object ⟨[(5, "y"), (2, "x")]⟩]

example [Target] : ∃ ds : List (SomeDict Nat String), ds.length = 2 ∧ ∀ prog, runObjects demoObjects prog = runDicts ds prog := by
  have hm : FzOrderedMap.new natCmp [(2, "x"), (5, "w"), (5, "y")] = .ok ⟨[(5, "y"), (2, "x")]⟩ := by cbv
  obtain ⟨ds, h1, h2⟩ := c84_calls (os := demoObjects) (by
    simp only [demoObjects, List.forall_mem_cons, List.not_mem_nil, false_imp_iff, implies_true, and_true]
    exact ⟨⟨_, _, _, _, _, _, _, Built.scan mod10Eq_lawful mod10Eq_query, rfl⟩,
      ⟨_, _, _, _, _, _, _, Built.fzOrdered natCmp_lawful natCmp_query hm, rfl⟩⟩)
  exact ⟨ds, h1.length_eq.symm, h2⟩

example : runObjects demoObjects [(0, .get 23), (1, .update 5 (· ++ "!")), (1, .get 5), (0, .containsKey 5), (1, .len), (0, .isEmpty), (1, .get 23)] =
    [.value (some "c"), .value (some "y"), .value (some "y!"), .bool false, .nat 2, .bool false, .value none] := by decide +kernel

end Frozen.Props
