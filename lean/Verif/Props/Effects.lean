import Verif.Lemmas.EffectSteps

/-!
# Property theorems: trait functions that panic or keep state (C91)

`Eq`, `Ord`, `Hash`, `Equivalent`, `Comparable` and `Scalar` are code of the user.  Besides answering, it may read and write state of the
program, and panic.  Lookups, and programs that catch panics, are considered with such functions.
-/

namespace Frozen.Props

open Frozen.Spec Frozen.Model

variable {W A M Q K V : Type}

/-- **C91** (functions that may panic).  If the trait functions answer correctly whenever they do not panic, whatever else they do, a lookup panics or
is answered correctly. -/
theorem c91_lookup_or_panic [Target] {eqK : K → K → Bool} {mt : Q → K → Bool} {es : List (K × V)} {I : MapImpl M Q K V} {m : M}
    (hb : Built eqK mt es I m) {S : M → Q → Eff W (Option Nat)} (hS : RunsWith (fun _ x a => PanicsOr x (.ok a)) I S) (q : Q) (w : W) :
    Panics (S m q w).1 ∨
      ∃ r, (S m q w).1 = .ok r ∧ r.bind (fun i => (I.entries m)[i]?) = lastMatch mt es q ∧ ∀ i, r = some i → i < (I.entries m).length := by
  obtain ⟨Inv, F⟩ := hb.facts
  rcases hS.rel (relPanicsOr W) m q w with h | h
  · exact .inl h
  · obtain ⟨p, h1, h2, h3⟩ := F.lookups.getMut q
    refine .inr ⟨p, h.trans h1, ?_, ?_⟩
    · cases p with
      | none => exact (h2.1 rfl).symm
      | some i => exact h3 i rfl
    · intro i hi
      subst hi
      have h4 := F.lawful.getMut m F.inv q
      rw [h1] at h4
      exact (List.findIdx?_eq_some_iff_getElem.mp (Except.ok.inj h4).symm).1

/-- **C91** (functions that do not panic).  If the trait functions answer correctly, whatever they do to the state of the program, every lookup is
answered correctly. -/
theorem c91_lookup [Target] {eqK : K → K → Bool} {mt : Q → K → Bool} {es : List (K × V)} {I : MapImpl M Q K V} {m : M}
    (hb : Built eqK mt es I m) {S : M → Q → Eff W (Option Nat)} (hS : RunsWith (fun _ x a => Always x (.ok a)) I S) (q : Q) (w : W) :
    ∃ r, (S m q w).1 = .ok r ∧ r.bind (fun i => (I.entries m)[i]?) = lastMatch mt es q ∧ ∀ i, r = some i → i < (I.entries m).length := by
  obtain ⟨Inv, F⟩ := hb.facts
  obtain ⟨p, h1, h2, h3⟩ := F.lookups.getMut q
  refine ⟨p, (hS.rel (relAlways W) m q w).trans h1, ?_, ?_⟩
  · cases p with
    | none => exact (h2.1 rfl).symm
    | some i => exact h3 i rfl
  · intro i hi
    subst hi
    have h4 := F.lawful.getMut m F.inv q
    rw [h1] at h4
    exact (List.findIdx?_eq_some_iff_getElem.mp (Except.ok.inj h4).symm).1

/-- **C91** (programs).  A program that catches panics sees a dictionary on which every operation was either performed, or abandoned with a panic and
without any effect; never undefined behaviour.  The keys, and their order, never change. -/
theorem c91_history [Target] {eqK : K → K → Bool} {mt : Q → K → Bool} {es : List (K × V)} {I : MapImpl M Q K V} {m : M} (hb : Built eqK mt es I m)
    {eqQ : Q → Q → Bool} (hc : EqCompatible eqQ mt) {S : M → Q → Eff W (Option Nat)} {eqE : Q → Q → Eff W Bool}
    (hS : RunsWith (fun _ x a => PanicsOr x (.ok a)) I S) (he : ∀ a b, PanicsOr (eqE a b) (.ok (eqQ a b))) :
    ∃ d, (∀ e, e ∈ d ↔ lastMatch eqK es e.1 = some e) ∧ Distinct eqK (d.map (fun e => e.1)) ∧
      ∀ ops w, DictMay eqQ mt d ops (I.runE S eqE m ops w).1 (I.entries (I.runE S eqE m ops w).2.1) ∧
        Out.ub ∉ (I.runE S eqE m ops w).1 ∧
        (I.entries (I.runE S eqE m ops w).2.1).map (fun e => e.1) = d.map (fun e => e.1) := by
  obtain ⟨Inv, F⟩ := hb.facts
  have main : ∀ (ops : List (Op Q K V)) (m : M) (w : W), Inv m →
      DictMay eqQ mt (I.entries m) ops (I.runE S eqE m ops w).1 (I.entries (I.runE S eqE m ops w).2.1) := by
    intro ops
    induction ops with
    | nil => intro m w _; exact .done _
    | cons op ops ih =>
      intro m w hm
      rw [runE_cons]
      rcases (relPanicsOr W).step (fun q => hS.rel (relPanicsOr W) m q) he op w with h | h
      · rw [seen_panics h]
        exact .abandoned (ih m _ hm)
      · rw [h, seen_stepR F.lawful eqQ hm op]
        obtain ⟨h1, h2, h3⟩ := step_sim F.query F.lawful hc hm op
        rw [h1]
        refine .performed ?_
        rw [← h2]
        exact ih _ _ h3
  have noUb : ∀ {d d' : List (K × V)} {ops : List (Op Q K V)} {os : List (Out K V)}, DictMay eqQ mt d ops os d' → Out.ub ∉ os := by
    intro d d' ops os h
    induction h with
    | done => simp
    | @performed d d' op ops os h ih =>
      simp only [List.mem_cons, not_or]
      refine ⟨?_, ih⟩
      cases op <;> simp only [dictStep] <;> try (split <;> simp)
      all_goals simp
    | abandoned h ih => simpa using ih
  have keys : ∀ {d d' : List (K × V)} {ops : List (Op Q K V)} {os : List (Out K V)}, DictMay eqQ mt d ops os d' →
      d'.map Prod.fst = d.map Prod.fst := by
    intro d d' ops os h
    induction h with
    | done => rfl
    | @performed d d' op ops os h ih => rw [ih]; exact dictStep_keys eqQ mt d op
    | abandoned h ih => exact ih
  exact ⟨I.entries m, F.contents.mem, F.contents.distinct, fun ops w => ⟨main ops m w F.inv, noUb (main ops m w F.inv), keys (main ops m w F.inv)⟩⟩

/-- **C91** (programs, functions that do not panic).  The program sees exactly the dictionary of C24. -/
theorem c91_quiet_history [Target] {eqK : K → K → Bool} {mt : Q → K → Bool} {es : List (K × V)} {I : MapImpl M Q K V} {m : M}
    (hb : Built eqK mt es I m) {eqQ : Q → Q → Bool} (hc : EqCompatible eqQ mt) {S : M → Q → Eff W (Option Nat)} {eqE : Q → Q → Eff W Bool}
    (hS : RunsWith (fun _ x a => Always x (.ok a)) I S) (he : ∀ a b, Always (eqE a b) (.ok (eqQ a b))) :
    ∃ d, (∀ e, e ∈ d ↔ lastMatch eqK es e.1 = some e) ∧ Distinct eqK (d.map (fun e => e.1)) ∧
      ∀ ops w, (I.runE S eqE m ops w).1 = (dictRun eqQ mt d ops).1 ∧ I.entries (I.runE S eqE m ops w).2.1 = (dictRun eqQ mt d ops).2 := by
  obtain ⟨Inv, F⟩ := hb.facts
  have main : ∀ (ops : List (Op Q K V)) (m : M) (w : W), Inv m →
      (I.runE S eqE m ops w).1 = (dictRun eqQ mt (I.entries m) ops).1 ∧
        I.entries (I.runE S eqE m ops w).2.1 = (dictRun eqQ mt (I.entries m) ops).2 := by
    intro ops
    induction ops with
    | nil => intro m w _; exact ⟨rfl, rfl⟩
    | cons op ops ih =>
      intro m w hm
      rw [runE_cons]
      have h := (relAlways W).step (fun q => hS.rel (relAlways W) m q) he op w
      rw [h, seen_stepR F.lawful eqQ hm op]
      obtain ⟨h1, h2, h3⟩ := step_sim F.query F.lawful hc hm op
      obtain ⟨h4, h5⟩ := ih (I.step eqQ m op).2 (I.stepE S eqE m op w).2 h3
      rw [h2] at h4 h5
      simp only [dictRun]
      exact ⟨by rw [h1, h4], h5⟩
  exact ⟨I.entries m, F.contents.mem, F.contents.distinct, fun ops w => main ops m w F.inv⟩

/-- **C91** (blame).  After any program so far, an operation panics only if the dictionary says so or user code panicked during it, and it always passes on a
panic of user code: no panic is swallowed.  (`bad` is a mark that panicking user code leaves in the state of the program.) -/
theorem c91_blame [Target] {eqK : K → K → Bool} {mt : Q → K → Bool} {es : List (K × V)} {I : MapImpl M Q K V} {m : M} (hb : Built eqK mt es I m)
    {eqQ : Q → Q → Bool} (hc : EqCompatible eqQ mt) {bad : W → Prop} {S : M → Q → Eff W (Option Nat)} {eqE : Q → Q → Eff W Bool}
    (hS : RunsWith (fun _ x a => Marks bad x (.ok a)) I S) (he : ∀ a b, Marks bad (eqE a b) (.ok (eqQ a b))) (before : List (Op Q K V))
    (op : Op Q K V) (w : W) (hw : ¬ bad w) :
    let m' := (I.run eqQ m before).2
    let r := I.runE S eqE m' [op] w
    (bad r.2.2 ∧ r.1 = [.panic] ∧ r.2.1 = m') ∨
      (¬ bad r.2.2 ∧ r.1 = [(dictStep eqQ mt (I.entries m') op).1] ∧ I.entries r.2.1 = (dictStep eqQ mt (I.entries m') op).2) := by
  obtain ⟨Inv, F⟩ := hb.facts
  obtain ⟨-, -, hm⟩ := run_sim F.query F.lawful hc before F.inv
  intro m' r
  have hr : r = _ := runE_cons I S eqE m' op [] w
  rw [hr]
  simp only [MapImpl.runE]
  rcases (relMarks bad).step (fun q => hS.rel (relMarks bad) m' q) he op w hw with ⟨h1, h⟩ | ⟨h1, h⟩
  · rw [seen_panics h]
    exact .inl ⟨h1, rfl, rfl⟩
  · rw [h, seen_stepR F.lawful eqQ hm op]
    obtain ⟨h2, h3, -⟩ := step_sim F.query F.lawful hc hm op
    rw [h2]
    exact .inr ⟨h1, rfl, h3⟩

/-- **C91** (memory safety).  Whatever the trait functions answer, changing their answers from call to call, writing to the state of the program and panicking
as they like: no lookup runs into undefined behaviour, and a reference handed out points at an entry. -/
theorem c91_memory_safe [Target] {entries : M → List (K × V)} {S : M → Q → Eff W (Option Nat)} {m : M} (h : AnyLookups entries S m) (q : Q) (w : W) :
    NoUb (S m q w).1 ∧ ∀ i, (S m q w).1 = .ok (some i) → i < (entries m).length := by
  cases h with
  | scan hm h =>
    rename_i m
    have := scanLoopE_fine h q m.entries 0 none w (fun k hk => by cases hk)
    rw [Nat.zero_add] at this
    exact this
  | ordered hm h => exact orderedE_fine _ h q w
  | dense hm h => exact denseE_fine (fun qi => by obtain ⟨m₀, h1, h2⟩ := hm qi; exact (c50_memory_safe h1 h2).getMut q) (h q) w
  | sparse hm h => exact sparseE_fine (fun qi => by obtain ⟨m₀, h1, h2⟩ := hm qi; exact (c50_memory_safe h1 h2).getMut q) (h q) w
  | hash hm hh h =>
    refine hashE_fine (hh q) (fun c w' _ => ?_) h
    obtain ⟨m₀, h1, h2⟩ := hm (fun _ => c) (fun _ _ => false)
    exact (c50_memory_safe h1 h2).getMut q
  | fzScalar hm hi h =>
    rename_i m
    have hu : ∀ qi mt, NoUb (FzScalarMap.getMut qi mt m q) := fun qi mt => by
      obtain ⟨m₀, h1, h2⟩ := hm qi mt
      exact (c50_memory_safe h1 h2).getMut q
    cases m with
    | hash m => exact hashE_fine (hi q) (fun c w' _ => hu (fun _ => c) (fun _ _ => false)) h
    | dense m => exact denseE_fine (fun qi => hu qi (fun _ _ => false)) (hi q) w
    | sparse m => exact sparseE_fine (fun qi => hu qi (fun _ _ => false)) (hi q) w
  | fzString hs hn hm hw h1 h2 => exact fzStringE_fine hs hn hm hw h1 h2 q w
  | inline hm h1 h2 h3 h4 h5 =>
    rename_i u m
    have hu : ∀ t, NoUb (InlineMap.getMut t m q) := fun t => by
      obtain ⟨m₀, h1, h2⟩ := hm t
      exact (c50_memory_safe h1 h2).getMut q
    obtain ⟨sz, r⟩ := m
    have hh : ∀ hr : InlineHasher, SafeCode (hr.hashOneE u q) := by
      intro hr
      cases hr with
      | bridge seed => exact h4 seed q
      | scalar => exact h3 q
      | length => exact SafeCode.lift (InlineHasher.hashOne_noUb (K := K) ⟨fun _ _ => true, fun _ _ => .eq, fun _ => 0, fun _ _ => 0, u.bytes, fun _ _ => 0⟩ .length q)
      | left a b seed => exact leftRangeE_safe (h5 seed) _ _
      | right a b seed => exact rightRangeE_safe (h5 seed) _ _
    cases r with
    | scan m =>
      have := scanLoopE_fine h1 q m.entries 0 none w (fun k hk => by cases hk)
      rw [Nat.zero_add] at this
      exact this
    | eytzinger m => exact orderedE_fine _ h2 q w
    | dense m => exact denseE_fine (fun qi => hu ⟨fun _ _ => true, fun _ _ => .eq, qi, fun _ _ => 0, u.bytes, fun _ _ => 0⟩) (h3 q) w
    | sparse m => exact sparseE_fine (fun qi => hu ⟨fun _ _ => true, fun _ _ => .eq, qi, fun _ _ => 0, u.bytes, fun _ _ => 0⟩) (h3 q) w
    | hash hr m =>
      refine hashE_fine (hh hr) (fun c w' hx => ?_) h1
      obtain ⟨t, e1, e2⟩ := hashOneE_reached hx
      have := hu t
      simp only [InlineMap.getMut, HashMap.getMut, e1, e2] at this
      exact this
    | hashNC hr m =>
      refine hashNCE_fine (hh hr) (fun c w' hx => ?_) h1
      obtain ⟨t, e1, e2⟩ := hashOneE_reached hx
      have := hu t
      simp only [InlineMap.getMut, HashMapNC.getMut, e1, e2] at this
      exact this

/-! ## Cases -/

/-- Comparing keys counts its calls; the third call panics. -/
def thirdPanics (q k : Nat) : Eff Nat Bool := fun n => (if n = 2 then .error (.panic "third call") else .ok (natEq q k), n + 1)

theorem thirdPanics_honest (q k : Nat) : PanicsOr (thirdPanics q k) (.ok (natEq q k)) := by
  intro n
  unfold thirdPanics
  by_cases h : n = 2
  · exact .inl ⟨"third call", by simp [h]⟩
  · exact .inr (by simp [h])

attribute [local instance] w64 in
/-- A program on a map of two entries: the second lookup is abandoned, all the others are performed.  With a function that counts only, all are. -/
example :
    (∃ d, ∀ ops w, DictMay natEq natEq d ops
      ((ScanMap.impl natEq).runE (ScanMap.searchE thirdPanics) thirdPanics (ScanMap.new natEq [(1, 10), (2, 20)]) ops w).1
      ((ScanMap.impl natEq).entries
        ((ScanMap.impl natEq).runE (ScanMap.searchE thirdPanics) thirdPanics (ScanMap.new natEq [(1, 10), (2, 20)]) ops w).2.1)) ∧
    ((ScanMap.impl natEq).runE (ScanMap.searchE thirdPanics) thirdPanics (ScanMap.new natEq [(1, 10), (2, 20)])
      [.get 1, .update 2 (· + 1), .update 2 (· + 5), .index 7, .disjointMut [1, 2] (fun _ v => v), .get 2] 0).1 =
        [.value (some 10), .panic, .value (some 20), .panic, .values [some 10, some 25], .value (some 25)] ∧
    ((ScanMap.impl natEq).runE (ScanMap.searchE thirdPanics) thirdPanics (ScanMap.new natEq [(1, 10), (2, 20)])
      [.get 1, .update 2 (· + 1), .update 2 (· + 5), .get 2] 3).1 =
        [.value (some 10), .value (some 20), .value (some 21), .value (some 26)] :=
  ⟨(c91_history (Built.scan natEq_lawful (LawfulEq'.query natEq_lawful)) (fun a b k h1 h2 => by simp only [natEq, beq_iff_eq] at *; omega)
    (RunsWith.scan thirdPanics_honest) thirdPanics_honest).imp (fun d h ops w => (h.2.2 ops w).1), rfl, rfl⟩

/-- The same, with a mark for the panic. -/
def thirdMarks (q k : Nat) : Eff (Nat × Bool) Bool := fun w =>
  (if w.1 = 2 then .error (.panic "third call") else .ok (natEq q k), w.1 + 1, w.2 || w.1 == 2)

theorem thirdMarks_marks (q k : Nat) : Marks (fun w => w.2 = true) (thirdMarks q k) (.ok (natEq q k)) := by
  intro w hw
  unfold thirdMarks
  by_cases h : w.1 = 2
  · exact .inl ⟨by simp [h], "third call", by simp [h]⟩
  · exact .inr ⟨by simp [h, hw], by simp [h]⟩

attribute [local instance] w64 in
/-- A scan that reaches the third call panics and passes the panic on. -/
example :
    let m := ScanMap.new natEq [(1, 10), (2, 20), (3, 30)]
    (ScanMap.impl natEq).runE (ScanMap.searchE thirdMarks) thirdMarks m [.get 1] (0, false) = ([.panic], m, 3, true) ∧
      ∀ op w, w.2 = false →
        let r := (ScanMap.impl natEq).runE (ScanMap.searchE thirdMarks) thirdMarks m [op] w
        r.2.2.2 = true ∧ r.1 = [.panic] ∨
          r.2.2.2 = false ∧ r.1 = [(dictStep natEq natEq ((ScanMap.impl natEq).entries m) op).1] := by
  refine ⟨rfl, fun op w hw => ?_⟩
  have := c91_blame (eqQ := natEq) (bad := fun w : Nat × Bool => w.2 = true) (es := [(1, 10), (2, 20), (3, 30)])
    (Built.scan natEq_lawful (LawfulEq'.query natEq_lawful)) (fun a b k h1 h2 => by simp only [natEq, beq_iff_eq] at *; omega)
    (RunsWith.scan thirdMarks_marks) thirdMarks_marks [] op w (by simp [hw])
  rcases this with h | h
  · exact .inl ⟨h.1, h.2.1⟩
  · exact .inr ⟨Bool.eq_false_iff.2 h.1, h.2.1⟩

attribute [local instance] w64 in
/-- A dense map whose query type gives another index every time. -/
example (q : Nat) (w : Nat) :
    let m : DenseMap Nat Nat := { entries := [(3, 30), (4, 40)], min := 3, max := 4 }
    let ix : Nat → Eff Nat Nat := fun _ n => (.ok n, n + 1)
    (NoUb (m.searchE ix q w).1 ∧ ∀ i, (m.searchE ix q w).1 = .ok (some i) → i < m.entries.length) ∧
      (m.searchE ix 4 3 = (.ok (some 0), 4) ∧ m.searchE ix 4 4 = (.ok (some 1), 5) ∧ m.searchE ix 4 5 = (.ok none, 6)) := by
  refine ⟨c91_memory_safe (AnyLookups.dense (fun qi => ⟨_, ?_, .refl⟩) (fun _ _ => NoUb.ok _)) q w, rfl, rfl, rfl⟩
  exact .dense (b := .release) (index := fun k => k % 100) qi (fun k => by have := Nat.mod_lt k (show 100 > 0 by omega); show k % 100 ≤ 2 ^ 64 - 1; omega)
    (by decide) (es := [(3, 30), (4, 40)]) rfl

end Frozen.Props
