import Verif.Props.EffectBuildSpec
import Verif.Lemmas.EffectSteps
import Verif.Lemmas.Safety
import Verif.Lemmas.SliceAnalyzer
import Verif.Lemmas.EffectBuild

/-!
# Memory safety of constructors that run arbitrary user code
-/

namespace Frozen.Props

open Frozen Frozen.Spec Frozen.Model

variable {W A B R T M Q K V : Type}

/-- In no state does the computation run into undefined behaviour, and what it returns satisfies `P`. -/
def Sure (x : Eff W A) (P : A → Prop) : Prop := ∀ w, NoUb (x w).1 ∧ ∀ a, (x w).1 = .ok a → P a

theorem Sure.pure {a : A} {P : A → Prop} (h : P a) : Sure (Pure.pure a : Eff W A) P :=
  fun _ => ⟨NoUb.ok _, fun _ hb => by cases hb; exact h⟩

theorem Sure.lift {r : Res A} (h : NoUb r) : Sure (Eff.lift r : Eff W A) (fun a => r = .ok a) := fun _ => ⟨h, fun _ h => h⟩

theorem Sure.of {x : Eff W A} (h : SafeCode x) : Sure x (fun _ => True) := fun w => ⟨h w, fun _ _ => trivial⟩

theorem Sure.safe {x : Eff W A} {P : A → Prop} (h : Sure x P) : SafeCode x := fun w => (h w).1

theorem Sure.mono {x : Eff W A} {P P' : A → Prop} (h : Sure x P) (hp : ∀ a, P a → P' a) : Sure x P' :=
  fun w => ⟨(h w).1, fun a ha => hp a ((h w).2 a ha)⟩

theorem Sure.bind {x : Eff W A} {P : A → Prop} {f : A → Eff W B} {P' : B → Prop} (hx : Sure x P) (hf : ∀ a, P a → Sure (f a) P') :
    Sure (x >>= f) P' := by
  intro w
  show NoUb (Eff.bind x f w).1 ∧ ∀ b, (Eff.bind x f w).1 = .ok b → P' b
  unfold Eff.bind
  have h := hx w
  rcases hw : x w with ⟨r, w'⟩
  rw [hw] at h
  cases r with
  | error e => exact ⟨fun u hu => h.1 u (by cases hu; rfl), fun b hb => by cases hb⟩
  | ok a => exact hf a (h.2 a rfl) w'

theorem Sure.ite {c : Prop} [Decidable c] {x y : Eff W A} {P : A → Prop} (hx : c → Sure x P) (hy : ¬ c → Sure y P) :
    Sure (if c then x else y) P := by
  split
  · exact hx ‹_›
  · exact hy ‹_›

/-! ## Operations of the library itself -/

theorem NoUb.panic {msg : String} : NoUb (.error (.panic msg) : Res A) := fun _ h => by cases h

theorem idx_noUb (xs : List A) (i : Nat) : NoUb (idx xs i) := by
  unfold idx; split <;> first | exact NoUb.ok _ | exact NoUb.panic

theorem subM_noUb [Target] (b : Build) (x y : Nat) : NoUb (subM b x y) := by
  unfold subM; split
  · exact NoUb.ok _
  · cases b <;> first | exact NoUb.ok _ | exact NoUb.panic

theorem addM_noUb [Target] (b : Build) (x y : Nat) : NoUb (addM b x y) := by
  unfold addM; split
  · exact NoUb.ok _
  · cases b <;> first | exact NoUb.ok _ | exact NoUb.panic

theorem setIdx_noUb (xs : List A) (i : Nat) (v : A) : NoUb (setIdx xs i v) := by
  unfold setIdx; split <;> first | exact NoUb.ok _ | exact NoUb.panic

theorem cmod_noUb (a b : Nat) : NoUb (cmod a b) := by
  unfold cmod; split <;> first | exact NoUb.ok _ | exact NoUb.panic

theorem vecZeroed_noUb [Target] (n : Nat) : NoUb (vecZeroed n) := by
  unfold vecZeroed; split <;> first | exact NoUb.ok _ | exact NoUb.panic

theorem intoArray_noUb (xs : List A) (n : Nat) : NoUb (intoArray xs n) := by
  unfold intoArray; split <;> first | exact NoUb.ok _ | exact NoUb.panic

theorem unwrapR_noUb (r : Except String A) : NoUb (unwrapR r) := by
  cases r <;> first | exact NoUb.ok _ | exact NoUb.panic

theorem subslice_noUb (lj : Bool) (i n : Nat) (s : List T) : NoUb (subslice lj i n s) := by
  unfold subslice; split
  · exact idxRange_noUb _ _ _
  · exact NoUb.bind (csub_noUb _ _) (fun _ _ => NoUb.bind (csub_noUb _ _) (fun _ _ => idxRange_noUb _ _ _))

theorem analyzeScalarKeys_noUb [Target] (b : Build) (l : List Nat) : NoUb (analyzeScalarKeys b l) := by
  unfold analyzeScalarKeys
  simp only []
  split
  · exact NoUb.ok _
  · exact NoUb.bind (subM_noUb _ _ _) (fun _ _ => NoUb.bind (addM_noUb _ _ _) (fun _ _ => NoUb.ok _))

theorem prefixLoop_noUb (eqT : T → T → Bool) (s k : List T) (p : Nat) : ∀ n i, NoUb (prefixLoop eqT s k p n i)
  | 0, _ => NoUb.ok _
  | n + 1, i => by
    unfold prefixLoop
    refine NoUb.bind (idx_noUb _ _) (fun _ _ => NoUb.bind (idx_noUb _ _) (fun _ _ => ?_))
    split
    · exact prefixLoop_noUb eqT s k p n _
    · exact NoUb.ok _

theorem idxFromEnd_noUb (s : List T) (i : Nat) : NoUb (idxFromEnd s i) :=
  NoUb.bind (csub_noUb _ _) (fun _ _ => NoUb.bind (csub_noUb _ _) (fun _ _ => idx_noUb _ _))

theorem suffixLoop_noUb (eqT : T → T → Bool) (s k : List T) (p : Nat) : ∀ n i, NoUb (suffixLoop eqT s k p n i)
  | 0, _ => NoUb.ok _
  | n + 1, i => by
    unfold suffixLoop
    refine NoUb.bind (idxFromEnd_noUb _ _) (fun _ _ => NoUb.bind (idxFromEnd_noUb _ _) (fun _ _ => ?_))
    split
    · exact suffixLoop_noUb eqT s k p n _
    · exact NoUb.ok _

theorem statsLoop_noUb (eqT : T → T → Bool) (k : List T) : ∀ (l : List (List T)) (st : SliceStats), NoUb (statsLoop eqT k l st)
  | [], _ => NoUb.ok _
  | s :: l, st => by
    unfold statsLoop
    exact NoUb.bind (prefixLoop_noUb _ _ _ _ _ _) (fun _ _ => NoUb.bind (suffixLoop_noUb _ _ _ _ _ _) (fun _ _ => statsLoop_noUb eqT k l _))

theorem fromSorted_noUb [Target] (es : List (K × V)) : NoUb (EytzingerMap.fromSortedAndDedupped es) := by
  obtain ⟨A, hA, -⟩ := eytzingerLayout_spec es
  unfold EytzingerMap.fromSortedAndDedupped
  rw [hA]
  exact NoUb.ok _

/-! ## Deduplication -/

theorem Sure.dialog {f : A → Eff W B} (h : ∀ a, SafeCode (f a)) {P : R → Prop} (d : Dialog A B R) (hd : AlwaysEnds P d) :
    Sure (d.answerE f) P := by
  induction d with
  | done r => exact Sure.pure hd
  | ask a next ih => exact Sure.bind (Sure.of (h a)) (fun b _ => ih b (hd b))

theorem AlwaysEnds.trivial (d : Dialog A B R) : AlwaysEnds (fun _ => True) d := by
  induction d with
  | done r => exact True.intro
  | ask a next ih => exact ih

theorem Sure.mapE {f : A → Eff W B} {P : B → Prop} (h : ∀ a, Sure (f a) P) : ∀ (l : List A), Sure (Model.mapE f l)
    (fun l' => l'.length = l.length ∧ ∀ b ∈ l', P b)
  | [] => Sure.pure ⟨rfl, by simp⟩
  | x :: l => Sure.bind (h x) (fun y hy => Sure.bind (Sure.mapE h l) (fun l' hl => Sure.pure
      ⟨by simp [hl.1], by intro b hb; rcases List.mem_cons.1 hb with rfl | hb; exacts [hy, hl.2 b hb]⟩))

theorem retainNotIn_length (d : List Nat) : ∀ (l : List T) (i : Nat), (retainNotIn d l i).length ≤ l.length
  | [], _ => Nat.le_refl _
  | x :: l, i => by
    have := retainNotIn_length d l (i + 1)
    unfold retainNotIn
    split
    · simp only [List.length_cons]; omega
    · simp only [List.length_cons]; omega

theorem retain_length (d : List Nat) (l : List T) : (if d.isEmpty then l else retainNotIn d l 0).length ≤ l.length := by
  split
  · exact Nat.le_refl _
  · exact retainNotIn_length _ _ _

theorem Sure.anyEq {f : T → T → Eff W Bool} (h : ∀ a b, SafeCode (f a b)) (x : T) : ∀ (l : List T), Sure (anyEqE f x l) (fun _ => True)
  | [] => Sure.pure trivial
  | y :: l => Sure.bind (Sure.of (h x y)) (fun _ _ => Sure.ite (fun _ => Sure.pure trivial) (fun _ => Sure.anyEq h x l))

theorem Sure.usingEqDupes {f : T → T → Eff W Bool} (h : ∀ a b, SafeCode (f a b)) : ∀ (l : List T) (i : Nat), Sure (usingEqDupesE f l i) (fun _ => True)
  | [], _ => Sure.pure trivial
  | x :: l, i => Sure.bind (Sure.anyEq h x l) (fun _ _ => Sure.bind (Sure.usingEqDupes h l _) (fun _ _ => Sure.pure trivial))

theorem Sure.usingEq {f : T → T → Eff W Bool} (h : ∀ a b, SafeCode (f a b)) (l : List T) : Sure (usingEqE l f) (fun l' => l'.length ≤ l.length) :=
  Sure.ite (fun _ => Sure.bind (Sure.usingEqDupes h l 0) (fun d _ => Sure.pure (retain_length d l))) (fun _ => Sure.pure (Nat.le_refl _))

theorem Sure.adjacentDupes {f : T → T → Eff W Ordering} (h : ∀ a b, SafeCode (f a b)) : ∀ (l : List T) (i : Nat), Sure (adjacentDupesE f l i) (fun _ => True)
  | [], _ => Sure.pure trivial
  | [_], _ => Sure.pure trivial
  | x :: y :: l, i => Sure.bind (Sure.of (h x y)) (fun _ _ => Sure.bind (Sure.adjacentDupes h (y :: l) _) (fun _ _ => Sure.pure trivial))

theorem Sure.sortedAndDedupped {st : SortBy T} (hst : SortBySafe st) {f : T → T → Eff W Ordering} (h : ∀ a b, SafeCode (f a b)) (l : List T) :
    Sure (sortedAndDeduppedE st l f) (fun l' => l'.length ≤ l.length) := by
  refine Sure.bind (Sure.dialog (fun p : T × T => h p.1 p.2) (st l) (hst l)) (fun r hr => ?_)
  rcases hr with ⟨msg, rfl⟩ | ⟨l', rfl, hp⟩
  · exact Sure.bind (Sure.lift NoUb.panic) (fun _ h => by cases h)
  · refine Sure.bind (Sure.lift (NoUb.ok _)) (fun l'' h' => ?_)
    cases h'
    refine Sure.ite (fun _ => Sure.bind (Sure.adjacentDupes h l' 0) (fun d _ => Sure.pure ?_)) (fun _ => Sure.pure ?_)
    · rw [← hp.length_eq]; exact retain_length d l'
    · rw [hp.length_eq]

theorem Sure.atPos {f : T → Eff W B} (h : ∀ a, SafeCode (f a)) (l : List T) (d : B) (p : Nat) : Sure (atPosE l f d p) (fun _ => True) := by
  unfold atPosE
  cases l[p]? with
  | none => exact Sure.pure trivial
  | some e => exact Sure.of (h e)

theorem Sure.usingHashLoop {find : HbFindDialog} {rehash : HbRehash} {f : T → Eff W Nat} (hf : ∀ a, SafeCode (f a)) {e : T → T → Eff W Bool}
    (he : ∀ a b, SafeCode (e a b)) (entries : List T) : ∀ (l : List T) (i : Nat) (keep : List (Nat × Nat)) (dupes : List Nat),
      Sure (usingHashLoopE find rehash f e entries l i keep dupes) (fun _ => True)
  | [], _, _, _ => Sure.pure trivial
  | x :: l, i, keep, dupes => by
    rw [usingHashLoopE]
    refine Sure.bind (Sure.of (hf x)) (fun h _ => Sure.ite (fun _ => ?_) (fun _ => (Sure.lift NoUb.panic).mono (fun _ _ => trivial)))
    refine Sure.bind (Sure.dialog (fun p => (Sure.atPos (he x) entries false p).safe) _ (AlwaysEnds.trivial _)) (fun r _ => ?_)
    exact Sure.bind (Sure.mapE (fun p => Sure.atPos hf entries 0 p) _) (fun _ _ => Sure.usingHashLoop hf he entries l _ _ _)

theorem Sure.usingHash {find : HbFindDialog} {rehash : HbRehash} {f : T → Eff W Nat} (hf : ∀ a, SafeCode (f a)) {e : T → T → Eff W Bool}
    (he : ∀ a b, SafeCode (e a b)) (l : List T) : Sure (usingHashE find rehash l f e) (fun l' => l'.length ≤ l.length) :=
  Sure.ite (fun _ => Sure.bind (Sure.usingHashLoop hf he l l 0 [] []) (fun d _ => Sure.pure (retain_length d l))) (fun _ => Sure.pure (Nat.le_refl _))

/-! ## Scalar maps -/

theorem Sure.fromDense [Target] {b : Build} {ix : K → Eff W Nat} (h : ∀ a, SafeCode (ix a)) (es : List (K × V)) :
    Sure (DenseMap.fromSortedAndDeduppedE b ix es) (fun _ => True) :=
  Sure.bind (Sure.lift (idx_noUb _ _)) (fun _ _ => Sure.bind (Sure.of (h _)) (fun _ _ => Sure.bind (Sure.lift (subM_noUb _ _ _)) (fun _ _ =>
    Sure.bind (Sure.lift (idx_noUb _ _)) (fun _ _ => Sure.bind (Sure.of (h _)) (fun _ _ => Sure.pure trivial)))))

theorem Sure.newDense [Target] {b : Build} {st : SortBy (K × V)} (hst : SortBySafe st) {c : K → K → Eff W Ordering}
    (hc : ∀ a b, SafeCode (c a b)) {ix : K → Eff W Nat} (h : ∀ a, SafeCode (ix a)) (es : List (K × V)) :
    Sure (DenseMap.newE b st c ix es) (fun _ => True) :=
  Sure.bind (Sure.sortedAndDedupped hst (fun x y : K × V => hc x.1 y.1) es) (fun _ _ => Sure.ite (fun _ => Sure.pure trivial) (fun _ =>
    Sure.bind (Sure.lift (idx_noUb _ _)) (fun _ _ => Sure.bind (Sure.of (h _)) (fun _ _ => Sure.bind (Sure.lift (subM_noUb _ _ _)) (fun _ _ =>
    Sure.bind (Sure.lift (idx_noUb _ _)) (fun _ _ => Sure.bind (Sure.of (h _)) (fun _ _ => Sure.bind (Sure.lift (subM_noUb _ _ _)) (fun _ _ =>
    Sure.bind (Sure.lift (addM_noUb _ _ _)) (fun _ _ => Sure.ite (fun _ => Sure.bind (Sure.fromDense h _) (fun _ _ => Sure.pure trivial))
      (fun _ => Sure.pure trivial))))))))))

theorem Sure.fillLookup [Target] {b : Build} {ix : K → Eff W Nat} (h : ∀ a, SafeCode (ix a)) (mn : Nat) :
    ∀ (es : List (K × V)) (i : Nat) (L : List Nat), Sure (fillLookupE b ix mn es i L)
      (fun L' => L'.length = L.length ∧ (es ≠ [] → L ≠ []) ∧ ∀ v ∈ L', v ∈ L ∨ v ≤ i + es.length)
  | [], _, _ => Sure.pure ⟨rfl, fun h => absurd rfl h, fun _ hv => .inl hv⟩
  | e :: es, i, L => by
    refine Sure.bind (Sure.of (h _)) (fun n _ => Sure.bind (Sure.lift (subM_noUb _ _ _)) (fun j _ => Sure.bind (Sure.lift (setIdx_noUb _ _ _))
      (fun L1 hL1 => (Sure.fillLookup h mn es (i + 1) L1).mono ?_)))
    rintro L' ⟨h1, -, h2⟩
    have hL : j < L.length ∧ L1 = L.set j (i + 1) := by
      unfold setIdx at hL1
      split at hL1
      · cases hL1; exact ⟨by assumption, rfl⟩
      · cases hL1
    obtain ⟨hj, rfl⟩ := hL
    refine ⟨by rw [h1, List.length_set], fun _ h0 => by rw [h0] at hj; exact absurd hj (Nat.not_lt_zero _), fun v hv => ?_⟩
    rw [List.length_cons]
    rcases h2 v hv with h3 | h3
    · rcases List.mem_or_eq_of_mem_set h3 with h4 | h4
      · exact .inl h4
      · right; omega
    · right; omega

theorem Sure.usize [Target] {ix : K → Eff W Nat} (h : ∀ a, SafeCode (ix a)) (hu : UsizeAnswers ix) (k : K) : Sure (ix k) (fun n => n ≤ usizeMax) :=
  fun w => ⟨h k w, hu k w⟩

theorem Sure.fromSparse [Target] {b : Build} {ix : K → Eff W Nat} (h : ∀ a, SafeCode (ix a)) (hu : UsizeAnswers ix) (es : List (K × V)) :
    Sure (SparseMap.fromSortedAndDeduppedE b ix es) (fun m => m.Bounded) := by
  refine Sure.bind (Sure.lift (idx_noUb _ _)) (fun f hf => Sure.bind (Sure.of (h _)) (fun mn _ => Sure.bind (Sure.lift (subM_noUb _ _ _)) (fun lp _ =>
    Sure.bind (Sure.lift (idx_noUb _ _)) (fun l _ => Sure.bind (Sure.usize h hu _) (fun mx hmx => Sure.bind (Sure.lift (subM_noUb _ _ _)) (fun d hd =>
    Sure.bind (Sure.lift (addM_noUb _ _ _)) (fun c hc => Sure.bind (Sure.lift (vecZeroed_noUb _)) (fun z hz => Sure.bind (Sure.fillLookup h _ _ _ _)
      (fun L hL => Sure.pure ?_)))))))))
  have hne : es ≠ [] := by
    rintro rfl
    cases hf
  obtain ⟨g1, g2⟩ := sparse_bounds hmx hd hc hz hL.1 (hL.2.1 hne) hL.2.2
  exact ⟨g1, g2⟩

/-! ## Hash maps -/

theorem Sure.prepItems {f : T → Eff W Nat} (h : ∀ a, SafeCode (f a)) (n : Nat) (hn : 0 < n) : ∀ (l : List T),
    Sure (prepItemsE f n l) (fun p => p.length = l.length ∧ ∀ x ∈ p, x.1 < n)
  | [] => Sure.pure ⟨rfl, by simp⟩
  | e :: l => by
    refine Sure.bind (Sure.of (h e)) (fun c _ => Sure.bind (Sure.lift (cmod_noUb _ _)) (fun s hs => Sure.bind (Sure.prepItems h n hn l)
      (fun p hp => Sure.pure ⟨by simp [hp.1], ?_⟩)))
    have : s < n := by
      unfold cmod at hs
      rw [if_neg (by omega)] at hs
      cases hs
      exact Nat.mod_lt _ hn
    intro x hx
    rcases List.mem_cons.1 hx with rfl | hx
    · exact this
    · exact hp.2 x hx

theorem fillSlots_bounded [Target] (cm : Magnitude) {sort : Sorter T} (hsort : SorterOk sort) {n : Nat} (hn : 0 < n) {prep : List (Nat × T)}
    (hslot : ∀ p ∈ prep, p.1 < n) (hcap : prep.length ≤ cm.maxCapacity) :
    ∃ slots final, fillSlots cm (sort prep).reverse (List.replicate n ⟨0, 0⟩) 0 [] = .ok (slots, final) ∧ slots.length = n ∧
      ∀ s ∈ slots, s.minIndex ≤ s.maxIndex ∧ s.maxIndex ≤ final.length := by
  have hperm := hsort.perm prep
  have hsorted := hsort.sorted prep
  generalize sort prep = S at *
  obtain ⟨slots', e1, e2, e3⟩ := fillSlots_spec cm S.reverse.length S.reverse
    (List.replicate n ⟨0, 0⟩) [] (Nat.le_refl _)
    (by rw [List.pairwise_reverse]; exact hsorted)
    (by simp)
    (by
      intro i hi
      rw [List.length_replicate]
      exact hslot i (hperm.subset (by simpa using hi)))
    (by simp only [List.length_nil, List.length_reverse]; rw [hperm.length_eq]; omega)
    (by intro s hs; simp)
  simp only [List.length_nil, List.map_nil, List.nil_append] at e1 e3
  rw [List.length_replicate] at e2
  refine ⟨_, _, e1, e2, fun s hs => ?_⟩
  obtain ⟨i, hi, rfl⟩ := List.getElem_of_mem hs
  obtain ⟨g1, g2, -⟩ := e3 i hi
  exact ⟨g1, by simpa using g2⟩

theorem Sure.newTable [Target] {cm : Magnitude} {sort : Sorter T} (hsort : SorterOk sort) {f : T → Eff W Nat} (h : ∀ a, SafeCode (f a))
    {es : List T} (hn : es.length < sizeLimit) : Sure (HashTable.newE cm sort es f) (fun r => ∀ t, r = .ok t → t.Bounded) := by
  refine Sure.ite (fun _ => Sure.pure ?_) (fun hne => Sure.ite (fun _ => Sure.pure (by intro t ht; cases ht)) (fun hcap => ?_))
  · intro t ht
    cases ht
    exact (default_tableOK (fun _ : T => 0)).bounded
  · refine Sure.bind (Sure.mapE (fun a => Sure.of (h a)) es) (fun codes hc => ?_)
    have hne' : es ≠ [] := by simpa using hne
    have hcn : codes ≠ [] := by
      intro h0
      rw [h0] at hc
      exact hne' (List.length_eq_zero_iff.1 hc.1.symm)
    obtain ⟨s, c, minK, maxK, e0, ⟨b, _, _, hs, _⟩, _⟩ := analyzeHashCodes_spec codes hcn (by rw [hc.1]; exact hn)
    have hpos : 0 < 2 ^ b := Nat.pow_pos (by omega)
    rw [e0]
    refine Sure.bind (Sure.lift (NoUb.ok _)) (fun a ha => ?_)
    cases ha
    subst hs
    refine Sure.bind (Sure.prepItems h _ hpos _) (fun p hp => ?_)
    obtain ⟨slots, final, g1, g2, g3⟩ := fillSlots_bounded cm hsort hpos hp.2 (by rw [hp.1, List.length_reverse]; omega)
    rw [g1]
    refine Sure.bind (Sure.lift (NoUb.ok _)) (fun q hq => ?_)
    cases hq
    refine Sure.bind (Sure.lift (csub_noUb _ _)) (fun mask hm => Sure.pure ?_)
    intro t ht
    cases ht
    refine ⟨?_, g3⟩
    unfold csub at hm
    split at hm
    · cases hm
      show slots.length - 1 < slots.length
      omega
    · cases hm

theorem Sure.fromHash [Target] {cm : Magnitude} {sort : Sorter (K × V)} (hsort : SorterOk sort) {f : K → Eff W Nat} (h : ∀ a, SafeCode (f a))
    {es : List (K × V)} (hn : es.length < sizeLimit) : Sure (HashMap.fromDeduppedE cm sort f es) (fun r => ∀ m, r = .ok m → m.table.Bounded) := by
  refine Sure.bind (Sure.newTable hsort (fun e : K × V => h e.1) hn) (fun r hr => Sure.pure ?_)
  intro m hm
  cases r with
  | error e => cases hm
  | ok t => cases hm; exact hr t rfl

theorem Sure.unwrap {r : Except String A} {P : A → Prop} (h : ∀ a, r = .ok a → P a) : Sure (Eff.lift (unwrapR r) : Eff W A) P := by
  refine (Sure.lift (unwrapR_noUb r)).mono (fun a ha => ?_)
  cases r with
  | error e => cases ha
  | ok b => cases ha; exact h _ rfl

/-! ## Strings -/

theorem Sure.uniqueLoop {f : List T → Eff W Nat} (h : ∀ a, SafeCode (f a)) (lj : Bool) (si sl : Nat) : ∀ (keys : List (List T)) (set : List Nat) (acc : Nat),
    Sure (uniqueLoopE f lj si sl keys set acc) (fun _ => True)
  | [], _, _ => Sure.pure trivial
  | s :: keys, set, acc =>
    Sure.bind (Sure.lift (subslice_noUb _ _ _ _)) (fun _ _ => Sure.bind (Sure.of (h _)) (fun _ _ => Sure.ite
      (fun _ => Sure.ite (fun _ => Sure.pure trivial) (fun _ => Sure.uniqueLoop h lj si sl keys _ _)) (fun _ => Sure.uniqueLoop h lj si sl keys _ _)))

theorem Sure.searchIndex {f : List T → Eff W Nat} (h : ∀ a, SafeCode (f a)) (keys : List (List T)) (sl : Nat) (lj : Bool) (acc limit : Nat) :
    ∀ (n i : Nat), limit + 1 - i ≤ n → Sure (searchIndexE f keys sl lj acc limit i) (fun _ => True) := by
  intro n
  induction n with
  | zero =>
    intro i hn
    rw [searchIndexE]
    exact Sure.ite (fun hi => absurd hi (by omega)) (fun _ => Sure.pure trivial)
  | succ n ih =>
    intro i hn
    rw [searchIndexE]
    exact Sure.ite (fun hi => Sure.bind (Sure.uniqueLoop h _ _ _ _ _ _) (fun c _ => Sure.ite (fun _ => Sure.pure trivial) (fun _ => ih _ (by omega))))
      (fun _ => Sure.pure trivial)

theorem Sure.subLenLoop {f : List T → Eff W Nat} (h : ∀ a, SafeCode (f a)) (keys : List (List T)) (st : SliceStats) (acc mx : Nat) :
    ∀ (n i : Nat), mx + 1 - i ≤ n → Sure (subLenLoopE f keys st acc mx i) (fun _ => True) := by
  intro n
  induction n with
  | zero =>
    intro i hn
    rw [subLenLoopE]
    exact Sure.ite (fun hi => absurd hi (by omega)) (fun _ => Sure.pure trivial)
  | succ n ih =>
    intro i hn
    rw [subLenLoopE]
    refine Sure.ite (fun hi => Sure.bind (Sure.lift (csub_noUb _ _)) (fun limit _ => Sure.bind (Sure.searchIndex h _ _ _ _ _ _ _ (Nat.le_refl _))
      (fun r _ => ?_))) (fun _ => Sure.pure trivial)
    cases r with
    | some i => exact Sure.pure trivial
    | none =>
      refine Sure.bind (P := fun _ => True) ?_ (fun r _ => ?_)
      · exact Sure.ite (fun _ => Sure.searchIndex h _ _ _ _ _ _ _ (Nat.le_refl _)) (fun _ => Sure.pure trivial)
      · cases r with
        | some i => exact Sure.pure trivial
        | none => exact ih _ (by omega)

theorem Sure.analyzeSliceKeys [Target] {eqT : T → T → Bool} {f : List T → Eff W Nat} (h : ∀ a, SafeCode (f a)) (keys : List (List T)) :
    Sure (analyzeSliceKeysE eqT f keys) (fun _ => True) := by
  unfold analyzeSliceKeysE
  cases analyzeLengths keys with
  | general => exact Sure.bind (Sure.lift (statsLoop_noUb _ _ _ _)) (fun _ _ => Sure.subLenLoop h _ _ _ _ _ _ (Nat.le_refl _))
  | left r => exact Sure.pure trivial
  | right r => exact Sure.pure trivial
  | length => exact Sure.pure trivial

/-! ## Stores -/

theorem SparseMap.Bounded.stores {m : SparseMap K V} (h : m.Bounded) {qindex : Q → Nat} {m' : SparseMap K V}
    (hw : Stores (SparseMap.impl qindex) m m') : MemSafe (SparseMap.impl qindex) m' := by
  have hb : m'.Bounded := by
    induction hw with
    | refl => exact h
    | write i v _ ih => exact ⟨ih.1, fun v hv => by have := ih.2 v hv; simpa [SparseMap.impl, writeAt_length] using this⟩
  exact hb.safe qindex

theorem HashMap.stores {m : HashMap K V} (h : m.table.Bounded) {hQ : Q → Nat} {mt : Q → K → Bool} {m' : HashMap K V}
    (hw : Stores (HashMap.impl (bridgeHash hQ) mt) m m') : MemSafe (HashMap.impl (bridgeHash hQ) mt) m' := by
  have hb : HashTable.Bounded (HashMap.table m') := by
    induction hw with
    | refl => exact h
    | write i v _ ih => exact ⟨ih.1, fun v hv => by have := ih.2 v hv; simpa [HashMap.impl, writeAt_length] using this⟩
  exact HashMap.safe hb (fun q => (NoUb.ok _ : NoUb (bridgeHash hQ q))) mt

theorem FzScalarMap.Bounded.stores {m : FzScalarMap K V} (h : m.Bounded) {qindex : Q → Nat} {mt : Q → K → Bool} {m' : FzScalarMap K V}
    (hw : Stores (FzScalarMap.impl qindex mt) m m') : MemSafe (FzScalarMap.impl qindex mt) m' := by
  have hb : m'.Bounded := by
    induction hw with
    | refl => exact h
    | write i v _ ih => exact ih.write i v
  exact hb.safe qindex mt

theorem FzStringMap.Bounded.stores {m : FzStringMap V} (h : m.Bounded) {b1 b2 : Str → Nat} {m' : FzStringMap V}
    (hw : Stores (FzStringMap.impl b1 b2) m m') : MemSafe (FzStringMap.impl b1 b2) m' := by
  have hb : m'.Bounded := by
    induction hw with
    | refl => exact h
    | write i v _ ih => exact ih.write i v
  exact hb.safe b1 b2

theorem InlineMap.Bounded.stores {m : InlineMap K V} (h : m.Bounded) {t : QueryTraits Q K} {m' : InlineMap K V}
    (hw : Stores (InlineMap.impl t) m m') : MemSafe (InlineMap.impl t) m' := by
  have hb : m'.Bounded := by
    induction hw with
    | refl => exact h
    | write i v _ ih => exact ih.write i v
  exact hb.safe t

/-! ## All constructors -/

theorem Sure.buildString [Target] {sort : Sorter (Str × V)} (hs : SorterOk sort) {b1 b2 : Str → Eff W Nat} (h1 : ∀ s, SafeCode (b1 s))
    (h2 : ∀ s, SafeCode (b2 s)) {es : List (Str × V)} (hn : es.length < sizeLimit) (a : SliceAnalysis) :
    Sure (FzStringMap.buildE sort b1 b2 es a) (fun m => m.Bounded) := by
  cases a with
  | general => exact Sure.bind (Sure.fromHash hs h1 hn) (fun r hr => Sure.bind (Sure.unwrap hr) (fun m hm => Sure.pure hm))
  | length => exact Sure.bind (Sure.fromHash hs h1 hn) (fun r hr => Sure.bind (Sure.unwrap hr) (fun m hm => Sure.pure hm))
  | left g => exact Sure.bind (Sure.fromHash hs (leftRangeE_safe h2 g) hn) (fun r hr => Sure.bind (Sure.unwrap hr) (fun m hm => Sure.pure hm))
  | right g => exact Sure.bind (Sure.fromHash hs (rightRangeE_safe h2 g) hn) (fun r hr => Sure.bind (Sure.unwrap hr) (fun m hm => Sure.pure hm))

theorem Sure.buildScalar [Target] {b : Build} {sort : Sorter (K × V)} (hs : SorterOk sort) {ix : K → Eff W Nat} (hi : ∀ k, SafeCode (ix k))
    (hu : UsizeAnswers ix) {es : List (K × V)} (hn : es.length < sizeLimit) (a : ScalarAnalysis) :
    Sure (FzScalarMap.buildE b sort ix es a) (fun m => (∃ d, m = .dense d) ∨ m.Bounded) := by
  cases a with
  | general => exact Sure.bind (Sure.fromHash hs hi hn) (fun r hr => Sure.bind (Sure.unwrap hr) (fun m hm => Sure.pure (.inr hm)))
  | denseRange => exact Sure.bind (Sure.fromDense hi es) (fun d _ => Sure.pure (.inl ⟨d, rfl⟩))
  | sparseRange => exact Sure.bind (Sure.fromSparse hi hu es) (fun d hd => Sure.pure (.inr hd))

theorem Sure.newString [Target] {sort : Sorter (Str × V)} (hs : SorterOk sort) {b1 b2 : Str → Eff W Nat} (h1 : ∀ s, SafeCode (b1 s))
    (h2 : ∀ s, SafeCode (b2 s)) {es : List (Str × V)} (hn : es.length < sizeLimit) :
    Sure (FzStringMap.withHasherE sort b1 b2 es) (fun m => m.Bounded) :=
  Sure.bind (Sure.analyzeSliceKeys h2 _) (fun a _ => Sure.buildString hs h1 h2 (Nat.lt_of_le_of_lt (sad_subset _ _).1 hn) a)

theorem AnyConstructor.sure [Target] {I : MapImpl M Q K V} {x : Eff W A} {safe : A → Option M} (h : AnyConstructor I x safe) :
    Sure x (fun a => ∀ m, safe a = some m → ∀ m', Stores I m m' → MemSafe I m') := by
  cases h with
  | scan mt h =>
    exact Sure.bind (Sure.usingEq (fun x y : _ × _ => h x.1 y.1) _) (fun _ _ => Sure.pure (fun _ _ _ _ => ScanMap.safe _ _))
  | ordered qcmp hst h =>
    exact Sure.bind (Sure.sortedAndDedupped hst (fun x y : _ × _ => h x.1 y.1) _)
      (fun _ _ => (Sure.lift (fromSorted_noUb _)).mono (fun _ _ _ _ _ _ => EytzingerMap.safe _ _))
  | dense qindex hst h hi => exact (Sure.newDense hst h hi _).mono (fun _ _ _ hm => by cases hm)
  | sparse qindex hst h hi hu =>
    refine Sure.bind (Sure.sortedAndDedupped hst (fun x y : _ × _ => h x.1 y.1) _) (fun _ _ => Sure.ite (fun _ => Sure.pure ?_) (fun _ => ?_))
    · intro m hm m' hw
      cases hm
      exact SparseMap.Bounded.stores ⟨fun h => by simp_all [SparseMap.default], fun v hv => by simp_all [SparseMap.default]⟩ hw
    · refine (Sure.fromSparse hi hu _).mono (fun a ha m hm m' hw => ?_)
      cases hm
      exact SparseMap.Bounded.stores ha hw
  | hash hQ mt hs hn h hk =>
    refine Sure.bind (Sure.usingHash (fun x : _ × _ => hk x.1) (fun x y : _ × _ => h x.1 y.1) _) (fun es' hes =>
      (Sure.fromHash hs hk (Nat.lt_of_le_of_lt hes hn)).mono (fun r hr m hm m' hw => ?_))
    cases r with
    | error e => cases hm
    | ok a => cases hm; exact HashMap.stores (hr _ rfl) hw
  | fzHash hQ mt hs hn h hk =>
    refine Sure.bind (Sure.usingHash (fun x : _ × _ => hk x.1) (fun x y : _ × _ => h x.1 y.1) _) (fun es' hes =>
      Sure.bind (Sure.fromHash hs hk (Nat.lt_of_le_of_lt hes hn)) (fun r hr => (Sure.unwrap hr).mono (fun a ha m hm m' hw => ?_)))
    cases hm
    exact HashMap.stores ha hw
  | fzScalar qindex mt hst hs hn h hi hu =>
    refine Sure.bind (Sure.sortedAndDedupped hst (fun x y : _ × _ => h x.1 y.1) _) (fun es' hes =>
      Sure.bind (Sure.mapE (fun x : _ × _ => Sure.of (hi x.1)) es') (fun l _ => Sure.bind (Sure.lift (analyzeScalarKeys_noUb _ _)) (fun a _ =>
      (Sure.buildScalar hs hi hu (Nat.lt_of_le_of_lt hes hn) a).mono (fun m₀ hm₀ m hm m' hw => ?_))))
    rcases hm₀ with ⟨d, rfl⟩ | hb
    · cases hm
    · have : m = m₀ := by
        cases m₀ <;> first | (cases hm; rfl) | cases hm
      subst this
      exact FzScalarMap.Bounded.stores hb hw
  | fzString b1 b2 hs hn h1 h2 =>
    refine (Sure.newString hs h1 h2 hn).mono (fun m₀ hm₀ m hm m' hw => ?_)
    cases hm
    exact FzStringMap.Bounded.stores hm₀ hw
  | fzStringAs b1 b2 hs hn h0 h1 h2 =>
    refine Sure.bind (Sure.mapE (P := fun _ => True) (fun e : _ × _ => Sure.bind (Sure.of (h0 e.1)) (fun s _ => Sure.pure True.intro)) _)
      (fun es' hes => (Sure.newString hs h1 h2 (by rw [hes.1]; exact hn)).mono (fun m₀ hm₀ m hm m' hw => ?_))
    cases hm
    exact FzStringMap.Bounded.stores hm₀ hw
  | inlineScan t h =>
    refine Sure.bind (Sure.usingEq (fun x y : _ × _ => h x.1 y.1) _) (fun _ _ => Sure.bind (Sure.lift (intoArray_noUb _ _)) (fun _ _ =>
      Sure.pure (fun m hm m' hw => ?_)))
    cases hm
    exact InlineMap.Bounded.stores (by simp [InlineMap.Bounded]) hw
  | inlineOrdered t hst h =>
    refine Sure.bind (Sure.sortedAndDedupped hst (fun x y : _ × _ => h x.1 y.1) _) (fun es' _ =>
      Sure.bind (Sure.lift ?_) (fun _ _ => Sure.bind (Sure.lift (intoArray_noUb _ _)) (fun _ _ => Sure.pure (fun m hm m' hw => ?_))))
    · obtain ⟨A, hA, -⟩ := eytzingerLayout_spec es'
      rw [hA]
      exact NoUb.ok _
    · cases hm
      exact InlineMap.Bounded.stores (by simp [InlineMap.Bounded]) hw

/-! ## Lookups in the results -/

theorem Written.stores {I : MapImpl M Q K V} {m m' : M} (h : Written I.write m m') : Stores I m m' := by
  induction h with
  | refl => exact .refl
  | write i v _ ih => exact .write i v ih

theorem AnyLife.fine [Target] {x : Eff W A} {safe : A → Option M} {wr : M → Nat → V → M} {entries : M → List (K × V)}
    {S : M → Q → Eff W (Option Nat)} (h : AnyLife x safe wr entries S) {w₀ : W} {a : A} (ha : (x w₀).1 = .ok a) {m m' : M} (hm : safe a = some m)
    (hw : Written wr m m') (q : Q) (w : W) : FineAt (entries m').length (S m' q w).1 := by
  cases h with
  | scan hx h =>
    have := scanLoopE_fine h q m'.entries 0 none w (fun k hk => by cases hk)
    rw [Nat.zero_add] at this
    exact this
  | ordered hx h => exact orderedE_fine _ h q w
  | sparse hx h =>
    exact sparseE_fine (fun qi => (((hx qi).sure w₀).2 a ha m hm m' (Written.stores (I := SparseMap.impl qi) hw)).getMut q) (h q) w
  | hash hx hh h =>
    exact hashE_fine (hh q) (fun c w' _ => (((hx (fun _ => c) (fun _ _ => false)).sure w₀).2 a ha m hm m'
      (Written.stores (I := HashMap.impl (bridgeHash (fun _ => c)) (fun _ _ => false)) hw)).getMut q) h
  | fzScalar hx hi h =>
    have hu : ∀ qi mt, NoUb (FzScalarMap.getMut qi mt m' q) := fun qi mt =>
      (((hx qi mt).sure w₀).2 a ha m hm m' (Written.stores (I := FzScalarMap.impl qi mt) hw)).getMut q
    cases m' with
    | hash m => exact hashE_fine (hi q) (fun c w' _ => hu (fun _ => c) (fun _ _ => false)) h
    | dense m => exact denseE_fine (fun qi => hu qi (fun _ _ => false)) (hi q) w
    | sparse m => exact sparseE_fine (fun qi => hu qi (fun _ _ => false)) (hi q) w
  | fzString hs hn h1 h2 h3 h4 =>
    have hb : FzStringMap.Bounded m' := by
      cases hm
      induction hw with
      | refl => exact (Sure.newString hs h1 h2 hn w₀).2 _ ha
      | write i v _ ih => exact FzStringMap.Bounded.write ih i v
    cases m' with
    | leftRange r m =>
      exact hashE_fine (leftRangeE_safe h4 r q) (fun c _ _ => (HashTable.Bounded.findMut hb c _).2.1) (fun _ _ => SafeCode.lift (NoUb.ok _))
    | rightRange r m =>
      exact hashE_fine (rightRangeE_safe h4 r q) (fun c _ _ => (HashTable.Bounded.findMut hb c _).2.1) (fun _ _ => SafeCode.lift (NoUb.ok _))
    | hash m => exact hashE_fine (h3 q) (fun c _ _ => (HashTable.Bounded.findMut hb c _).2.1) (fun _ _ => SafeCode.lift (NoUb.ok _))
  | inline hx h1 h2 h3 h4 h5 =>
    rename_i u x
    have hu : ∀ t, NoUb (InlineMap.getMut t m' q) := fun t =>
      (((hx t).sure w₀).2 a ha m hm m' (Written.stores (I := InlineMap.impl t) hw)).getMut q
    obtain ⟨sz, r⟩ := m'
    have hh : ∀ hr : InlineHasher, SafeCode (hr.hashOneE u q) := by
      intro hr
      cases hr with
      | bridge seed => exact h4 seed q
      | scalar => exact h3 q
      | length => exact SafeCode.lift (InlineHasher.hashOne_noUb (K := K) ⟨fun _ _ => true, fun _ _ => .eq, fun _ => 0, fun _ _ => 0, u.bytes, fun _ _ => 0⟩ .length q)
      | left a b seed => exact leftRangeE_safe (h5 seed) _ _
      | right a b seed => exact rightRangeE_safe (h5 seed) _ _
    cases r with
    | scan m =>
      have := scanLoopE_fine h1 q m.entries 0 none w (fun k hk => by cases hk)
      rw [Nat.zero_add] at this
      exact this
    | eytzinger m => exact orderedE_fine _ h2 q w
    | dense m => exact denseE_fine (fun qi => hu ⟨fun _ _ => true, fun _ _ => .eq, qi, fun _ _ => 0, u.bytes, fun _ _ => 0⟩) (h3 q) w
    | sparse m => exact sparseE_fine (fun qi => hu ⟨fun _ _ => true, fun _ _ => .eq, qi, fun _ _ => 0, u.bytes, fun _ _ => 0⟩) (h3 q) w
    | hash hr m =>
      refine hashE_fine (hh hr) (fun c w' hx => ?_) h1
      obtain ⟨t, e1, e2⟩ := hashOneE_reached hx
      have := hu t
      simp only [InlineMap.getMut, HashMap.getMut, e1, e2] at this
      exact this
    | hashNC hr m =>
      refine hashNCE_fine (hh hr) (fun c w' hx => ?_) h1
      obtain ⟨t, e1, e2⟩ := hashOneE_reached hx
      have := hu t
      simp only [InlineMap.getMut, HashMapNC.getMut, e1, e2] at this
      exact this

end Frozen.Props
