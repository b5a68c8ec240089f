import Verif.Model.Costs
import Verif.Lemmas.SliceAnalyzer
import Verif.Lemmas.AnalyzerExact
import Verif.Lemmas.Dedup
import Verif.Lemmas.FzMaps

/-!
# Forgetting the recorded work, and bounds on it
-/

namespace Frozen.Model

open Frozen.Props

variable {T : Type}

/-! ## Forgetting the work -/

theorem prefixLoopT_fst (eqT : T → T → Bool) (s k0 : List T) (p : Nat) (fuel i : Nat) :
    (prefixLoopT eqT s k0 p fuel i).map Prod.fst = prefixLoop eqT s k0 p fuel i := by
  induction fuel generalizing i with
  | zero => rfl
  | succ f ih =>
    unfold prefixLoopT prefixLoop
    cases idx s i with
    | error e => rfl
    | ok a =>
      cases idx k0 i with
      | error e => rfl
      | ok c =>
        simp only [bind, Except.bind]
        split
        · rw [← ih]; cases prefixLoopT eqT s k0 p f (i + 1) <;> rfl
        · rfl

theorem suffixLoopT_fst (eqT : T → T → Bool) (s k0 : List T) (p : Nat) (fuel i : Nat) :
    (suffixLoopT eqT s k0 p fuel i).map Prod.fst = suffixLoop eqT s k0 p fuel i := by
  induction fuel generalizing i with
  | zero => rfl
  | succ f ih =>
    unfold suffixLoopT suffixLoop
    cases idxFromEnd s i with
    | error e => rfl
    | ok a =>
      cases idxFromEnd k0 i with
      | error e => rfl
      | ok c =>
        simp only [bind, Except.bind]
        split
        · rw [← ih]; cases suffixLoopT eqT s k0 p f (i + 1) <;> rfl
        · rfl

theorem statsLoopT_fst (eqT : T → T → Bool) (k0 : List T) (keys : List (List T)) (st : SliceStats) :
    (statsLoopT eqT k0 keys st).map Prod.fst = statsLoop eqT k0 keys st := by
  induction keys generalizing st with
  | nil => rfl
  | cons s rest ih =>
    unfold statsLoopT statsLoop
    simp only [bind, Except.bind]
    rw [← prefixLoopT_fst]
    cases prefixLoopT eqT s k0 (if s.length < st.prefixLen then s.length else st.prefixLen)
      (if s.length < st.prefixLen then s.length else st.prefixLen) 0 with
    | error e => rfl
    | ok p =>
      simp only [Except.map]
      rw [← suffixLoopT_fst]
      cases suffixLoopT eqT s k0 (if s.length < st.suffixLen then s.length else st.suffixLen)
        (if s.length < st.suffixLen then s.length else st.suffixLen) 0 with
      | error e => rfl
      | ok u =>
        simp only [Except.map]
        rw [← ih]
        generalize statsLoopT eqT k0 rest _ = r
        cases r <;> rfl

theorem uniqueLoopT_fst (bh : List T → Nat) (lj : Bool) (i len : Nat) (keys : List (List T)) (set : List Nat) (acc : Nat) :
    (uniqueLoopT bh lj i len keys set acc).map Prod.fst = uniqueLoop bh lj i len keys set acc := by
  induction keys generalizing set acc with
  | nil => rfl
  | cons s rest ih =>
    unfold uniqueLoopT uniqueLoop
    cases subslice lj i len s with
    | error e => rfl
    | ok sub =>
      simp only [bind, Except.bind]
      split
      · split
        · rfl
        · rw [← ih]; generalize uniqueLoopT bh lj i len rest _ _ = r; cases r <;> rfl
      · rw [← ih]; generalize uniqueLoopT bh lj i len rest _ _ = r; cases r <;> rfl

theorem searchIndexT_fst (bh : List T → Nat) (keys : List (List T)) (len : Nat) (lj : Bool) (acc limit i : Nat) :
    (searchIndexT bh keys len lj acc limit i).map Prod.fst = searchIndex bh keys len lj acc limit i := by
  unfold searchIndexT searchIndex
  split
  · unfold isSufficientlyUnique
    rw [← uniqueLoopT_fst]
    cases uniqueLoopT bh lj i len keys [] acc with
    | error e => rfl
    | ok u =>
      obtain ⟨b, log⟩ := u
      simp only [bind, Except.bind, Except.map]
      cases b with
      | true => rfl
      | false =>
        simp only [Bool.false_eq_true, if_false]
        rw [← searchIndexT_fst]
        cases searchIndexT bh keys len lj acc limit (i + 1) <;> rfl
  · rfl
termination_by limit + 1 - i

theorem searchRightT_fst (bh : List T → Nat) (keys : List (List T)) (st : SliceStats) (acc len limit : Nat) :
    (searchRightT bh keys st acc len limit).map Prod.fst = searchRight bh keys st acc len limit := by
  unfold searchRightT searchRight
  split
  · exact searchIndexT_fst ..
  · rfl

theorem subLenLoopT_fst (bh : List T → Nat) (keys : List (List T)) (st : SliceStats) (acc mx len : Nat) :
    (subLenLoopT bh keys st acc mx len).map Prod.fst = subLenLoop bh keys st acc mx len := by
  unfold subLenLoopT subLenLoop
  split
  · cases csub st.minLen len with
    | error e => rfl
    | ok limit =>
      simp only [bind, Except.bind]
      rw [← searchIndexT_fst]
      cases searchIndexT bh keys len true acc limit st.prefixLen with
      | error e => rfl
      | ok l =>
        obtain ⟨o, log⟩ := l
        cases o with
        | some i => rfl
        | none =>
          simp only [Except.map]
          rw [← searchRightT_fst]
          cases searchRightT bh keys st acc len limit with
          | error e => rfl
          | ok r =>
            obtain ⟨o, log'⟩ := r
            cases o with
            | some i => rfl
            | none =>
              simp only [Except.map]
              rw [← subLenLoopT_fst]
              cases subLenLoopT bh keys st acc mx (len + 1) <;> rfl
  · rfl
termination_by mx + 1 - len

theorem analyzeSliceKeysT_fst [Target] (eqT : T → T → Bool) (bh : List T → Nat) (keys : List (List T)) :
    (analyzeSliceKeysT eqT bh keys).map Prod.fst = analyzeSliceKeys eqT bh keys := by
  unfold analyzeSliceKeysT analyzeSliceKeys
  cases analyzeLengths keys with
  | general =>
    unfold analyzeSubslices
    simp only [bind, Except.bind]
    rw [← statsLoopT_fst]
    generalize statsLoopT eqT (keys.headD []) keys _ = r
    cases r with
    | error e => rfl
    | ok st =>
      simp only [Except.map]
      rw [← subLenLoopT_fst]
      generalize subLenLoopT bh keys st.1 _ _ _ = q
      cases q <;> rfl
  | left => rfl
  | right => rfl
  | length => rfl

theorem countCollisionsT_fst (n best : Nat) (codes : List Nat) (tbl : BitSet) (coll : Nat) :
    (countCollisionsT n best codes tbl coll).map Prod.fst = countCollisions n best codes tbl coll := by
  induction codes generalizing tbl coll with
  | nil => rfl
  | cons code rest ih =>
    unfold countCollisionsT countCollisions
    cases cmod code n with
    | error e => rfl
    | ok slot =>
      simp only [bind, Except.bind]
      cases tbl.get slot with
      | error e => rfl
      | ok b =>
        cases b with
        | true =>
          simp only [if_true]
          split
          · rfl
          · rw [← ih]; cases countCollisionsT n best rest tbl (coll + 1) <;> rfl
        | false =>
          simp only [Bool.false_eq_true, if_false]
          cases tbl.set slot with
          | error e => rfl
          | ok tbl' =>
            simp only
            rw [← ih]; cases countCollisionsT n best rest tbl' coll <;> rfl

theorem analyzeLoopT_fst (codes : List Nat) (mx : Nat) (tbl : BitSet) (bs bc acc n : Nat) :
    (analyzeLoopT codes mx tbl bs bc acc n).map Prod.fst = analyzeLoop codes mx tbl bs bc acc n := by
  unfold analyzeLoopT analyzeLoop
  split
  · simp only [bind, Except.bind]
    rw [← countCollisionsT_fst]
    cases countCollisionsT n bc codes tbl.clearAll 0 with
    | error e => rfl
    | ok c =>
      obtain ⟨⟨t, coll⟩, k⟩ := c
      by_cases h1 : coll < bc
      · by_cases h2 : coll ≤ acc
        · simp only [Except.map, h1, h2, if_true]
        · have h := analyzeLoopT_fst codes mx t (if bs = 0 ∨ coll ≤ acc then n else bs)
            (if bs = 0 ∨ coll ≤ acc then coll else bc) (if acc > 0 then acc / 100 * 20 else acc) (nextPow2 (n + 1))
          simp only [Except.map, h1, h2, if_true, if_false] at h ⊢
          rw [← h]
          generalize analyzeLoopT codes mx t _ _ _ _ = r
          cases r <;> rfl
      · have h := analyzeLoopT_fst codes mx t bs bc (if acc > 0 then acc / 100 * 20 else acc) (nextPow2 (n + 1))
        simp only [Except.map, h1, if_false] at h ⊢
        rw [← h]
        generalize analyzeLoopT codes mx t _ _ _ _ = r
        cases r <;> rfl
  · rfl
termination_by mx + 1 - n
decreasing_by
  all_goals
    have := lt_nextPow2_succ n
    omega

theorem analyzeHashCodesT_fst [Target] (codes : List Nat) : (analyzeHashCodesT codes).map Prod.fst = analyzeHashCodes codes := by
  unfold analyzeHashCodesT analyzeHashCodes
  simp only [bind, Except.bind]
  generalize csub codes.length _ = a
  cases a with
  | error e => rfl
  | ok a =>
    simp only
    generalize cmul codes.length _ = b
    cases b with
    | error e => rfl
    | ok b => exact analyzeLoopT_fst ..

theorem vecContainsT_fst (i : Nat) (l : List Nat) : (vecContainsT i l).1 = l.contains i := by
  induction l with
  | nil => rfl
  | cons x xs ih =>
    unfold vecContainsT
    rw [List.contains_cons]
    by_cases h : x = i
    · subst h; simp
    · rw [if_neg (by simpa using h), beq_false_of_ne (fun e => h e.symm)]
      simpa using ih

theorem retainNotInT_fst {T : Type _} (dupes : List Nat) (xs : List T) (i : Nat) :
    (retainNotInT dupes xs i).1 = retainNotIn dupes xs i := by
  induction xs generalizing i with
  | nil => rfl
  | cons x xs ih =>
    unfold retainNotInT retainNotIn
    simp only [vecContainsT_fst, ih]

theorem usingHashT_fst {T : Type _} (find : HbFind) (entries : List T) (hasher : T → Nat) (eq : T → T → Bool) :
    (usingHashT find entries hasher eq).map Prod.fst = usingHash find entries hasher eq := by
  unfold usingHashT usingHash
  split
  · simp only [bind, Except.bind]
    cases usingHashLoop find hasher eq entries entries 0 [] [] with
    | error e => rfl
    | ok d =>
      simp only [Except.map]
      split
      · rfl
      · rw [retainNotInT_fst]
  · rfl

theorem anyT_fst {T : Type _} (p : T → Bool) (xs : List T) : (anyT p xs).1 = xs.any p := by
  induction xs with
  | nil => rfl
  | cons x xs ih =>
    unfold anyT
    rw [List.any_cons]
    cases p x with
    | true => rfl
    | false => simpa using ih

theorem usingEqDupesT_fst {T : Type _} (cmp : T → T → Bool) (xs : List T) (i : Nat) :
    (usingEqDupesT cmp xs i).1 = usingEqDupes cmp xs i := by
  induction xs generalizing i with
  | nil => rfl
  | cons x xs ih =>
    unfold usingEqDupesT usingEqDupes
    simp only [anyT_fst, ih]

theorem usingEqT_fst {T : Type _} (entries : List T) (cmp : T → T → Bool) :
    (usingEqT entries cmp).1 = usingEq entries cmp := by
  unfold usingEqT usingEq
  split
  · simp only [usingEqDupesT_fst]
  · rfl

/-- From the erased run to the recorded one. -/
theorem ok_of_map_fst {α β : Type} {x : Res (α × β)} {y : Res α} (h : x.map Prod.fst = y) {a : α} (hy : y = .ok a) :
    ∃ w, x = .ok (a, w) := by
  subst hy
  cases x with
  | error e => cases h
  | ok p => obtain ⟨a', w⟩ := p; cases h; exact ⟨w, rfl⟩

theorem FzHashMap.withHasherT_fst [Target] {K V : Type} (find : HbFind) (sort : Sorter (K × V)) (eqK : K → K → Bool) (bh : K → Nat)
    (es : List (K × V)) :
    (FzHashMap.withHasherT find sort eqK bh es).map Prod.fst = FzHashMap.withHasher find sort eqK bh es := by
  unfold FzHashMap.withHasherT FzHashMap.withHasher
  rw [← usingHashT_fst]
  simp only [bind, Except.bind]
  generalize usingHashT find es _ _ = a
  cases a with
  | error e => rfl
  | ok a =>
    simp only [Except.map]
    generalize HashMap.fromDedupped .large sort (bridgeHash bh) a.1 = b
    cases b with
    | error e => rfl
    | ok b =>
      simp only
      generalize unwrapR b = c
      cases c <;> rfl

theorem FzStringMap.withHasherT_fst [Target] {V : Type} (sort : Sorter (Str × V)) (bhStr bhSlice : Str → Nat) (es : List (Str × V)) :
    (FzStringMap.withHasherT sort bhStr bhSlice es).map Prod.fst = FzStringMap.withHasher sort bhStr bhSlice es := by
  unfold FzStringMap.withHasherT FzStringMap.withHasher
  simp only [bind, Except.bind, ← analyzeSliceKeysT_fst]
  generalize analyzeSliceKeysT _ _ _ = a
  cases a with
  | error e => rfl
  | ok a =>
    simp only [Except.map]
    generalize FzStringMap.build sort bhStr bhSlice _ a.1 = b
    cases b <;> rfl

end Frozen.Model
