import Verif.Lemmas.CostBounds

/-!
# The recorded work is all that the analyzers do

If the elements compare and the pieces hash as before wherever the record says they were compared and hashed, the analyzers
run as before.
-/

namespace Frozen.Model

variable {T : Type}

theorem prefixLoopT_congr {eqT eqT' : T → T → Bool} {s k0 : List T} {p : Nat} {fuel i : Nat} {r : Nat × List (T × T)}
    (h : prefixLoopT eqT s k0 p fuel i = .ok r) (hc : ∀ x ∈ r.2, eqT' x.1 x.2 = eqT x.1 x.2) :
    prefixLoopT eqT' s k0 p fuel i = .ok r := by
  induction fuel generalizing i r with
  | zero => exact h
  | succ f ih =>
    unfold prefixLoopT at h ⊢
    cases ha : idx s i with
    | error e => rw [ha] at h; cases h
    | ok a =>
      cases hb : idx k0 i with
      | error e => rw [ha, hb] at h; cases h
      | ok c =>
        simp only [ha, hb, bind, Except.bind] at h ⊢
        by_cases he : eqT a c = true
        · rw [if_pos he] at h
          cases hr : prefixLoopT eqT s k0 p f (i + 1) with
          | error e => rw [hr] at h; cases h
          | ok q =>
            rw [hr] at h
            cases h
            have e1 := hc (a, c) (List.mem_cons_self ..)
            simp only at e1
            rw [if_pos (by rw [e1]; exact he), ih hr (fun x hx => hc x (List.mem_cons_of_mem _ hx))]
        · rw [if_neg he] at h
          cases h
          have e1 := hc (a, c) (List.mem_cons_self ..)
          simp only at e1
          rw [if_neg (by rw [e1]; exact he)]

theorem suffixLoopT_congr {eqT eqT' : T → T → Bool} {s k0 : List T} {p : Nat} {fuel i : Nat} {r : Nat × List (T × T)}
    (h : suffixLoopT eqT s k0 p fuel i = .ok r) (hc : ∀ x ∈ r.2, eqT' x.1 x.2 = eqT x.1 x.2) :
    suffixLoopT eqT' s k0 p fuel i = .ok r := by
  induction fuel generalizing i r with
  | zero => exact h
  | succ f ih =>
    unfold suffixLoopT at h ⊢
    cases ha : idxFromEnd s i with
    | error e => rw [ha] at h; cases h
    | ok a =>
      cases hb : idxFromEnd k0 i with
      | error e => rw [ha, hb] at h; cases h
      | ok c =>
        simp only [ha, hb, bind, Except.bind] at h ⊢
        by_cases he : eqT a c = true
        · rw [if_pos he] at h
          cases hr : suffixLoopT eqT s k0 p f (i + 1) with
          | error e => rw [hr] at h; cases h
          | ok q =>
            rw [hr] at h
            cases h
            have e1 := hc (a, c) (List.mem_cons_self ..)
            simp only at e1
            rw [if_pos (by rw [e1]; exact he), ih hr (fun x hx => hc x (List.mem_cons_of_mem _ hx))]
        · rw [if_neg he] at h
          cases h
          have e1 := hc (a, c) (List.mem_cons_self ..)
          simp only at e1
          rw [if_neg (by rw [e1]; exact he)]

theorem statsLoopT_congr {eqT eqT' : T → T → Bool} {k0 : List T} {keys : List (List T)} {st : SliceStats}
    {r : SliceStats × List (T × T)} (h : statsLoopT eqT k0 keys st = .ok r) (hc : ∀ x ∈ r.2, eqT' x.1 x.2 = eqT x.1 x.2) :
    statsLoopT eqT' k0 keys st = .ok r := by
  induction keys generalizing st r with
  | nil => exact h
  | cons s rest ih =>
    unfold statsLoopT at h ⊢
    simp only [bind, Except.bind] at h ⊢
    generalize (if s.length < st.prefixLen then s.length else st.prefixLen) = p at h ⊢
    generalize (if s.length < st.suffixLen then s.length else st.suffixLen) = u at h ⊢
    cases h1 : prefixLoopT eqT s k0 p p 0 with
    | error e => rw [h1] at h; cases h
    | ok a =>
      simp only [h1] at h
      cases h2 : suffixLoopT eqT s k0 u u 0 with
      | error e => rw [h2] at h; cases h
      | ok b =>
        simp only [h2] at h
        generalize hx : statsLoopT eqT k0 rest _ = x at h
        cases x with
        | error e => cases h
        | ok q =>
          cases h
          simp only [List.mem_append] at hc
          rw [prefixLoopT_congr h1 (fun x hx => hc x (.inl (.inl hx)))]
          simp only
          rw [suffixLoopT_congr h2 (fun x hx => hc x (.inl (.inr hx)))]
          simp only
          rw [ih hx (fun x hx => hc x (.inr hx))]

theorem uniqueLoopT_congr {bh bh' : List T → Nat} {lj : Bool} {i len : Nat} {keys : List (List T)} {set : List Nat} {acc : Nat}
    {r : Bool × List (List T)} (h : uniqueLoopT bh lj i len keys set acc = .ok r) (hc : ∀ x ∈ r.2, bh' x = bh x) :
    uniqueLoopT bh' lj i len keys set acc = .ok r := by
  induction keys generalizing set acc r with
  | nil => exact h
  | cons s rest ih =>
    unfold uniqueLoopT at h ⊢
    cases hs : subslice lj i len s with
    | error e => rw [hs] at h; cases h
    | ok sub =>
      simp only [hs, bind, Except.bind] at h ⊢
      by_cases h1 : set.contains (bh sub) = true
      · rw [if_pos h1] at h
        by_cases h2 : acc = 0
        · rw [if_pos h2] at h
          cases h
          rw [hc sub (List.mem_cons_self ..), if_pos h1, if_pos h2]
        · rw [if_neg h2] at h
          generalize hx : uniqueLoopT bh lj i len rest _ _ = x at h
          cases x with
          | error e => cases h
          | ok q =>
            cases h
            rw [hc sub (List.mem_cons_self ..), if_pos h1, if_neg h2, ih hx (fun x hx => hc x (List.mem_cons_of_mem _ hx))]
      · rw [if_neg h1] at h
        generalize hx : uniqueLoopT bh lj i len rest _ _ = x at h
        cases x with
        | error e => cases h
        | ok q =>
          cases h
          rw [hc sub (List.mem_cons_self ..), if_neg h1, ih hx (fun x hx => hc x (List.mem_cons_of_mem _ hx))]

theorem searchIndexT_congr {bh bh' : List T → Nat} {keys : List (List T)} {len : Nat} {lj : Bool} {acc limit i : Nat}
    {r : Option Nat × List (List T)} (h : searchIndexT bh keys len lj acc limit i = .ok r) (hc : ∀ x ∈ r.2, bh' x = bh x) :
    searchIndexT bh' keys len lj acc limit i = .ok r := by
  unfold searchIndexT at h ⊢
  by_cases hi : i ≤ limit
  · rw [if_pos hi] at h ⊢
    cases hu : uniqueLoopT bh lj i len keys [] acc with
    | error e => rw [hu] at h; cases h
    | ok u =>
      simp only [hu, bind, Except.bind] at h ⊢
      by_cases h1 : u.1 = true
      · rw [if_pos h1] at h
        cases h
        rw [uniqueLoopT_congr hu hc]
        simp only
        rw [if_pos h1]
      · rw [if_neg h1] at h
        cases hr : searchIndexT bh keys len lj acc limit (i + 1) with
        | error e => rw [hr] at h; cases h
        | ok q =>
          rw [hr] at h
          cases h
          simp only [List.mem_append] at hc
          rw [uniqueLoopT_congr hu (fun x hx => hc x (.inl hx))]
          simp only
          rw [if_neg h1, searchIndexT_congr hr (fun x hx => hc x (.inr hx))]
  · rw [if_neg hi] at h ⊢
    exact h
termination_by limit + 1 - i

theorem searchRightT_congr {bh bh' : List T → Nat} {keys : List (List T)} {st : SliceStats} {acc len limit : Nat}
    {r : Option Nat × List (List T)} (h : searchRightT bh keys st acc len limit = .ok r) (hc : ∀ x ∈ r.2, bh' x = bh x) :
    searchRightT bh' keys st acc len limit = .ok r := by
  unfold searchRightT at h ⊢
  by_cases h1 : st.minLen ≠ st.maxLen
  · rw [if_pos h1] at h ⊢
    exact searchIndexT_congr h hc
  · rw [if_neg h1] at h ⊢
    exact h

theorem subLenLoopT_congr {bh bh' : List T → Nat} {keys : List (List T)} {st : SliceStats} {acc mx len : Nat}
    {r : SliceAnalysis × List (List T)} (h : subLenLoopT bh keys st acc mx len = .ok r) (hc : ∀ x ∈ r.2, bh' x = bh x) :
    subLenLoopT bh' keys st acc mx len = .ok r := by
  unfold subLenLoopT at h ⊢
  by_cases hle : len ≤ mx
  · rw [if_pos hle] at h ⊢
    cases hs : csub st.minLen len with
    | error e => rw [hs] at h; cases h
    | ok limit =>
      simp only [hs, bind, Except.bind] at h ⊢
      cases h1 : searchIndexT bh keys len true acc limit st.prefixLen with
      | error e => rw [h1] at h; cases h
      | ok l =>
        obtain ⟨o, log⟩ := l
        simp only [h1] at h
        cases o with
        | some i =>
          cases h
          rw [searchIndexT_congr h1 hc]
        | none =>
          simp only at h
          cases h2 : searchRightT bh keys st acc len limit with
          | error e => rw [h2] at h; cases h
          | ok q =>
            obtain ⟨o, log'⟩ := q
            simp only [h2] at h
            cases o with
            | some i =>
              cases h
              simp only [List.mem_append] at hc
              rw [searchIndexT_congr h1 (fun x hx => hc x (.inl hx))]
              simp only
              rw [searchRightT_congr h2 (fun x hx => hc x (.inr hx))]
            | none =>
              simp only at h
              cases h3 : subLenLoopT bh keys st acc mx (len + 1) with
              | error e => rw [h3] at h; cases h
              | ok n =>
                simp only [h3] at h
                cases h
                simp only [List.mem_append] at hc
                rw [searchIndexT_congr h1 (fun x hx => hc x (.inl (.inl hx)))]
                simp only
                rw [searchRightT_congr h2 (fun x hx => hc x (.inl (.inr hx)))]
                simp only
                rw [subLenLoopT_congr h3 (fun x hx => hc x (.inr hx))]
  · rw [if_neg hle] at h ⊢
    exact h
termination_by mx + 1 - len

theorem analyzeSliceKeysT_congr [Target] {eqT eqT' : T → T → Bool} {bh bh' : List T → Nat} {keys : List (List T)}
    {r : SliceAnalysis × SliceWork T} (h : analyzeSliceKeysT eqT bh keys = .ok r)
    (hc : ∀ x ∈ r.2.compared, eqT' x.1 x.2 = eqT x.1 x.2) (hh : ∀ x ∈ r.2.hashed, bh' x = bh x) :
    analyzeSliceKeysT eqT' bh' keys = .ok r := by
  unfold analyzeSliceKeysT at h ⊢
  cases ha : analyzeLengths keys with
  | general =>
    rw [ha] at h
    simp only [bind, Except.bind] at h ⊢
    generalize hs : statsLoopT eqT (keys.headD []) keys _ = x at h
    cases x with
    | error e => cases h
    | ok st =>
      simp only at h
      generalize hq : subLenLoopT bh keys st.1 _ _ _ = q at h
      cases q with
      | error e => cases h
      | ok q =>
        cases h
        rw [statsLoopT_congr hs hc]
        simp only
        rw [subLenLoopT_congr hq hh]
  | left rg => rw [ha] at h; exact h
  | right rg => rw [ha] at h; exact h
  | length => rw [ha] at h; exact h

/-! ## Hash codes -/

theorem countCollisionsT_congr {n best : Nat} {codes codes' : List Nat} {tbl : BitSet} {coll : Nat} {r : (BitSet × Nat) × Nat}
    (h : countCollisionsT n best codes tbl coll = .ok r) (hl : codes'.length = codes.length)
    (hc : ∀ i, i < r.2 → (codes'[i]?).map (· % n) = (codes[i]?).map (· % n)) :
    countCollisionsT n best codes' tbl coll = .ok r := by
  induction codes generalizing codes' tbl coll r with
  | nil =>
    cases codes' with
    | nil => exact h
    | cons _ _ => cases hl
  | cons code rest ih =>
    cases codes' with
    | nil => cases hl
    | cons code' rest' =>
      have hl' : rest'.length = rest.length := by simpa using hl
      unfold countCollisionsT at h ⊢
      have step : 0 < r.2 → cmod code' n = cmod code n := by
        intro hr
        have := hc 0 hr
        simp only [List.getElem?_cons_zero, Option.map_some, Option.some.injEq] at this
        unfold cmod
        rw [this]
      have tail : ∀ {q : (BitSet × Nat) × Nat}, r.2 = q.2 + 1 → ∀ i, i < q.2 → (rest'[i]?).map (· % n) = (rest[i]?).map (· % n) := by
        intro q hq i hi
        have := hc (i + 1) (by omega)
        simpa using this
      cases h1 : cmod code n with
      | error e => rw [h1] at h; cases h
      | ok slot =>
        simp only [h1, bind, Except.bind] at h
        cases h2 : tbl.get slot with
        | error e => rw [h2] at h; cases h
        | ok b =>
          simp only [h2] at h
          cases b with
          | true =>
            simp only [if_true] at h
            by_cases h3 : coll + 1 ≥ best
            · rw [if_pos h3] at h
              have hr : 0 < r.2 := by cases h; simp
              rw [step hr, h1]
              simp only [bind, Except.bind, h2, if_true]
              rw [if_pos h3]
              exact h
            · rw [if_neg h3] at h
              cases hr : countCollisionsT n best rest tbl (coll + 1) with
              | error e => rw [hr] at h; cases h
              | ok q =>
                rw [hr] at h
                have e : r.2 = q.2 + 1 := by cases h; rfl
                rw [step (by omega), h1]
                simp only [bind, Except.bind, h2, if_true]
                rw [if_neg h3, ih hr hl' (tail e)]
                exact h
          | false =>
            simp only [Bool.false_eq_true, if_false] at h
            cases h3 : tbl.set slot with
            | error e => rw [h3] at h; cases h
            | ok tbl' =>
              simp only [h3] at h
              cases hr : countCollisionsT n best rest tbl' coll with
              | error e => rw [hr] at h; cases h
              | ok q =>
                rw [hr] at h
                have e : r.2 = q.2 + 1 := by cases h; rfl
                rw [step (by omega), h1]
                simp only [bind, Except.bind, h2, Bool.false_eq_true, if_false, h3]
                rw [ih hr hl' (tail e)]
                exact h

theorem analyzeLoopT_congr {codes codes' : List Nat} {mx : Nat} {tbl : BitSet} {bs bc acc n : Nat}
    {r : (Nat × Nat) × List (Nat × Nat)} (h : analyzeLoopT codes mx tbl bs bc acc n = .ok r)
    (hl : codes'.length = codes.length)
    (hc : ∀ p ∈ r.2, ∀ i, i < p.2 → (codes'[i]?).map (· % p.1) = (codes[i]?).map (· % p.1)) :
    analyzeLoopT codes' mx tbl bs bc acc n = .ok r := by
  unfold analyzeLoopT at h ⊢
  by_cases hn : n ≤ mx
  · rw [if_pos hn] at h ⊢
    simp only [bind, Except.bind] at h ⊢
    cases hcc : countCollisionsT n bc codes tbl.clearAll 0 with
    | error e => rw [hcc] at h; cases h
    | ok c =>
      rw [hcc] at h
      simp only at h
      by_cases h1 : c.1.2 < bc
      · rw [if_pos h1] at h
        by_cases h2 : c.1.2 ≤ acc
        · rw [if_pos h2] at h
          have e : r.2 = [(n, c.2)] := by cases h; rfl
          rw [countCollisionsT_congr hcc hl (hc (n, c.2) (by rw [e]; simp))]
          simp only
          rw [if_pos h1, if_pos h2]
          exact h
        · rw [if_neg h2] at h
          generalize hx : analyzeLoopT codes mx c.1.1 _ _ _ _ = x at h
          cases x with
          | error e => cases h
          | ok q =>
            have e : r.2 = (n, c.2) :: q.2 := by cases h; rfl
            rw [countCollisionsT_congr hcc hl (hc (n, c.2) (by rw [e]; simp))]
            simp only
            rw [if_pos h1, if_neg h2, analyzeLoopT_congr hx hl (fun p hp => hc p (by rw [e]; exact List.mem_cons_of_mem _ hp))]
            exact h
      · rw [if_neg h1] at h
        generalize hx : analyzeLoopT codes mx c.1.1 _ _ _ _ = x at h
        cases x with
        | error e => cases h
        | ok q =>
          have e : r.2 = (n, c.2) :: q.2 := by cases h; rfl
          rw [countCollisionsT_congr hcc hl (hc (n, c.2) (by rw [e]; simp))]
          simp only
          rw [if_neg h1, analyzeLoopT_congr hx hl (fun p hp => hc p (by rw [e]; exact List.mem_cons_of_mem _ hp))]
          exact h
  · rw [if_neg hn] at h ⊢
    exact h
termination_by mx + 1 - n
decreasing_by
  all_goals
    have := lt_nextPow2_succ n
    omega

theorem analyzeHashCodesT_congr [Target] {codes codes' : List Nat} {r : (Nat × Nat) × List (Nat × Nat)}
    (h : analyzeHashCodesT codes = .ok r) (hl : codes'.length = codes.length)
    (hc : ∀ p ∈ r.2, ∀ i, i < p.2 → (codes'[i]?).map (· % p.1) = (codes[i]?).map (· % p.1)) :
    analyzeHashCodesT codes' = .ok r := by
  unfold analyzeHashCodesT at h ⊢
  rw [hl]
  simp only [bind, Except.bind] at h ⊢
  generalize csub codes.length _ = a at h ⊢
  cases a with
  | error e => exact h
  | ok a =>
    simp only at h ⊢
    generalize cmul codes.length _ = b at h ⊢
    cases b with
    | error e => exact h
    | ok b => exact analyzeLoopT_congr h hl hc

end Frozen.Model
