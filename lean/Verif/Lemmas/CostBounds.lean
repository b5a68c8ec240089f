import Verif.Lemmas.Costs

/-!
# Bounds on the recorded work
-/

namespace Frozen.Model

open Frozen.Props

variable {T : Type}

theorem prefixLoopT_le {eqT : T → T → Bool} {s k0 : List T} {p : Nat} {fuel i : Nat} {r : Nat × List (T × T)}
    (h : prefixLoopT eqT s k0 p fuel i = .ok r) : r.2.length ≤ fuel := by
  induction fuel generalizing i r with
  | zero => cases h; exact Nat.le_refl _
  | succ f ih =>
    unfold prefixLoopT at h
    cases ha : idx s i with
    | error e => rw [ha] at h; cases h
    | ok a =>
      cases hc : idx k0 i with
      | error e => rw [ha, hc] at h; cases h
      | ok c =>
        simp only [ha, hc, bind, Except.bind] at h
        split at h
        · cases hr : prefixLoopT eqT s k0 p f (i + 1) with
          | error e => rw [hr] at h; cases h
          | ok q =>
            rw [hr] at h
            cases h
            have := ih hr
            simp only [List.length_cons]
            omega
        · cases h; simp only [List.length_singleton]; omega

theorem suffixLoopT_le {eqT : T → T → Bool} {s k0 : List T} {p : Nat} {fuel i : Nat} {r : Nat × List (T × T)}
    (h : suffixLoopT eqT s k0 p fuel i = .ok r) : r.2.length ≤ fuel := by
  induction fuel generalizing i r with
  | zero => cases h; exact Nat.le_refl _
  | succ f ih =>
    unfold suffixLoopT at h
    cases ha : idxFromEnd s i with
    | error e => rw [ha] at h; cases h
    | ok a =>
      cases hc : idxFromEnd k0 i with
      | error e => rw [ha, hc] at h; cases h
      | ok c =>
        simp only [ha, hc, bind, Except.bind] at h
        split at h
        · cases hr : suffixLoopT eqT s k0 p f (i + 1) with
          | error e => rw [hr] at h; cases h
          | ok q =>
            rw [hr] at h
            cases h
            have := ih hr
            simp only [List.length_cons]
            omega
        · cases h; simp only [List.length_singleton]; omega

theorem statsLoopT_le {eqT : T → T → Bool} {k0 : List T} {keys : List (List T)} {st : SliceStats} {r : SliceStats × List (T × T)}
    (h : statsLoopT eqT k0 keys st = .ok r) : r.2.length ≤ 2 * (keys.map List.length).sum := by
  induction keys generalizing st r with
  | nil => cases h; exact Nat.le_refl _
  | cons s rest ih =>
    unfold statsLoopT at h
    simp only [bind, Except.bind] at h
    generalize hp : (if s.length < st.prefixLen then s.length else st.prefixLen) = p at h
    generalize hu : (if s.length < st.suffixLen then s.length else st.suffixLen) = u at h
    have hp' : p ≤ s.length := by rw [← hp]; split <;> omega
    have hu' : u ≤ s.length := by rw [← hu]; split <;> omega
    cases h1 : prefixLoopT eqT s k0 p p 0 with
    | error e => rw [h1] at h; cases h
    | ok a =>
      simp only [h1] at h
      cases h2 : suffixLoopT eqT s k0 u u 0 with
      | error e => rw [h2] at h; cases h
      | ok b =>
        simp only [h2] at h
        generalize hx : statsLoopT eqT k0 rest _ = x at h
        cases x with
        | error e => cases h
        | ok q =>
          cases h
          have := ih hx
          have := prefixLoopT_le h1
          have := suffixLoopT_le h2
          simp only [List.map_cons, List.sum_cons, List.length_append]
          omega

theorem idxRange_length {α : Type} {xs ys : List α} {lo hi : Nat} (h : idxRange xs lo hi = .ok ys) :
    ys.length = hi - lo ∧ ys <:+: xs := by
  unfold idxRange at h
  split at h
  · rename_i hc
    cases h
    refine ⟨by simp only [List.length_take, List.length_drop]; omega, ?_⟩
    exact (List.take_prefix _ _).isInfix.trans (List.drop_suffix _ _).isInfix
  · cases h

theorem subslice_length {lj : Bool} {i len : Nat} {s sub : List T} (h : subslice lj i len s = .ok sub) :
    sub.length = len ∧ sub <:+: s := by
  unfold subslice at h
  split at h
  · have := idxRange_length h
    exact ⟨by omega, this.2⟩
  · cases h1 : csub s.length i with
    | error e => rw [h1] at h; cases h
    | ok a =>
      simp only [h1, bind, Except.bind] at h
      cases h2 : csub a len with
      | error e => rw [h2] at h; cases h
      | ok b =>
        simp only [h2] at h
        have := idxRange_length h
        exact ⟨by omega, this.2⟩

/-- Every hashed sub-slice is a piece of the given length of one of the keys. -/
def PiecesOf (keys : List (List T)) (len : Nat) (log : List (List T)) : Prop :=
  ∀ x ∈ log, x.length = len ∧ ∃ s ∈ keys, x <:+: s

theorem uniqueLoopT_le {bh : List T → Nat} {lj : Bool} {i len : Nat} {keys : List (List T)} {set : List Nat} {acc : Nat}
    {r : Bool × List (List T)} (h : uniqueLoopT bh lj i len keys set acc = .ok r) :
    r.2.length ≤ keys.length ∧ PiecesOf keys len r.2 := by
  induction keys generalizing set acc r with
  | nil => cases h; exact ⟨Nat.le_refl _, fun x hx => by cases hx⟩
  | cons s rest ih =>
    unfold uniqueLoopT at h
    cases hs : subslice lj i len s with
    | error e => rw [hs] at h; cases h
    | ok sub =>
      have hsub := subslice_length hs
      have key : ∀ q : Bool × List (List T), q.2.length ≤ rest.length ∧ PiecesOf rest len q.2 →
          (sub :: q.2).length ≤ (s :: rest).length ∧ PiecesOf (s :: rest) len (sub :: q.2) := by
        intro q hq
        refine ⟨by simp only [List.length_cons]; omega, fun x hx => ?_⟩
        rcases List.mem_cons.mp hx with rfl | hx
        · exact ⟨hsub.1, s, List.mem_cons_self .., hsub.2⟩
        · obtain ⟨h1, t, h2, h3⟩ := hq.2 x hx
          exact ⟨h1, t, List.mem_cons_of_mem _ h2, h3⟩
      simp only [hs, bind, Except.bind] at h
      split at h
      · split at h
        · cases h
          exact key (true, []) ⟨Nat.zero_le _, fun x hx => by cases hx⟩
        · generalize hx : uniqueLoopT bh lj i len rest _ _ = x at h
          cases x with
          | error e => cases h
          | ok q => cases h; exact key q (ih hx)
      · generalize hx : uniqueLoopT bh lj i len rest _ _ = x at h
        cases x with
        | error e => cases h
        | ok q => cases h; exact key q (ih hx)

theorem PiecesOf.append {keys : List (List T)} {len : Nat} {a b : List (List T)} (ha : PiecesOf keys len a)
    (hb : PiecesOf keys len b) : PiecesOf keys len (a ++ b) := fun x hx => by
  rcases List.mem_append.mp hx with h | h
  · exact ha x h
  · exact hb x h

theorem searchIndexT_le {bh : List T → Nat} {keys : List (List T)} {len : Nat} {lj : Bool} {acc limit i : Nat}
    {r : Option Nat × List (List T)} (h : searchIndexT bh keys len lj acc limit i = .ok r) :
    r.2.length ≤ (limit + 1 - i) * keys.length ∧ PiecesOf keys len r.2 := by
  unfold searchIndexT at h
  split at h
  · rename_i hi
    cases hu : uniqueLoopT bh lj i len keys [] acc with
    | error e => rw [hu] at h; cases h
    | ok u =>
      have h1 := uniqueLoopT_le hu
      have e : limit + 1 - i = (limit + 1 - (i + 1)) + 1 := by omega
      simp only [hu, bind, Except.bind] at h
      split at h
      · cases h
        refine ⟨?_, h1.2⟩
        rw [e, Nat.add_mul]
        simp only
        omega
      · cases hr : searchIndexT bh keys len lj acc limit (i + 1) with
        | error e => rw [hr] at h; cases h
        | ok q =>
          rw [hr] at h
          cases h
          have h2 := searchIndexT_le hr
          refine ⟨?_, h1.2.append h2.2⟩
          rw [e, Nat.add_mul]
          simp only [List.length_append]
          omega
  · cases h
    exact ⟨Nat.zero_le _, fun x hx => by cases hx⟩
termination_by limit + 1 - i

theorem searchRightT_le {bh : List T → Nat} {keys : List (List T)} {st : SliceStats} {acc len limit : Nat}
    {r : Option Nat × List (List T)} (h : searchRightT bh keys st acc len limit = .ok r) :
    r.2.length ≤ (limit + 1) * keys.length ∧ PiecesOf keys len r.2 := by
  unfold searchRightT at h
  split at h
  · have := searchIndexT_le h
    exact ⟨this.1.trans (Nat.mul_le_mul_right _ (by omega)), this.2⟩
  · cases h
    exact ⟨Nat.zero_le _, fun x hx => by cases hx⟩

/-- Every hashed sub-slice is a piece of one of the keys, of a length within the bounds. -/
def ShortPieces (keys : List (List T)) (mx : Nat) (log : List (List T)) : Prop :=
  ∀ x ∈ log, 1 ≤ x.length ∧ x.length ≤ mx ∧ ∃ s ∈ keys, x <:+: s

theorem PiecesOf.short {keys : List (List T)} {len mx : Nat} {a : List (List T)} (ha : PiecesOf keys len a) (h1 : 1 ≤ len)
    (h2 : len ≤ mx) : ShortPieces keys mx a := fun x hx => by
  obtain ⟨h3, h4⟩ := ha x hx
  exact ⟨by omega, by omega, h4⟩

theorem ShortPieces.append {keys : List (List T)} {mx : Nat} {a b : List (List T)} (ha : ShortPieces keys mx a)
    (hb : ShortPieces keys mx b) : ShortPieces keys mx (a ++ b) := fun x hx => by
  rcases List.mem_append.mp hx with h | h
  · exact ha x h
  · exact hb x h

theorem subLenLoopT_le {bh : List T → Nat} {keys : List (List T)} {st : SliceStats} {acc mx len : Nat}
    {r : SliceAnalysis × List (List T)} (h : subLenLoopT bh keys st acc mx len = .ok r) (hlen : 1 ≤ len) :
    r.2.length ≤ (mx + 1 - len) * (2 * (st.minLen * keys.length)) ∧ ShortPieces keys mx r.2 := by
  unfold subLenLoopT at h
  split at h
  · rename_i hle
    cases hc : csub st.minLen len with
    | error e => rw [hc] at h; cases h
    | ok limit =>
      have hl : limit + 1 ≤ st.minLen := by
        unfold csub at hc
        split at hc
        · cases hc; omega
        · cases hc
      have hm : (limit + 1) * keys.length ≤ st.minLen * keys.length := Nat.mul_le_mul_right _ hl
      have e : mx + 1 - len = (mx + 1 - (len + 1)) + 1 := by omega
      simp only [hc, bind, Except.bind] at h
      cases h1 : searchIndexT bh keys len true acc limit st.prefixLen with
      | error e => rw [h1] at h; cases h
      | ok l =>
        have b1 := searchIndexT_le h1
        have b1' : l.2.length ≤ st.minLen * keys.length :=
          b1.1.trans ((Nat.mul_le_mul_right _ (by omega)).trans hm)
        obtain ⟨o, log⟩ := l
        simp only [h1] at h
        cases o with
        | some i =>
          cases h
          refine ⟨?_, b1.2.short hlen hle⟩
          rw [e, Nat.add_mul]
          simp only at b1' ⊢
          omega
        | none =>
          simp only at h
          cases h2 : searchRightT bh keys st acc len limit with
          | error e => rw [h2] at h; cases h
          | ok q =>
            have b2 := searchRightT_le h2
            obtain ⟨o, log'⟩ := q
            simp only [h2] at h
            cases o with
            | some i =>
              cases h
              refine ⟨?_, (b1.2.short hlen hle).append (b2.2.short hlen hle)⟩
              rw [e, Nat.add_mul]
              simp only [List.length_append] at b1' b2 ⊢
              omega
            | none =>
              simp only at h
              cases h3 : subLenLoopT bh keys st acc mx (len + 1) with
              | error e => rw [h3] at h; cases h
              | ok n =>
                have b3 := subLenLoopT_le h3 (by omega)
                simp only [h3] at h
                cases h
                refine ⟨?_, ((b1.2.short hlen hle).append (b2.2.short hlen hle)).append b3.2⟩
                rw [e, Nat.add_mul]
                simp only [List.length_append] at b1' b2 ⊢
                omega
  · cases h
    exact ⟨Nat.zero_le _, fun x hx => by cases hx⟩
termination_by mx + 1 - len

theorem sum_ge_of_forall_ge {l : List Nat} {m : Nat} (h : ∀ x ∈ l, m ≤ x) : m * l.length ≤ l.sum := by
  induction l with
  | nil => simp
  | cons x l ih =>
    have := ih (fun y hy => h y (List.mem_cons_of_mem _ hy))
    have := h x (List.mem_cons_self ..)
    rw [List.length_cons, List.sum_cons, Nat.mul_succ]
    omega

theorem sum_le_of_forall_le {l : List Nat} {m : Nat} (h : ∀ x ∈ l, x ≤ m) : l.sum ≤ l.length * m := by
  induction l with
  | nil => simp
  | cons x l ih =>
    have := ih (fun y hy => h y (List.mem_cons_of_mem _ hy))
    have := h x (List.mem_cons_self ..)
    rw [List.length_cons, List.sum_cons, Nat.succ_mul]
    omega

theorem sum_le_of_sublist {a b : List Nat} (h : a.Sublist b) : a.sum ≤ b.sum := by
  induction h with
  | slnil => exact Nat.le_refl _
  | cons x _ ih => rw [List.sum_cons]; omega
  | cons_cons x _ ih => rw [List.sum_cons, List.sum_cons]; omega

theorem analyzeSliceKeysT_le [Target] {eqT : T → T → Bool} {bh : List T → Nat} {keys : List (List T)} {r : SliceAnalysis × SliceWork T}
    (h : analyzeSliceKeysT eqT bh keys = .ok r) :
    r.2.compared.length ≤ 2 * (keys.map List.length).sum ∧
      (∀ k ∈ keys, r.2.hashed.length ≤ 32 * (k.length * keys.length)) ∧
      r.2.hashed.length ≤ 32 * (keys.map List.length).sum ∧ ShortPieces keys 16 r.2.hashed := by
  unfold analyzeSliceKeysT at h
  cases ha : analyzeLengths keys with
  | general =>
    rw [ha] at h
    simp only [bind, Except.bind] at h
    generalize hs : statsLoopT eqT (keys.headD []) keys _ = x at h
    cases x with
    | error e => cases h
    | ok st =>
      have hst : st.2.length ≤ 2 * (keys.map List.length).sum := statsLoopT_le hs
      have hh : keys.head? = some (keys.headD []) ∨ keys = [] := by cases keys <;> simp
      obtain ⟨st', h1, _, _, h4⟩ := statsLoop_spec eqT (keys.headD []) keys
        { minLen := usizeMax, maxLen := 0, prefixLen := usizeMax, suffixLen := usizeMax } (Or.inr hh) (Or.inr hh)
      have hfst := statsLoopT_fst eqT (keys.headD []) keys
        { minLen := usizeMax, maxLen := 0, prefixLen := usizeMax, suffixLen := usizeMax }
      rw [hs, h1] at hfst
      have est : st.1 = st' := by cases hfst; rfl
      simp only at h
      generalize hq : subLenLoopT bh keys st.1 _ _ _ = q at h
      cases q with
      | error e => cases h
      | ok q =>
        cases h
        have b := subLenLoopT_le hq (Nat.le_refl 1)
        have hmx : min st.1.minLen maxSubsliceLengthLimit ≤ 16 := Nat.min_le_right _ _
        have hmin : ∀ k ∈ keys, st.1.minLen ≤ k.length := fun k hk => by rw [est]; exact (h4 k hk).1
        have b1 : q.2.length ≤ 16 * (2 * (st.1.minLen * keys.length)) :=
          b.1.trans (Nat.mul_le_mul_right _ (by omega))
        have b2 : st.1.minLen * keys.length ≤ (keys.map List.length).sum := by
          have := sum_ge_of_forall_ge (l := keys.map List.length) (m := st.1.minLen) (fun x hx => by
            obtain ⟨k, hk, rfl⟩ := List.mem_map.mp hx
            exact hmin k hk)
          rwa [List.length_map] at this
        refine ⟨hst, fun k hk => ?_, by simp only; omega, fun x hx => ?_⟩
        · have := Nat.mul_le_mul_right keys.length (hmin k hk)
          simp only
          omega
        · obtain ⟨c1, c2, c3⟩ := b.2 x hx
          exact ⟨c1, by omega, c3⟩
  | left rg => rw [ha] at h; cases h; exact ⟨Nat.zero_le _, fun _ _ => Nat.zero_le _, Nat.zero_le _, fun x hx => by cases hx⟩
  | right rg => rw [ha] at h; cases h; exact ⟨Nat.zero_le _, fun _ _ => Nat.zero_le _, Nat.zero_le _, fun x hx => by cases hx⟩
  | length => rw [ha] at h; cases h; exact ⟨Nat.zero_le _, fun _ _ => Nat.zero_le _, Nat.zero_le _, fun x hx => by cases hx⟩

/-! ## Hash codes -/

theorem countCollisionsT_le {n best : Nat} {codes : List Nat} {tbl : BitSet} {coll : Nat} {r : (BitSet × Nat) × Nat}
    (h : countCollisionsT n best codes tbl coll = .ok r) : r.2 ≤ codes.length := by
  induction codes generalizing tbl coll r with
  | nil => cases h; exact Nat.le_refl _
  | cons code rest ih =>
    unfold countCollisionsT at h
    cases h1 : cmod code n with
    | error e => rw [h1] at h; cases h
    | ok slot =>
      simp only [h1, bind, Except.bind] at h
      cases h2 : tbl.get slot with
      | error e => rw [h2] at h; cases h
      | ok b =>
        simp only [h2] at h
        cases b with
        | true =>
          simp only [if_true] at h
          split at h
          · cases h; simp
          · cases hr : countCollisionsT n best rest tbl (coll + 1) with
            | error e => rw [hr] at h; cases h
            | ok q => rw [hr] at h; cases h; have := ih hr; simp only [List.length_cons]; omega
        | false =>
          simp only [Bool.false_eq_true, if_false] at h
          cases h3 : tbl.set slot with
          | error e => rw [h3] at h; cases h
          | ok tbl' =>
            simp only [h3] at h
            cases hr : countCollisionsT n best rest tbl' coll with
            | error e => rw [hr] at h; cases h
            | ok q => rw [hr] at h; cases h; have := ih hr; simp only [List.length_cons]; omega

theorem nextPow2_succ_pow (k : Nat) : nextPow2 (2 ^ k + 1) = 2 ^ (k + 1) := by
  have := Nat.two_pow_pos k
  unfold nextPow2
  rw [if_neg (by omega)]
  simp [Nat.log2_two_pow]

theorem analyzeLoopT_le {codes : List Nat} {hi : Nat} (d : Nat) : ∀ {k : Nat} {tbl : BitSet} {bs bc acc : Nat}
    {r : (Nat × Nat) × List (Nat × Nat)}, d = hi + 1 - k →
    analyzeLoopT codes (2 ^ hi) tbl bs bc acc (2 ^ k) = .ok r →
    r.2.length ≤ hi + 1 - k ∧ ∀ c ∈ r.2, c.2 ≤ codes.length := by
  induction d with
  | zero =>
    intro k tbl bs bc acc r hd h
    unfold analyzeLoopT at h
    have : ¬ 2 ^ k ≤ 2 ^ hi := by
      rw [Nat.pow_le_pow_iff_right (by omega)]; omega
    rw [if_neg this] at h
    cases h
    exact ⟨Nat.zero_le _, fun c hc => by cases hc⟩
  | succ d ih =>
    intro k tbl bs bc acc r hd h
    unfold analyzeLoopT at h
    have : 2 ^ k ≤ 2 ^ hi := by
      rw [Nat.pow_le_pow_iff_right (by omega)]; omega
    rw [if_pos this] at h
    simp only [bind, Except.bind] at h
    cases hc : countCollisionsT (2 ^ k) bc codes tbl.clearAll 0 with
    | error e => rw [hc] at h; cases h
    | ok c =>
      have hcl := countCollisionsT_le hc
      rw [hc, nextPow2_succ_pow] at h
      have key : ∀ q : (Nat × Nat) × List (Nat × Nat), (q.2.length ≤ hi + 1 - (k + 1) ∧ ∀ x ∈ q.2, x.2 ≤ codes.length) →
          ((2 ^ k, c.2) :: q.2).length ≤ hi + 1 - k ∧ ∀ x ∈ (2 ^ k, c.2) :: q.2, x.2 ≤ codes.length := by
        intro q hq
        refine ⟨by simp only [List.length_cons]; omega, fun x hx => ?_⟩
        rcases List.mem_cons.mp hx with rfl | hx
        · exact hcl
        · exact hq.2 x hx
      simp only at h
      by_cases h1 : c.1.2 < bc
      · rw [if_pos h1] at h
        by_cases h2 : c.1.2 ≤ acc
        · rw [if_pos h2] at h
          cases h
          exact key ((0, 0), []) ⟨Nat.zero_le _, fun x hx => by cases hx⟩
        · rw [if_neg h2] at h
          generalize hx : analyzeLoopT codes (2 ^ hi) c.1.1 _ _ _ _ = x at h
          cases x with
          | error e => cases h
          | ok q => cases h; exact key q (ih (by omega) hx)
      · rw [if_neg h1] at h
        generalize hx : analyzeLoopT codes (2 ^ hi) c.1.1 _ _ _ _ = x at h
        cases x with
        | error e => cases h
        | ok q => cases h; exact key q (ih (by omega) hx)

theorem csub_value {a b c : Nat} (h : csub a b = .ok c) : c = a - b := by
  unfold csub at h
  split at h
  · cases h; rfl
  · cases h

theorem cmul_value [Target] {a b c : Nat} (h : cmul a b = .ok c) : c = a * b := by
  unfold cmul at h
  split at h
  · cases h; rfl
  · cases h

theorem analyzeHashCodesT_le [Target] {codes : List Nat} {r : (Nat × Nat) × List (Nat × Nat)} (h : analyzeHashCodesT codes = .ok r) :
    r.2.length ≤ (if codes.length < 128 then 5 else if codes.length < 1000 then 4 else 3) ∧
      ∀ c ∈ r.2, c.2 ≤ codes.length := by
  unfold analyzeHashCodesT at h
  simp only [bind, Except.bind] at h
  generalize ha : csub codes.length _ = a at h
  cases a with
  | error e => cases h
  | ok a =>
    simp only at h
    generalize hb : cmul codes.length _ = b at h
    cases b with
    | error e => cases h
    | ok b =>
      simp only at h
      have ea : a = codes.length - (if codes.length < 128 then 0 else codes.length / 100 * 5) :=
        csub_value ha
      have eb : b = codes.length * (if codes.length < 128 then 10 else if codes.length < 1000 then 7 else 3) :=
        cmul_value hb
      by_cases hn : codes.length = 0
      · have : codes = [] := List.length_eq_zero_iff.mp hn
        subst this
        have ea' : a = 0 := by rw [ea]; rfl
        have eb' : b = 0 := by rw [eb]; rfl
        subst ea' eb'
        have e1 : roundPow2 0 = 2 ^ 0 := by decide
        rw [e1] at h
        have := analyzeLoopT_le (hi := 0) 1 rfl h
        refine ⟨?_, this.2⟩
        have h1 := this.1
        simp only [List.length_nil]
        rw [if_pos (by omega)]
        omega
      · have ha1 : 1 ≤ a := by rw [ea]; split <;> omega
        have hb1 : 1 ≤ b := by
          rw [eb]
          have : 1 ≤ (if codes.length < 128 then 10 else if codes.length < 1000 then 7 else 3) := by
            split
            · omega
            · split <;> omega
          exact Nat.mul_pos (by omega) this
        obtain ⟨lo, e1, l1, l2⟩ := roundPow2_spec a ha1
        obtain ⟨hi, e2, g1, g2⟩ := roundPow2_spec b hb1
        rw [e1, e2] at h
        have hb' := analyzeLoopT_le (hi := hi) (hi + 1 - lo) rfl h
        refine ⟨hb'.1.trans ?_, hb'.2⟩
        have pw : ∀ m, 2 ^ hi < 2 ^ (lo + m) → hi < lo + m := fun m hm => (Nat.pow_lt_pow_iff_right (by omega)).mp hm
        by_cases c1 : codes.length < 128
        · rw [if_pos c1] at ea eb ⊢
          have := pw 5 (by rw [Nat.pow_add]; omega)
          omega
        · rw [if_neg c1] at ea eb ⊢
          by_cases c2 : codes.length < 1000
          · rw [if_pos c2] at eb ⊢
            have := pw 4 (by rw [Nat.pow_add]; omega)
            omega
          · rw [if_neg c2] at eb ⊢
            have := pw 3 (by rw [Nat.pow_add]; omega)
            omega

/-! ## Removal of duplicates -/

/-- The sum of the costs of looking up all positions below `n` in a vector. -/
def lookupCost (dupes : List Nat) (n : Nat) : Nat := ((List.range n).map (fun i => (vecContainsT i dupes).2)).sum

theorem vecContainsT_snd_not_mem {i : Nat} {l : List Nat} (h : i ∉ l) : (vecContainsT i l).2 = l.length := by
  induction l with
  | nil => rfl
  | cons x xs ih =>
    have hx : x ≠ i := fun e => h (by rw [e]; exact List.mem_cons_self ..)
    unfold vecContainsT
    rw [if_neg (by simpa using hx)]
    simp only [List.length_cons]
    rw [ih (fun hm => h (List.mem_cons_of_mem _ hm))]

theorem sum_range_update (f g : Nat → Nat) (x n : Nat) (hx : x < n) (hg : g x = 1) (hne : ∀ i, i ≠ x → g i = f i + 1) :
    ((List.range n).map g).sum + f x = ((List.range n).map f).sum + n := by
  induction n with
  | zero => omega
  | succ n ih =>
    rw [List.range_succ, List.map_append, List.map_append, List.sum_append, List.sum_append]
    simp only [List.map_cons, List.map_nil, List.sum_cons, List.sum_nil]
    by_cases e : x = n
    · subst e
      have : ∀ m, m ≤ x → ((List.range m).map g).sum = ((List.range m).map f).sum + m := by
        intro m
        induction m with
        | zero => intro _; rfl
        | succ m ihm =>
          intro hm
          rw [List.range_succ, List.map_append, List.map_append, List.sum_append, List.sum_append]
          simp only [List.map_cons, List.map_nil, List.sum_cons, List.sum_nil]
          rw [ihm (by omega), hne m (by omega)]
          omega
      rw [this x (Nat.le_refl _), hg]
      omega
    · have h1 := ih (by omega)
      rw [hne n (by omega)]
      omega

theorem lookupCost_exact (n : Nat) (dupes : List Nat) (hnd : dupes.Nodup) (hlt : ∀ d ∈ dupes, d < n) :
    2 * lookupCost dupes n + dupes.length * (dupes.length - 1) = 2 * (dupes.length * n) := by
  induction dupes with
  | nil =>
    have : lookupCost [] n = 0 := by
      unfold lookupCost
      induction n with
      | zero => rfl
      | succ n ih =>
        rw [List.range_succ, List.map_append, List.sum_append, ih (fun d hd => by cases hd)]
        rfl
    rw [this]
    simp
  | cons x xs ih =>
    have hnx : x ∉ xs := (List.nodup_cons.mp hnd).1
    have h1 := ih (List.nodup_cons.mp hnd).2 (fun d hd => hlt d (List.mem_cons_of_mem _ hd))
    have h2 := sum_range_update (fun i => (vecContainsT i xs).2) (fun i => (vecContainsT i (x :: xs)).2) x n
      (hlt x (List.mem_cons_self ..)) (by unfold vecContainsT; simp) (fun i hi => by
        have hx : x ≠ i := fun e => hi e.symm
        rw [vecContainsT, if_neg (by simpa using hx)])
    have h3 : (vecContainsT x xs).2 = xs.length := vecContainsT_snd_not_mem hnx
    simp only [h3] at h2
    change lookupCost (x :: xs) n + xs.length = lookupCost xs n + n at h2
    simp only [List.length_cons, Nat.add_sub_cancel]
    generalize xs.length = d at *
    generalize lookupCost (x :: xs) n = A at *
    generalize lookupCost xs n = B at *
    rw [Nat.add_mul, Nat.add_mul]
    cases d with
    | zero => omega
    | succ d =>
      simp only [Nat.add_sub_cancel] at h1
      rw [Nat.mul_succ (d + 1) d]
      omega

theorem retainNotInT_snd {T : Type _} (dupes : List Nat) (xs : List T) (i : Nat) :
    (retainNotInT dupes xs i).2 = ((List.range' i xs.length).map (fun j => (vecContainsT j dupes).2)).sum := by
  induction xs generalizing i with
  | nil => rfl
  | cons x xs ih =>
    unfold retainNotInT
    simp only [List.length_cons, List.range'_succ, List.map_cons, List.sum_cons]
    rw [ih]

theorem retainNotInT_cost {T : Type _} (dupes : List Nat) (xs : List T) :
    (retainNotInT dupes xs 0).2 = lookupCost dupes xs.length := by
  rw [retainNotInT_snd, lookupCost, List.range_eq_range']

/-- The positions recorded as duplicates are different from each other. -/
theorem usingHashLoop_nodup {T : Type _} {find : HbFind} (hfind : HbFindOk find) {hasher : T → Nat} {eq : T → T → Bool}
    (entries : List T) : ∀ (rest : List T) (p : Nat) (keep : List (Nat × Nat)) (dupes D : List Nat),
      (∀ e ∈ keep, e.2 < p ∧ e.2 ∉ dupes) → (∀ d ∈ dupes, d < p) → dupes.Nodup →
      usingHashLoop find hasher eq entries rest p keep dupes = .ok D → D.Nodup := by
  intro rest
  induction rest with
  | nil => intro p keep dupes D _ _ h3 h; cases h; exact h3
  | cons v rest ih =>
    intro p keep dupes D h1 h2 h3 h
    unfold usingHashLoop at h
    split at h
    · cases hf : find p keep (hasher v) (fun other => (entries[other]?).any (eq v)) with
      | none =>
        rw [hf] at h
        refine ih (p + 1) _ dupes D ?_ (fun d hd => Nat.lt_succ_of_lt (h2 d hd)) h3 h
        intro e he
        rcases List.mem_cons.mp he with rfl | he
        · exact ⟨Nat.lt_succ_self _, fun hm => absurd (h2 _ hm) (Nat.lt_irrefl _)⟩
        · exact ⟨Nat.lt_succ_of_lt (h1 e he).1, (h1 e he).2⟩
      | some o =>
        rw [hf] at h
        obtain ⟨⟨h', hmem⟩, _⟩ := hfind.hit _ _ _ _ _ hf
        have ho := h1 _ hmem
        refine ih (p + 1) _ (dupes ++ [o]) D ?_ ?_ ?_ h
        · intro e he
          rcases List.mem_cons.mp he with rfl | he
          · refine ⟨Nat.lt_succ_self _, fun hm => ?_⟩
            rcases List.mem_append.mp hm with hm | hm
            · exact absurd (h2 _ hm) (Nat.lt_irrefl _)
            · have : p = o := by simpa using hm
              have := ho.1
              simp only at this
              omega
          · have hk := List.mem_filter.mp he
            refine ⟨Nat.lt_succ_of_lt (h1 e hk.1).1, fun hm => ?_⟩
            rcases List.mem_append.mp hm with hm | hm
            · exact (h1 e hk.1).2 hm
            · have e1 : e.2 = o := by simpa using hm
              simp [e1] at hk
        · intro d hd
          rcases List.mem_append.mp hd with hd | hd
          · exact Nat.lt_succ_of_lt (h2 d hd)
          · have : d = o := by simpa using hd
            have := ho.1
            simp only at this
            omega
        · rw [List.nodup_append]
          refine ⟨h3, by simp, fun a ha b hb => ?_⟩
          have : b = o := by simpa using hb
          rintro rfl
          exact ho.2 (this ▸ ha)
    · cases h

theorem retainNotIn_length {T : Type _} (dupes : List Nat) (xs : List T) (i : Nat) :
    (retainNotIn dupes xs i).length = ((List.range' i xs.length).filter (fun j => !dupes.contains j)).length := by
  induction xs generalizing i with
  | nil => rfl
  | cons x xs ih =>
    unfold retainNotIn
    rw [List.length_cons, List.range'_succ, List.filter_cons]
    cases dupes.contains i with
    | true => simpa using ih (i + 1)
    | false => simpa using ih (i + 1)

theorem filter_not_mem_length (dupes l : List Nat) (hl : l.Nodup) (hnd : dupes.Nodup) (hs : ∀ d ∈ dupes, d ∈ l) :
    (l.filter (fun j => !dupes.contains j)).length + dupes.length = l.length := by
  have h1 : (l.filter (fun j => dupes.contains j)).Perm dupes := by
    rw [List.perm_ext_iff_of_nodup (hl.filter _) hnd]
    intro a
    rw [List.mem_filter, List.contains_iff_mem]
    exact ⟨fun h => h.2, fun h => ⟨hs a h, h⟩⟩
  have h2 := List.length_eq_length_filter_add (l := l) (fun j => dupes.contains j)
  rw [h1.length_eq] at h2
  omega

theorem anyT_snd_le {T : Type _} (p : T → Bool) (xs : List T) : (anyT p xs).2 ≤ xs.length := by
  induction xs with
  | nil => exact Nat.le_refl _
  | cons x xs ih =>
    unfold anyT
    split
    · simp
    · simp only [List.length_cons]; omega

theorem anyT_snd_none {T : Type _} (p : T → Bool) (xs : List T) (h : ∀ x ∈ xs, p x = false) :
    (anyT p xs).2 = xs.length := by
  induction xs with
  | nil => rfl
  | cons x xs ih =>
    unfold anyT
    rw [if_neg (by simp [h x (List.mem_cons_self ..)])]
    simp only [List.length_cons]
    rw [ih (fun y hy => h y (List.mem_cons_of_mem _ hy))]

theorem usingEqDupesT_snd_le {T : Type _} (cmp : T → T → Bool) (xs : List T) (i : Nat) :
    2 * (usingEqDupesT cmp xs i).2 ≤ xs.length * (xs.length - 1) := by
  induction xs generalizing i with
  | nil => exact Nat.le_refl _
  | cons x xs ih =>
    have h1 := ih (i + 1)
    have h2 := anyT_snd_le (cmp x) xs
    unfold usingEqDupesT
    simp only [List.length_cons, Nat.add_sub_cancel]
    generalize xs.length = n at *
    cases n with
    | zero => omega
    | succ n =>
      simp only [Nat.add_sub_cancel] at h1
      have : (n + 1 + 1) * (n + 1) = (n + 1) * n + 2 * (n + 1) := by ring
      omega

theorem usingEqDupesT_snd_distinct {T : Type _} (cmp : T → T → Bool) (xs : List T) (i : Nat)
    (h : xs.Pairwise (fun a b => cmp a b = false)) :
    2 * (usingEqDupesT cmp xs i).2 = xs.length * (xs.length - 1) := by
  induction xs generalizing i with
  | nil => rfl
  | cons x xs ih =>
    have h1 := ih (i + 1) (List.pairwise_cons.mp h).2
    have h2 := anyT_snd_none (cmp x) xs (List.pairwise_cons.mp h).1
    unfold usingEqDupesT
    simp only [List.length_cons, Nat.add_sub_cancel]
    generalize xs.length = n at *
    cases n with
    | zero => omega
    | succ n =>
      simp only [Nat.add_sub_cancel] at h1
      have : (n + 1 + 1) * (n + 1) = (n + 1) * n + 2 * (n + 1) := by ring
      omega

end Frozen.Model
