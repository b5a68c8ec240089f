import Verif.Lemmas.Effects
import Verif.Lemmas.History
import Verif.Props.Safety

/-!
# Programs and memory safety with trait functions that have effects
-/

namespace Frozen.Props

open Frozen.Spec Frozen.Model

variable {W A B T M Q K V : Type}

/-! ## Duplicates and disjoint lookups -/

namespace EffRel

variable (E : EffRel W)

theorem hasDupBefore {eqE : T → T → Eff W Bool} {eq : T → T → Bool} (h : ∀ a b, E.R Bool (eqE a b) (.ok (eq a b))) (values : List T) (vi : T) :
    ∀ n j, E.R _ (hasDupBeforeE eqE values vi n j) (Model.hasDupBefore eq values vi n j) := by
  intro n
  induction n with
  | zero => intro j; exact E.pure false
  | succ n ih =>
    intro j
    refine E.bind (E.lift _) (fun vj _ => E.bindOk (h vj vi) ?_)
    exact E.ite (fun _ => E.pure _) (fun _ => ih _)

theorem hasDupLoop {eqE : T → T → Eff W Bool} {eq : T → T → Bool} (h : ∀ a b, E.R Bool (eqE a b) (.ok (eq a b))) (values : List T) :
    ∀ n i, E.R _ (hasDupLoopE eqE values n i) (Model.hasDupLoop eq values n i) := by
  intro n
  induction n with
  | zero => intro j; exact E.pure false
  | succ n ih =>
    intro i
    refine E.bind (E.lift _) (fun vi _ => E.bind (E.hasDupBefore h values vi i 0) (fun c _ => ?_))
    exact E.ite (fun _ => E.pure _) (fun _ => ih _)

theorem disjointUnchecked {I : MapImpl M Q K V} {m : M} {S : Q → Eff W (Option Nat)} (h : ∀ q, E.R _ (S q) (I.getMut m q)) (qs : List Q) :
    E.R _ (disjointUncheckedE S qs) (I.getDisjointUncheckedMut m qs) := by
  induction qs with
  | nil => exact E.pure []
  | cons q qs ih => exact E.bind (h q) (fun _ _ => E.bind ih (fun _ _ => E.pure _))

theorem disjointMut {I : MapImpl M Q K V} {m : M} {S : Q → Eff W (Option Nat)} (h : ∀ q, E.R _ (S q) (I.getMut m q))
    {eqE : Q → Q → Eff W Bool} {eqQ : Q → Q → Bool} (he : ∀ a b, E.R Bool (eqE a b) (.ok (eqQ a b))) (qs : List Q) :
    E.R _ (disjointMutE S eqE qs) (I.getDisjointMut eqQ m qs) :=
  E.bind (E.hasDupLoop he qs _ _) (fun _ _ => E.ite (fun _ => E.lift _) (fun _ => E.disjointUnchecked h qs))

end EffRel

/-- `MapImpl.stepE` with functions that just answer. -/
def stepR (I : MapImpl M Q K V) (eqQ : Q → Q → Bool) (m : M) : Op Q K V → Res (Out K V × M)
  | .get q => do
    let r ← I.getMut m q
    .ok (.value ((I.found m r).map Prod.snd), m)
  | .getKeyValue q => do
    let r ← I.getMut m q
    .ok (.entry (I.found m r), m)
  | .containsKey q => do
    let r ← I.getMut m q
    .ok (.bool (I.found m r).isSome, m)
  | .index q => do
    let r ← I.getMut m q
    match I.found m r with
    | some e => .ok (.value (some e.2), m)
    | none => .error (.panic "index should be valid")
  | .len => .ok (.nat (I.len m), m)
  | .iterate => .ok (.entries (I.iter m).rest, m)
  | .update q f => do
    let r ← I.getMut m q
    match r with
    | none => .ok (.value none, m)
    | some i => .ok (.value (I.readRef m i), I.modifyRef m i f)
  | .iterMut f => .ok (.unit, I.forMut f 0 (I.iterMut m).rest m)
  | .valuesMut f => .ok (.unit, I.forMut (fun n _ => f n) 0 (I.iterMut m).rest m)
  | .disjointMut qs f => do
    let ps ← I.getDisjointMut eqQ m qs
    if (ps.filterMap id).Nodup then .ok (.values (ps.map (fun p => p.bind (I.readRef m))), I.storeAll f 0 ps m)
    else .error (.ub "two mutable references to one value")

theorem EffRel.step (E : EffRel W) {I : MapImpl M Q K V} {S : M → Q → Eff W (Option Nat)} {m : M} (h : ∀ q, E.R _ (S m q) (I.getMut m q))
    {eqE : Q → Q → Eff W Bool} {eqQ : Q → Q → Bool} (he : ∀ a b, E.R Bool (eqE a b) (.ok (eqQ a b))) (op : Op Q K V) :
    E.R _ (I.stepE S eqE m op) (stepR I eqQ m op) := by
  cases op with
  | get q => exact E.bind (h q) (fun _ _ => E.pure _)
  | getKeyValue q => exact E.bind (h q) (fun _ _ => E.pure _)
  | containsKey q => exact E.bind (h q) (fun _ _ => E.pure _)
  | index q =>
    refine E.bind (h q) (fun r _ => ?_)
    cases I.found m r with
    | none => exact E.lift _
    | some e => exact E.pure _
  | len => exact E.pure _
  | iterate => exact E.pure _
  | update q f =>
    refine E.bind (h q) (fun r _ => ?_)
    cases r with
    | none => exact E.pure _
    | some i => exact E.pure _
  | iterMut f => exact E.pure _
  | valuesMut f => exact E.pure _
  | disjointMut qs f => exact E.bind (E.disjointMut h he qs) (fun _ _ => E.ite (fun _ => E.pure _) (fun _ => E.lift _))

/-- What a program that catches panics sees of an operation. -/
def seen (m : M) : Res (Out K V × M) → Out K V × M
  | .ok p => p
  | .error e => (Out.ofFault e, m)

theorem runE_cons (I : MapImpl M Q K V) (S : M → Q → Eff W (Option Nat)) (eqE : Q → Q → Eff W Bool) (m : M) (op : Op Q K V)
    (ops : List (Op Q K V)) (w : W) :
    I.runE S eqE m (op :: ops) w =
      ((seen m (I.stepE S eqE m op w).1).1 :: (I.runE S eqE (seen m (I.stepE S eqE m op w).1).2 ops (I.stepE S eqE m op w).2).1,
        (I.runE S eqE (seen m (I.stepE S eqE m op w).1).2 ops (I.stepE S eqE m op w).2).2) := by
  rw [MapImpl.runE]
  rcases I.stepE S eqE m op w with ⟨r, w'⟩
  cases r with
  | error e => rfl
  | ok p => rfl

theorem seen_stepR {I : MapImpl M Q K V} {eqK : K → K → Bool} {mt : Q → K → Bool} {Inv : M → Prop} (L : LawfulMap I eqK mt Inv)
    (eqQ : Q → Q → Bool) {m : M} (hm : Inv m) (op : Op Q K V) : seen m (stepR I eqQ m op) = I.step eqQ m op := by
  have hf : ∀ q, I.found m ((I.entries m).findIdx? (fun e => mt q e.1)) = (I.entries m).find? (fun e => mt q e.1) := by
    intro q
    unfold MapImpl.found
    cases hi : (I.entries m).findIdx? (fun e => mt q e.1) with
    | none =>
      rw [List.findIdx?_eq_none_iff] at hi
      symm
      show _ = none
      rw [List.find?_eq_none]
      intro e he
      simp [hi e he]
    | some i => exact findIdx_find hi
  cases op with
  | get q =>
    simp only [stepR, MapImpl.step, L.getMut m hm, L.get m hm, bind, Except.bind, hf, seen, Out.ofRes]
  | getKeyValue q => simp only [stepR, MapImpl.step, L.getMut m hm, L.getKeyValue m hm, bind, Except.bind, hf, seen, Out.ofRes]
  | containsKey q => simp only [stepR, MapImpl.step, L.getMut m hm, L.containsKey m hm, bind, Except.bind, hf, seen, Out.ofRes]
  | index q =>
    simp only [stepR, MapImpl.step, MapImpl.index, L.getMut m hm, L.get m hm, bind, Except.bind, hf]
    cases (I.entries m).find? (fun e => mt q e.1) with
    | none => rfl
    | some e => rfl
  | len => rfl
  | iterate => rfl
  | update q f =>
    simp only [stepR, MapImpl.step, bind, Except.bind]
    cases I.getMut m q with
    | error e => rfl
    | ok r => cases r <;> rfl
  | iterMut f => rfl
  | valuesMut f => rfl
  | disjointMut qs f =>
    simp only [stepR, MapImpl.step, bind, Except.bind]
    cases I.getDisjointMut eqQ m qs with
    | error e => rfl
    | ok ps =>
      dsimp only
      split <;> rfl

theorem seen_panics {m : M} {r : Res (Out K V × M)} (h : Panics r) : seen m r = (.panic, m) := by
  obtain ⟨msg, rfl⟩ := h
  rfl

/-! ## Memory safety -/

/-- The outcome of a lookup in `n` entries is no undefined behaviour and inside the entries. -/
def FineAt (n : Nat) (r : Res (Option Nat)) : Prop := NoUb r ∧ ∀ i, r = .ok (some i) → i < n

theorem FineAt.none (n : Nat) : FineAt n (.ok none) := ⟨NoUb.ok _, fun i h => by cases h⟩

theorem FineAt.some {n i : Nat} (h : i < n) : FineAt n (.ok (some i)) := ⟨NoUb.ok _, fun j hj => by cases hj; exact h⟩

/-- One computation after the other, the first one being safe. -/
theorem SafeCode.andThen {x : Eff W A} (hx : SafeCode x) {f : A → Eff W (Option Nat)} {n : Nat} {w : W}
    (hf : ∀ a w', x w = (.ok a, w') → FineAt n (f a w').1) : FineAt n ((x >>= f) w).1 := by
  show FineAt n (Eff.bind x f w).1
  unfold Eff.bind
  have h := hx w
  rcases hw : x w with ⟨r, w'⟩
  rw [hw] at h
  cases r with
  | error e => exact ⟨fun u hu => h u (by cases hu; rfl), fun i hi => by cases hi⟩
  | ok a => exact hf a w' hw

theorem SafeCode.bind {x : Eff W A} (hx : SafeCode x) {f : A → Eff W B} (hf : ∀ a, SafeCode (f a)) : SafeCode (x >>= f) := by
  intro w
  show NoUb (Eff.bind x f w).1
  unfold Eff.bind
  have h := hx w
  rcases hw : x w with ⟨r, w'⟩
  rw [hw] at h
  cases r with
  | error e => exact fun u hu => h u (by cases hu; rfl)
  | ok a => exact hf a w'

theorem SafeCode.lift {r : Res A} (h : NoUb r) : SafeCode (Eff.lift r : Eff W A) := fun _ => h

theorem scanLoopE_fine {eqv : Q → K → Eff W Bool} (h : ∀ q k, SafeCode (eqv q k)) (q : Q) : ∀ (l : List (K × V)) (i : Nat) (r : Option Nat) (w : W),
    (∀ k, r = some k → k < i) → FineAt (i + l.length) (scanLoopE eqv q l i r w).1
  | [], i, r, w, hr => by
    refine ⟨NoUb.ok _, fun j hj => ?_⟩
    exact hr j (Except.ok.inj hj)
  | e :: l, i, r, w, hr => by
    unfold scanLoopE
    refine SafeCode.andThen (h q e.1) (fun c w' _ => ?_)
    have := scanLoopE_fine h q l (i + 1) (if c then some i else r) w' (by
      intro k hk
      cases c with
      | true => cases hk; omega
      | false => have := hr k hk; omega)
    rw [List.length_cons, show i + (l.length + 1) = i + 1 + l.length by omega]
    exact this

theorem searchLoopE_fine {f : T → Eff W Ordering} (h : ∀ x, SafeCode (f x)) (data : List T) :
    ∀ (n i : Nat) (w : W), data.length - i ≤ n → FineAt data.length (searchLoopE data f i w).1 := by
  intro n
  induction n with
  | zero =>
    intro i w hn
    unfold searchLoopE
    rw [dif_neg (by omega)]
    exact FineAt.none _
  | succ n ih =>
    intro i w hn
    unfold searchLoopE
    by_cases hi : i < data.length
    · rw [dif_pos hi]
      refine SafeCode.andThen (h _) (fun o w' _ => ?_)
      by_cases ho : (o == .eq) = true
      · simp only [ho, if_true]
        exact FineAt.some hi
      · simp only [ho]
        exact ih _ _ (by omega)
    · rw [dif_neg hi]
      exact FineAt.none _

theorem scanBucketE_fine {eq : T → Eff W Bool} (h : ∀ x, SafeCode (eq x)) (bucket : List T) :
    ∀ (n ptr : Nat) (w : W), NoUb (scanBucket (fun _ => false) bucket n ptr) → FineAt bucket.length (scanBucketE eq bucket n ptr w).1 := by
  intro n
  induction n with
  | zero => intro ptr w _; exact FineAt.none _
  | succ n ih =>
    intro ptr w hu
    unfold scanBucketE
    unfold scanBucket at hu
    cases hg : getUnchecked bucket ptr with
    | error e =>
      rw [hg] at hu
      exact ⟨fun u hx => hu u (by cases hx; rfl), fun i hi => by cases hi⟩
    | ok x =>
      rw [hg] at hu
      refine SafeCode.andThen (SafeCode.lift (NoUb.ok x)) (fun y w' hy => ?_)
      cases hy
      refine SafeCode.andThen (h x) (fun c w'' _ => ?_)
      cases c with
      | true => exact FineAt.some (getUnchecked_inv hg)
      | false => exact ih _ _ hu

theorem tableE_fine {eq : T → Eff W Bool} (h : ∀ x, SafeCode (eq x)) (t : HashTable T) (hc : Nat) (hu : NoUb (t.findMut hc (fun _ => false)))
    (w : W) : FineAt t.entries.length (t.searchE hc eq w).1 := by
  unfold HashTable.searchE
  unfold HashTable.findMut at hu
  cases hg : getUnchecked t.slots (hc &&& t.mask) with
  | error e =>
    rw [hg] at hu
    exact ⟨fun u hx => hu u (by cases hx; rfl), fun i hi => by cases hi⟩
  | ok s =>
    rw [hg] at hu
    refine SafeCode.andThen (SafeCode.lift (NoUb.ok s)) (fun y w' hy => ?_)
    cases hy
    simp only [Bind.bind, Except.bind] at hu
    cases hr : getUncheckedRange t.entries s.minIndex s.maxIndex with
    | error e =>
      rw [hr] at hu
      exact ⟨fun u hx => hu u (by cases hx; rfl), fun i hi => by cases hi⟩
    | ok bucket =>
      rw [hr] at hu
      refine SafeCode.andThen (SafeCode.lift (NoUb.ok bucket)) (fun y w' hy => ?_)
      cases hy
      have hb : s.minIndex + bucket.length ≤ t.entries.length := by
        unfold getUncheckedRange at hr
        split at hr
        · cases hr
          simp only [List.length_take, List.length_drop]
          omega
        · cases hr
      have hs : NoUb (scanBucket (fun _ => false) bucket (s.maxIndex - s.minIndex) 0) := by
        intro u hx
        simp only [hx] at hu
        exact hu u rfl
      have hf := scanBucketE_fine h bucket _ 0 w hs
      show FineAt _ (Eff.bind _ _ w).1
      unfold Eff.bind
      rcases hx : scanBucketE eq bucket (s.maxIndex - s.minIndex) 0 w with ⟨r, w''⟩
      rw [hx] at hf
      rcases r with e | r
      · exact ⟨fun u hu => hf.1 u (by cases hu; rfl), fun i hi => by cases hi⟩
      · cases r with
        | none => exact FineAt.none _
        | some p =>
          have := hf.2 p rfl
          exact FineAt.some (by omega)

theorem tableNCE_fine {eq : T → Eff W Bool} (h : ∀ x, SafeCode (eq x)) (t : HashTableNC T) (hc : Nat) (hu : NoUb (t.findMut hc (fun _ => false)))
    (w : W) : FineAt t.entries.length (t.searchE hc eq w).1 := by
  unfold HashTableNC.searchE
  unfold HashTableNC.findMut at hu
  cases hg : getUnchecked t.slots (hc &&& t.mask) with
  | error e =>
    rw [hg] at hu
    exact ⟨fun u hx => hu u (by cases hx; rfl), fun i hi => by cases hi⟩
  | ok j =>
    rw [hg] at hu
    refine SafeCode.andThen (SafeCode.lift (NoUb.ok j)) (fun y w' hy => ?_)
    cases hy
    simp only [Bind.bind, Except.bind] at hu
    by_cases hj : j > 0
    · rw [if_pos hj] at hu
      rw [if_pos hj]
      cases hr : getUnchecked t.entries (j - 1) with
      | error e =>
        rw [hr] at hu
        exact ⟨fun u hx => hu u (by cases hx; rfl), fun i hi => by cases hi⟩
      | ok x =>
        refine SafeCode.andThen (SafeCode.lift (NoUb.ok x)) (fun y w' hy => ?_)
        cases hy
        refine SafeCode.andThen (h x) (fun c w'' _ => ?_)
        cases c with
        | true => exact FineAt.some (getUnchecked_inv hr)
        | false => exact FineAt.none _
    · rw [if_neg hj]
      exact FineAt.none _

/-! Map types -/

theorem denseE_fine {m : DenseMap K V} (hm : ∀ qindex : Q → Nat, NoUb (m.getMut qindex q)) {ix : Q → Eff W Nat} (h : SafeCode (ix q)) (w : W) :
    FineAt m.entries.length (m.searchE ix q w).1 := by
  unfold DenseMap.searchE
  refine SafeCode.andThen h (fun i w' _ => ?_)
  have hu := hm (fun _ => i)
  unfold DenseMap.getMut at hu
  dsimp only at hu
  by_cases hr : i ≥ m.min ∧ i ≤ m.max
  · rw [if_pos hr] at hu
    rw [if_pos hr]
    cases hg : getUnchecked m.entries (i - m.min) with
    | error e =>
      rw [hg] at hu
      exact ⟨fun u hx => hu u (by cases hx; rfl), fun i hi => by cases hi⟩
    | ok x => exact FineAt.some (getUnchecked_inv hg)
  · rw [if_neg hr]
    exact FineAt.none _

theorem sparseE_fine {m : SparseMap K V} (hm : ∀ qindex : Q → Nat, NoUb (m.getMut qindex q)) {ix : Q → Eff W Nat} (h : SafeCode (ix q)) (w : W) :
    FineAt m.entries.length (m.searchE ix q w).1 := by
  unfold SparseMap.searchE
  refine SafeCode.andThen h (fun i w' _ => ?_)
  have hu := hm (fun _ => i)
  unfold SparseMap.getMut at hu
  dsimp only at hu
  by_cases hr : i ≥ m.min ∧ i ≤ m.max
  · rw [if_pos hr] at hu
    rw [if_pos hr]
    cases hg : getUnchecked m.lookup (i - m.min) with
    | error e =>
      rw [hg] at hu
      exact ⟨fun u hx => hu u (by cases hx; rfl), fun i hi => by cases hi⟩
    | ok j =>
      rw [hg] at hu
      refine SafeCode.andThen (SafeCode.lift (NoUb.ok j)) (fun y w'' hy => ?_)
      cases hy
      simp only [Bind.bind, Except.bind] at hu
      by_cases hj : j > 0
      · rw [if_pos hj] at hu
        rw [if_pos hj]
        cases hg : getUnchecked m.entries (j - 1) with
        | error e =>
          rw [hg] at hu
          exact ⟨fun u hx => hu u (by cases hx; rfl), fun i hi => by cases hi⟩
        | ok x => exact FineAt.some (getUnchecked_inv hg)
      · rw [if_neg hj]
        exact FineAt.none _
  · rw [if_neg hr]
    exact FineAt.none _

theorem orderedE_fine (m : EytzingerMap K V) {qc : Q → K → Eff W Ordering} (h : ∀ q k, SafeCode (qc q k)) (q : Q) (w : W) :
    FineAt m.entries.length (m.searchE qc q w).1 := by
  unfold EytzingerMap.searchE
  have hs : ∀ x : K × V, SafeCode (qc q x.1 >>= fun o => (pure o.swap : Eff W Ordering)) :=
    fun x => SafeCode.bind (h q x.1) (fun o => SafeCode.lift (NoUb.ok o.swap))
  have hl := searchLoopE_fine hs m.entries _ 0 w (Nat.le_refl _)
  show FineAt _ (Eff.bind _ _ w).1
  unfold Eff.bind
  rcases hx : searchLoopE m.entries (fun entry => qc q entry.1 >>= fun o => pure o.swap) 0 w with ⟨r, w'⟩
  rw [hx] at hl
  rcases r with e | r
  · exact ⟨fun u hu => hl.1 u (by cases hu; rfl), fun i hi => by cases hi⟩
  · cases r with
    | none => exact FineAt.none _
    | some i =>
      have hi := hl.2 i rfl
      show FineAt _ ((Eff.lift (getUnchecked m.entries i) >>= fun _ => pure (some i) : Eff W (Option Nat)) w').1
      rw [getUnchecked_lt hi]
      exact FineAt.some hi

theorem hashE_fine {m : HashMap K V} {hE : Q → Eff W Nat} {eqv : Q → K → Eff W Bool} {q : Q} {w : W} (hh : SafeCode (hE q))
    (hm : ∀ h w', hE q w = (.ok h, w') → NoUb (m.table.findMut h (fun _ => false))) (h : ∀ q k, SafeCode (eqv q k)) :
    FineAt m.table.entries.length (m.searchE hE eqv q w).1 :=
  SafeCode.andThen hh (fun a w' hw => tableE_fine (fun e : K × V => h q e.1) _ _ (hm a w' hw) w')

theorem hashNCE_fine {m : HashMapNC K V} {hE : Q → Eff W Nat} {eqv : Q → K → Eff W Bool} {q : Q} {w : W} (hh : SafeCode (hE q))
    (hm : ∀ h w', hE q w = (.ok h, w') → NoUb (m.table.findMut h (fun _ => false))) (h : ∀ q k, SafeCode (eqv q k)) :
    FineAt m.table.entries.length (m.searchE hE eqv q w).1 :=
  SafeCode.andThen hh (fun a w' hw => tableNCE_fine (fun e : K × V => h q e.1) _ _ (hm a w' hw) w')

theorem leftRangeE_safe {bE : Str → Eff W Nat} (h : ∀ s, SafeCode (bE s)) (r : Range) (s : Str) : SafeCode (leftRangeHashE bE r s) := by
  unfold leftRangeHashE
  split
  · exact SafeCode.lift (NoUb.ok _)
  · exact SafeCode.bind (SafeCode.lift (idxRange_noUb _ _ _)) (fun _ => h _)

theorem rightRangeE_safe {bE : Str → Eff W Nat} (h : ∀ s, SafeCode (bE s)) (r : Range) (s : Str) : SafeCode (rightRangeHashE bE r s) := by
  unfold rightRangeHashE
  split
  · exact SafeCode.lift (NoUb.ok _)
  · exact SafeCode.bind (SafeCode.lift (csub_noUb _ _)) (fun _ => SafeCode.bind (SafeCode.lift (csub_noUb _ _))
      (fun _ => SafeCode.bind (SafeCode.lift (idxRange_noUb _ _ _)) (fun _ => h _)))

/-- Whatever hash code comes out of an emitted hasher with the functions of the user, some functions give it. -/
theorem hashOneE_reached {u : UserTraits W Q K} {hr : InlineHasher} {q : Q} {w w' : W} {h : Nat} (hx : hr.hashOneE u q w = (.ok h, w')) :
    ∃ t : QueryTraits Q K, hr.hashOne t q = .ok h ∧ t.equivalent = fun _ _ => false := by
  let t : QueryTraits Q K := {
    equivalent := fun _ _ => false, compare := fun _ _ => .eq, index := fun _ => h, fixedState := fun _ _ => h, bytes := u.bytes
    fixedStateSlice := fun _ _ => h }
  refine ⟨t, ?_, rfl⟩
  cases hr with
  | bridge seed => rfl
  | scalar => rfl
  | length => exact (Prod.mk.inj hx).1
  | left start stop seed =>
    simp only [InlineHasher.hashOneE, leftRangeHashE] at hx
    simp only [InlineHasher.hashOne, leftRangeHash]
    show (if (u.bytes q).length < stop then _ else _) = _
    split at hx
    · rename_i hc
      rw [if_pos hc]
      exact (Prod.mk.inj hx).1
    · rename_i hc
      rw [if_neg hc]
      show (idxRange (u.bytes q) start stop >>= _) = _
      cases hi : idxRange (u.bytes q) start stop with
      | error e =>
        rw [hi] at hx
        cases hx
      | ok s => rfl
  | right start stop seed =>
    simp only [InlineHasher.hashOneE, rightRangeHashE] at hx
    simp only [InlineHasher.hashOne, rightRangeHash]
    show (if (u.bytes q).length < stop then _ else _) = _
    split at hx
    · rename_i hc
      rw [if_pos hc]
      exact (Prod.mk.inj hx).1
    · rename_i hc
      rw [if_neg hc]
      show (csub (u.bytes q).length stop >>= fun lo => csub (u.bytes q).length start >>= fun hi => idxRange (u.bytes q) lo hi >>= _) = _
      cases h1 : csub (u.bytes q).length stop with
      | error e => rw [h1] at hx; cases hx
      | ok lo =>
        rw [h1] at hx
        cases h2 : csub (u.bytes q).length start with
        | error e => rw [h2] at hx; cases hx
        | ok hi =>
          rw [h2] at hx
          show (idxRange (u.bytes q) lo hi >>= _) = _
          cases h3 : idxRange (u.bytes q) lo hi with
          | error e =>
            have hx' : (((Eff.lift (idxRange (u.bytes q) lo hi) >>= u.fixedStateSlice seed : Eff W Nat)) w) = (.ok h, w') := hx
            rw [h3] at hx'
            cases hx'
          | ok s => rfl

theorem fzStringE_fine [Target] {m m₀ : FzStringMap V} {sort : Sorter (Str × V)} {bhStr bhSlice : Str → Nat} {es : List (Str × V)}
    {a : SliceAnalysis} {b1 b2 : Str → Eff W Nat} (hs : SorterOk sort) (hn : es.length < sizeLimit)
    (hm : FzStringMap.build sort bhStr bhSlice es a = .ok m₀) (hw : Stores (FzStringMap.impl bhStr bhSlice) m₀ m)
    (h1 : ∀ s, SafeCode (b1 s)) (h2 : ∀ s, SafeCode (b2 s)) (q : Str) (w : W) : FineAt m.entries.length (m.searchE b1 b2 q w).1 := by
  have hb : FzStringMap.Bounded m := by
    induction hw with
    | refl => exact FzStringMap.build_bounded hs hn hm
    | write i v _ ih => exact FzStringMap.Bounded.write ih i v
  cases m with
  | leftRange r m =>
    exact hashE_fine (leftRangeE_safe h2 r q) (fun c _ _ => (HashTable.Bounded.findMut hb c _).2.1) (fun _ _ => SafeCode.lift (NoUb.ok _))
  | rightRange r m =>
    exact hashE_fine (rightRangeE_safe h2 r q) (fun c _ _ => (HashTable.Bounded.findMut hb c _).2.1) (fun _ _ => SafeCode.lift (NoUb.ok _))
  | hash m => exact hashE_fine (h1 q) (fun c _ _ => (HashTable.Bounded.findMut hb c _).2.1) (fun _ _ => SafeCode.lift (NoUb.ok _))

end Frozen.Props
