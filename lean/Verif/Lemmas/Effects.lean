import Verif.Props.EffectSpec
import Verif.Lemmas.Safety
import Verif.Lemmas.Calls

/-!
# Lemmas on lookups that run user code with effects
-/

namespace Frozen.Props

open Frozen Frozen.Spec Frozen.Model

variable {W A B T M Q K V : Type}

/-- A relation between computations that run user code and pure ones that is respected by sequencing. -/
structure EffRel (W : Type) where
  R : (A : Type) → Eff W A → Res A → Prop
  lift : ∀ {A : Type} (r : Res A), R A (Eff.lift r) r
  bind : ∀ {A B : Type} {x : Eff W A} {r : Res A} {f : A → Eff W B} {g : A → Res B}, R A x r → (∀ a, r = .ok a → R B (f a) (g a)) →
    R B (x >>= f) (r >>= g)

namespace EffRel

variable (E : EffRel W)

theorem pure (a : A) : E.R A (Pure.pure a) (.ok a) := E.lift (.ok a)

theorem bindOk {x : Eff W A} {a : A} {f : A → Eff W B} {r : Res B} (hx : E.R A x (.ok a)) (hf : E.R B (f a) r) : E.R B (x >>= f) r :=
  E.bind (g := fun _ => r) hx (fun a' h => by cases h; exact hf)

theorem ite {c : Prop} [Decidable c] {x y : Eff W A} {r s : Res A} (hx : c → E.R A x r) (hy : ¬ c → E.R A y s) :
    E.R A (if c then x else y) (if c then r else s) := by
  split
  · exact hx ‹_›
  · exact hy ‹_›

/-! ## Searches -/

theorem scanLoop {eqv : Q → K → Eff W Bool} {mt : Q → K → Bool} (h : ∀ q k, E.R Bool (eqv q k) (.ok (mt q k))) (q : Q) (l : List (K × V)) :
    ∀ (i : Nat) (r : Option Nat), E.R _ (scanLoopE eqv q l i r) (.ok (scanMutLoop mt q l i r)) := by
  induction l with
  | nil => intro i r; exact E.pure r
  | cons e l ih => intro i r; exact E.bindOk (h q e.1) (ih _ _)

theorem searchLoop {f : T → Eff W Ordering} {g : T → Ordering} (h : ∀ x, E.R _ (f x) (.ok (g x))) (data : List T) :
    ∀ (n i steps : Nat), data.length - i ≤ n → E.R _ (searchLoopE data f i) (.ok (Model.searchLoop data g i steps).1) := by
  intro n
  induction n with
  | zero =>
    intro i steps hn
    unfold searchLoopE Model.searchLoop
    rw [dif_neg (by omega), dif_neg (by omega)]
    exact E.pure none
  | succ n ih =>
    intro i steps hn
    unfold searchLoopE Model.searchLoop
    by_cases hi : i < data.length
    · rw [dif_pos hi, dif_pos hi]
      refine E.bindOk (h _) ?_
      by_cases ho : (g data[i] == .eq) = true
      · simp only [ho, if_true]
        exact E.pure _
      · simp only [ho]
        exact ih _ _ (by omega)
    · rw [dif_neg hi, dif_neg hi]
      exact E.pure none

theorem scanBucket {eq : T → Eff W Bool} {p : T → Bool} (h : ∀ x, E.R _ (eq x) (.ok (p x))) (bucket : List T) :
    ∀ (n ptr : Nat), E.R _ (scanBucketE eq bucket n ptr) (Model.scanBucket p bucket n ptr) := by
  intro n
  induction n with
  | zero => intro ptr; exact E.pure none
  | succ n ih =>
    intro ptr
    refine E.bind (E.lift _) (fun e _ => E.bindOk (h e) ?_)
    exact E.ite (fun _ => E.pure _) (fun _ => ih _)

theorem table {eq : T → Eff W Bool} {p : T → Bool} (h : ∀ x, E.R _ (eq x) (.ok (p x))) (t : HashTable T) (hc : Nat) :
    E.R _ (t.searchE hc eq) (t.findMut hc p) := by
  refine E.bind (E.lift _) (fun s _ => E.bind (E.lift _) (fun b _ => E.bind (E.scanBucket h _ _ _) (fun r _ => ?_)))
  cases r with
  | none => exact E.pure none
  | some i => exact E.pure _

theorem tableNC {eq : T → Eff W Bool} {p : T → Bool} (h : ∀ x, E.R _ (eq x) (.ok (p x))) (t : HashTableNC T) (hc : Nat) :
    E.R _ (t.searchE hc eq) (t.findMut hc p) := by
  refine E.bind (E.lift _) (fun i _ => E.ite (fun _ => E.bind (E.lift _) (fun e _ => E.bindOk (h e) ?_)) (fun _ => E.pure none))
  exact E.ite (fun _ => E.pure _) (fun _ => E.pure _)

theorem scan {eqv : Q → K → Eff W Bool} {mt : Q → K → Bool} (h : ∀ q k, E.R Bool (eqv q k) (.ok (mt q k))) (m : ScanMap K V) (q : Q) :
    E.R _ (m.searchE eqv q) (m.getMut mt q) := E.scanLoop h q _ _ _

theorem ordered {qc : Q → K → Eff W Ordering} {qcmp : Q → K → Ordering} (h : ∀ q k, E.R _ (qc q k) (.ok (qcmp q k))) (m : EytzingerMap K V)
    (q : Q) : E.R _ (m.searchE qc q) (m.getMut qcmp q) := by
  unfold EytzingerMap.searchE EytzingerMap.getMut
  have hs : E.R _ (searchLoopE m.entries (fun entry => qc q entry.1 >>= fun o => Pure.pure o.swap) 0)
      (.ok (eytzingerSearchBy m.entries (fun entry => (qcmp q entry.1).swap))) :=
    E.searchLoop (f := fun entry : K × V => qc q entry.1 >>= fun o => Pure.pure o.swap) (g := fun entry : K × V => (qcmp q entry.1).swap)
      (fun x => E.bindOk (h q x.1) (E.pure _)) m.entries _ 0 0 (Nat.le_refl _)
  refine E.bindOk hs ?_
  cases eytzingerSearchBy m.entries (fun entry => (qcmp q entry.1).swap) with
  | none => exact E.pure none
  | some i => exact E.bind (E.lift _) (fun _ _ => E.pure _)

theorem dense {ix : Q → Eff W Nat} {qindex : Q → Nat} (h : ∀ q, E.R _ (ix q) (.ok (qindex q))) (m : DenseMap K V) (q : Q) :
    E.R _ (m.searchE ix q) (m.getMut qindex q) :=
  E.bindOk (h q) (E.ite (fun _ => E.bind (E.lift _) (fun _ _ => E.pure _)) (fun _ => E.pure none))

theorem sparse {ix : Q → Eff W Nat} {qindex : Q → Nat} (h : ∀ q, E.R _ (ix q) (.ok (qindex q))) (m : SparseMap K V) (q : Q) :
    E.R _ (m.searchE ix q) (m.getMut qindex q) :=
  E.bindOk (h q) (E.ite (fun _ => E.bind (E.lift _) (fun _ _ => E.ite (fun _ => E.bind (E.lift _) (fun _ _ => E.pure _)) (fun _ => E.pure none)))
    (fun _ => E.pure none))

theorem hash {hE : Q → Eff W Nat} {hQ : Q → Res Nat} (hh : ∀ q, E.R _ (hE q) (hQ q)) {eqv : Q → K → Eff W Bool} {mt : Q → K → Bool}
    (h : ∀ q k, E.R Bool (eqv q k) (.ok (mt q k))) (m : HashMap K V) (q : Q) : E.R _ (m.searchE hE eqv q) (m.getMut hQ mt q) :=
  E.bind (hh q) (fun _ _ => E.table (fun e : K × V => h q e.1) _ _)

theorem hashNC {hE : Q → Eff W Nat} {hQ : Q → Res Nat} (hh : ∀ q, E.R _ (hE q) (hQ q)) {eqv : Q → K → Eff W Bool} {mt : Q → K → Bool}
    (h : ∀ q k, E.R Bool (eqv q k) (.ok (mt q k))) (m : HashMapNC K V) (q : Q) : E.R _ (m.searchE hE eqv q) (m.getMut hQ mt q) :=
  E.bind (hh q) (fun _ _ => E.tableNC (fun e : K × V => h q e.1) _ _)

theorem leftRange {bE : Str → Eff W Nat} {bh : Str → Nat} (h : ∀ s, E.R _ (bE s) (.ok (bh s))) (r : Range) (s : Str) :
    E.R _ (leftRangeHashE bE r s) (leftRangeHash bh r s) :=
  E.ite (fun _ => E.lift _) (fun _ => E.bind (E.lift _) (fun _ _ => h _))

theorem rightRange {bE : Str → Eff W Nat} {bh : Str → Nat} (h : ∀ s, E.R _ (bE s) (.ok (bh s))) (r : Range) (s : Str) :
    E.R _ (rightRangeHashE bE r s) (rightRangeHash bh r s) :=
  E.ite (fun _ => E.lift _) (fun _ => E.bind (E.lift _) (fun _ _ => E.bind (E.lift _) (fun _ _ => E.bind (E.lift _) (fun _ _ => h _))))

theorem fzScalar {ix : Q → Eff W Nat} {qindex : Q → Nat} (hi : ∀ q, E.R _ (ix q) (.ok (qindex q))) {eqv : Q → K → Eff W Bool}
    {mt : Q → K → Bool} (h : ∀ q k, E.R Bool (eqv q k) (.ok (mt q k))) (m : FzScalarMap K V) (q : Q) :
    E.R _ (m.searchE ix eqv q) (m.getMut qindex mt q) := by
  cases m with
  | hash m => exact E.hash (hQ := scalarHash qindex) hi h m q
  | dense m => exact E.dense hi m q
  | sparse m => exact E.sparse hi m q

theorem fzString {b1 b2 : Str → Eff W Nat} {bhStr bhSlice : Str → Nat} (h1 : ∀ s, E.R _ (b1 s) (.ok (bhStr s)))
    (h2 : ∀ s, E.R _ (b2 s) (.ok (bhSlice s))) (m : FzStringMap V) (q : Str) : E.R _ (m.searchE b1 b2 q) (m.getMut bhStr bhSlice q) := by
  cases m with
  | leftRange r m => exact E.hash (E.leftRange h2 r) (fun _ _ => E.pure _) m q
  | rightRange r m => exact E.hash (E.rightRange h2 r) (fun _ _ => E.pure _) m q
  | hash m => exact E.hash (hQ := bridgeHash bhStr) h1 (fun _ _ => E.pure _) m q

end EffRel

theorem EffRel.hashOne (E : EffRel W) {u : UserTraits W Q K} {t : QueryTraits Q K} (h : Like (fun A x a => E.R A x (.ok a)) u t)
    (hs : InlineHasher) (q : Q) : E.R _ (hs.hashOneE u q) (hs.hashOne t q) := by
  cases hs with
  | bridge seed => exact h.fixedState _ _
  | scalar => exact h.index _
  | length =>
    show E.R _ (Eff.lift (lengthHash (u.bytes q))) (lengthHash (t.bytes q))
    rw [h.bytes]; exact E.lift _
  | left a b seed =>
    show E.R _ (leftRangeHashE (u.fixedStateSlice seed) ⟨a, b⟩ (u.bytes q)) (leftRangeHash (t.fixedStateSlice seed) ⟨a, b⟩ (t.bytes q))
    rw [h.bytes]; exact E.leftRange (h.fixedStateSlice _) _ _
  | right a b seed =>
    show E.R _ (rightRangeHashE (u.fixedStateSlice seed) ⟨a, b⟩ (u.bytes q)) (rightRangeHash (t.fixedStateSlice seed) ⟨a, b⟩ (t.bytes q))
    rw [h.bytes]; exact E.rightRange (h.fixedStateSlice _) _ _

theorem EffRel.inline (E : EffRel W) {u : UserTraits W Q K} {t : QueryTraits Q K} (h : Like (fun A x a => E.R A x (.ok a)) u t)
    (m : InlineMap K V) (q : Q) : E.R _ (m.searchE u q) (m.getMut t q) := by
  obtain ⟨sz, r⟩ := m
  cases r with
  | scan m => exact E.scan h.equivalent m q
  | eytzinger m => exact E.ordered h.compare m q
  | dense m => exact E.dense h.index m q
  | sparse m => exact E.sparse h.index m q
  | hash hs m => exact E.hash (E.hashOne h hs) h.equivalent m q
  | hashNC hs m => exact E.hashNC (E.hashOne h hs) h.equivalent m q


/-- Every relation of this kind carries over from the trait functions to the lookups. -/
theorem RunsWith.rel (E : EffRel W) {I : MapImpl M Q K V} {S : M → Q → Eff W (Option Nat)} (h : RunsWith (fun A x a => E.R A x (.ok a)) I S)
    (m : M) (q : Q) : E.R _ (S m q) (I.getMut m q) := by
  cases h with
  | scan h => exact E.scan h m q
  | ordered h => exact E.ordered h m q
  | dense h => exact E.dense h m q
  | sparse h => exact E.sparse h m q
  | hash hh h => exact E.hash (hQ := bridgeHash _) hh h m q
  | fzScalar hi h => exact E.fzScalar hi h m q
  | fzString h1 h2 => exact E.fzString h1 h2 m q
  | inline h => exact E.inline h m q

/-- The four lookup functions of every map type find what one search finds. -/
theorem RunsWith.searchOf {R : (A : Type) → Eff W A → A → Prop} {I : MapImpl M Q K V} {S : M → Q → Eff W (Option Nat)} (h : RunsWith R I S)
    (m : M) (q : Q) : ∃ s, SearchOf I m q s := by
  cases h with
  | scan h => exact ⟨_, ScanMap.searchOf _ m q⟩
  | ordered h => exact ⟨_, EytzingerMap.searchOf _ m q⟩
  | dense h => exact ⟨_, DenseMap.searchOf _ m q⟩
  | sparse h => exact ⟨_, SparseMap.searchOf _ m q⟩
  | hash hh h => exact ⟨_, HashMap.searchOf (bridgeHashT_of _) _ m q⟩
  | fzScalar hi h => exact ⟨_, FzScalarMap.searchOf _ _ m q⟩
  | fzString h1 h2 => exact ⟨_, FzStringMap.searchOf _ _ m q⟩
  | inline h => exact ⟨_, InlineMap.searchOf _ m q⟩

/-! ## Relations -/

def relPanicsOr (W : Type) : EffRel W where
  R A x r := PanicsOr x r
  lift r := fun _ => .inr rfl
  bind := by
    intro A B x r f g hx hf w
    show Panics (Eff.bind x f w).1 ∨ (Eff.bind x f w).1 = _
    unfold Eff.bind
    rcases hx w with ⟨msg, h⟩ | h
    · rcases hw : x w with ⟨o, w'⟩
      simp only [hw] at h
      subst h
      exact .inl ⟨msg, rfl⟩
    · rcases hw : x w with ⟨o, w'⟩
      simp only [hw] at h
      subst h
      cases o with
      | error e => exact .inr rfl
      | ok a => exact hf a rfl w'

def relAlways (W : Type) : EffRel W where
  R A x r := Always x r
  lift r := fun _ => rfl
  bind := by
    intro A B x r f g hx hf w
    show (Eff.bind x f w).1 = _
    unfold Eff.bind
    have h := hx w
    rcases hw : x w with ⟨o, w'⟩
    simp only [hw] at h
    subst h
    cases o with
    | error e => rfl
    | ok a => exact hf a rfl w'

def relMarks (bad : W → Prop) : EffRel W where
  R A x r := Marks bad x r
  lift r := fun w hw => .inr ⟨hw, rfl⟩
  bind := by
    intro A B x r f g hx hf w hb
    show (bad (Eff.bind x f w).2 ∧ Panics (Eff.bind x f w).1) ∨ (¬ bad (Eff.bind x f w).2 ∧ (Eff.bind x f w).1 = _)
    unfold Eff.bind
    rcases hx w hb with ⟨h1, msg, h⟩ | ⟨h1, h⟩
    · rcases hw : x w with ⟨o, w'⟩
      simp only [hw] at h h1
      subst h
      exact .inl ⟨h1, msg, rfl⟩
    · rcases hw : x w with ⟨o, w'⟩
      simp only [hw] at h h1
      subst h
      cases o with
      | error e => exact .inr ⟨h1, rfl⟩
      | ok a => exact hf a rfl w' h1

end Frozen.Props
