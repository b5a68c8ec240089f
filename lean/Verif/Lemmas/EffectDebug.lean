import Verif.Props.EffectDebugSpec
import Verif.Props.EffectSets
import Verif.Props.DebugFmt
import Verif.Lemmas.EffectBuildSafe

/-!
# Lemmas on `Debug` with effects
-/

namespace Frozen.Props

open Frozen.Spec Frozen.Model

variable {W S A K V T : Type}

/-! ## Performing steps -/

theorem bind_run {A B : Type} (x : Eff W A) (f : A → Eff W B) (w : W) :
    (x >>= f) w = match x w with
      | (.ok a, w') => f a w'
      | (.error e, w') => (.error e, w') := rfl

theorem perform_one (a : Eff W Bool) : perform [a] = a := by
  funext w
  unfold perform
  rw [bind_run]
  rcases h : a w with ⟨o, w'⟩
  match o with
  | .ok true => rfl
  | .ok false => rfl
  | .error e => rfl

theorem perform_append (l m : List (Eff W Bool)) : perform (l ++ m) = thenE (perform l) (perform m) := by
  funext w
  induction l generalizing w with
  | nil => rfl
  | cons a r ih =>
    show (a >>= fun c => if c then perform (r ++ m) else pure false) w = Eff.bind (a >>= fun c => if c then perform r else pure false) _ w
    unfold Eff.bind
    rw [bind_run, bind_run]
    rcases h : a w with ⟨o, w'⟩
    match o with
    | .ok true => exact ih w'
    | .ok false => rfl
    | .error e => rfl

theorem thenE_perform (a b : Eff W Bool) (l m : List (Eff W Bool)) (ha : a = perform l) (hb : b = perform m) : thenE a b = perform (l ++ m) := by
  rw [perform_append, ha, hb]

theorem thenE_cons (a : Eff W Bool) (m : List (Eff W Bool)) : thenE a (perform m) = perform (a :: m) := by
  exact thenE_perform a _ [a] m (perform_one a).symm rfl

theorem listEntry_true (st : DebugStyle W) (dA : A → Eff W Bool) (hf : Bool) (a : A) :
    listEntryE st dA true hf a = perform (st.before hf :: [dA a] ++ [st.after]) := by
  show thenE _ (thenE _ _) = _
  have h : thenE (dA a) st.after = perform [dA a, st.after] := thenE_perform _ _ [_] [_] (perform_one _).symm (perform_one _).symm
  rw [h]
  exact thenE_cons _ _

theorem mapEntry_true (st : DebugStyle W) (dK : K → Eff W Bool) (dV : V → Eff W Bool) (hf : Bool) (e : K × V) :
    mapEntryE st dK dV true hf e = perform (st.before hf :: [dK e.1, st.colon, dV e.2] ++ [st.after]) := by
  show thenE (thenE _ (thenE _ _)) (thenE _ _) = _
  have h1 : thenE (dV e.2) st.after = perform [dV e.2, st.after] := thenE_perform _ _ [_] [_] (perform_one _).symm (perform_one _).symm
  have h2 : thenE (dK e.1) st.colon = perform [dK e.1, st.colon] := thenE_perform _ _ [_] [_] (perform_one _).symm (perform_one _).symm
  rw [h1, h2, thenE_cons (st.before hf), ← perform_append]
  rfl

/-! ## The loop over a plan -/

theorem Follows.entries {next : S → W → Res (Option A) × S × W} {plan : S → Plan W A} (h : Follows next plan)
    (entry : Bool → Bool → A → Eff W Bool) : ∀ fuel s ok hf, entriesE entry next fuel s ok hf = entriesE entry planNext fuel (plan s) ok hf
  | 0, _, _, _ => rfl
  | fuel + 1, s, ok, hf => by
    funext w
    simp only [entriesE]
    rw [h s w]
    rcases hn : next s w with ⟨o, s', w'⟩
    match o with
    | .ok none => rfl
    | .error e => rfl
    | .ok (some a) =>
      have : (fun ok' => entriesE entry next fuel s' ok' true) = fun ok' => entriesE entry planNext fuel (plan s') ok' true :=
        funext fun ok' => h.entries entry fuel s' ok' true
      simp only [this]

theorem Follows.debug {next : S → W → Res (Option A) × S × W} {plan : S → Plan W A} (h : Follows next plan) (st : DebugStyle W)
    (entry : Bool → Bool → A → Eff W Bool) (fuel : Nat) (s : S) : debugE st entry next fuel s = debugE st entry planNext fuel (plan s) := by
  unfold debugE
  simp only [h.entries entry]

theorem walks_follows {I : IterImpl S A} {toList : S → List A} (w : Walks I toList) : Follows (W := W) (quietNext I) (fun s => allPlan (toList s)) := by
  intro s v
  unfold quietNext
  cases h : toList s with
  | nil => rw [w.nil s h]; simp only [h]; rfl
  | cons a r =>
    obtain ⟨s', h1, h2⟩ := w.cons s a r h
    rw [h1]; simp only [h, h2]; rfl

theorem Panics.of_error {A B : Type} {e : Fault} {P : Prop} (h : Panics (.error e : Res A) ∨ P) (hp : ¬ P) : Panics (.error e : Res B) := by
  rcases h with ⟨m, h⟩ | h
  · cases h; exact ⟨m, rfl⟩
  · exact absurd h hp

/-- After an error nothing more is formatted. -/
theorem entries_failed {entry : Bool → Bool → A → Eff W Bool} (he : ∀ hf a, entry false hf a = pure false) (l : List A) :
    ∀ fuel hf, l.length < fuel → entriesE entry planNext fuel (allPlan l) false hf = pure (some false) := by
  induction l with
  | nil => intro fuel hf hl; cases fuel with
    | zero => simp at hl
    | succ n => rfl
  | cons a r ih => intro fuel hf hl; cases fuel with
    | zero => simp at hl
    | succ n =>
      funext w
      show ((entry false hf a >>= fun ok' => entriesE entry planNext n (allPlan r) ok' true) w) = _
      rw [he]
      exact congrFun (ih n true (by simp at hl; omega)) w

theorem entries_perform {st : DebugStyle W} {entry : Bool → Bool → A → Eff W Bool} {part : A → List (Eff W Bool)} (he : ∀ hf a, entry false hf a = pure false)
    (ht : ∀ hf a, entry true hf a = perform (st.before hf :: part a ++ [st.after])) (l : List A) :
    ∀ fuel hf, l.length < fuel →
      entriesE entry planNext fuel (allPlan l) true hf = (perform (partSteps st hf (l.map part)) >>= fun b => pure (some b)) := by
  induction l with
  | nil => intro fuel hf hl; cases fuel with
    | zero => simp at hl
    | succ n => rfl
  | cons a r ih => intro fuel hf hl; cases fuel with
    | zero => simp at hl
    | succ n =>
      have hl : r.length < n := by simp at hl; omega
      funext w
      show ((entry true hf a >>= fun ok' => entriesE entry planNext n (allPlan r) ok' true) w) = _
      have hs : partSteps st hf ((a :: r).map part) = (st.before hf :: part a ++ [st.after]) ++ partSteps st true (r.map part) := by
        simp [partSteps]
      rw [hs, perform_append, ← ht]
      unfold thenE
      rw [bind_run, bind_run, bind_run]
      rcases hw : entry true hf a w with ⟨o, w'⟩
      match o with
      | .ok true => exact congrFun (ih n true hl) w'
      | .ok false => exact congrFun (entries_failed he r n true hl) w'
      | .error e => rfl

theorem debug_perform {st : DebugStyle W} {entry : Bool → Bool → A → Eff W Bool} {part : A → List (Eff W Bool)} (he : ∀ hf a, entry false hf a = pure false)
    (ht : ∀ hf a, entry true hf a = perform (st.before hf :: part a ++ [st.after])) {l : List A} {fuel : Nat} (hl : l.length < fuel) :
    Performs (debugE st entry planNext fuel (allPlan l)) (steps st (l.map part)) := by
  unfold Performs steps
  have hs : st.opening :: partSteps st false (l.map part) ++ [st.closing] = [st.opening] ++ (partSteps st false (l.map part) ++ [st.closing]) := rfl
  rw [hs, perform_append, perform_append, perform_one, perform_one]
  funext w
  unfold debugE thenE
  simp only [bind_run]
  rcases h : st.opening w with ⟨o, w'⟩
  match o with
  | .error e => rfl
  | .ok false =>
    simp only [entries_failed he l fuel false hl]
    rfl
  | .ok true =>
    simp only [entries_perform he ht l fuel false hl, if_true, bind_run]
    rcases h2 : perform (partSteps st false (l.map part)) w' with ⟨o2, w2⟩
    match o2 with
    | .error e => rfl
    | .ok false => rfl
    | .ok true => rfl

/-! ## Texts -/

section texts

variable {out : W → List Char} {sure : Prop}

theorem Writes.nil : Writes out sure (pure true) [] := fun w => ⟨[], List.prefix_refl _, by simp; rfl, .inr (.inr ⟨rfl, rfl⟩), fun _ => rfl⟩

theorem Writes.then {a b : Eff W Bool} {s t : List Char} (ha : Writes out sure a s) (hb : Writes out sure b t) : Writes out sure (thenE a b) (s ++ t) := by
  intro w
  obtain ⟨p, h1, h2, h3, h4⟩ := ha w
  unfold thenE
  rw [bind_run]
  rcases h : a w with ⟨o, w'⟩
  rw [h] at h2 h3 h4
  match o with
  | .error e => exact ⟨p, h1.trans (List.prefix_append _ _), h2, .inl (by simpa using h3), fun hs => by simpa using h4 hs⟩
  | .ok false => exact ⟨p, h1.trans (List.prefix_append _ _), h2, .inr (.inl rfl), fun hs => by simpa using h4 hs⟩
  | .ok true =>
    obtain rfl : p = s := by
      rcases h3 with ⟨m, h3⟩ | h3 | h3
      · cases h3
      · simp at h3
      · exact h3.2
    obtain ⟨q, g1, g2, g3, g4⟩ := hb w'
    refine ⟨p ++ q, (List.prefix_append_right_inj _).2 g1, ?_, ?_, g4⟩
    · show out (b w').2 = _
      rw [g2]; simp only [] at h2; rw [h2, List.append_assoc]
    · rcases g3 with g | g | g
      · exact .inl g
      · exact .inr (.inl g)
      · exact .inr (.inr ⟨g.1, by rw [g.2]⟩)

theorem Writes.perform {l : List (Eff W Bool × List Char)} (h : ∀ e ∈ l, Writes out sure e.1 e.2) :
    Writes out sure (Props.perform (l.map (fun e => e.1))) (l.map (fun e => e.2)).flatten := by
  induction l with
  | nil => exact .nil
  | cons e r ih =>
    rw [List.map_cons, ← thenE_cons]
    exact (h e (by simp)).then (ih fun e' he => h e' (by simp [he]))

/-- What one call of `next` of a plan does. -/
theorem planNext_looks : ∀ (p : Plan W T), (∀ e ∈ p, Looks out sure e.2.2 (.ok e.2.1)) → ∀ w, out (planNext p w).2.2 = out w ∧
    ((Panics (planNext p w).1 ∧ ¬ sure) ∨ ((planNext p w).1 = .ok none ∧ wanted p = []) ∨
      ∃ a, (planNext p w).1 = .ok (some a) ∧ wanted p = a :: wanted (planNext p w).2.1 ∧ (planNext p w).2.1.length < p.length)
  | [], _, w => ⟨rfl, .inr (.inl ⟨rfl, rfl⟩)⟩
  | e :: r, h, w => by
    obtain ⟨h1, h2, h3⟩ := h e (by simp) w
    rw [wanted_cons]
    unfold planNext
    rcases hx : e.2.2 w with ⟨o, w'⟩
    rw [hx] at h1 h2 h3
    have hc : ∀ c, o = .ok c → e.2.1 = c := by
      intro c hc
      subst hc
      rcases h2 with ⟨m, h2⟩ | h2
      · cases h2
      · simpa using h2.symm
    match o with
    | .ok true => exact ⟨h1, .inr (.inr ⟨e.1, rfl, by rw [hc _ rfl]; rfl, by simp⟩)⟩
    | .ok false =>
      obtain ⟨g1, g2⟩ := planNext_looks r (fun e he => h e (by simp [he])) w'
      refine ⟨g1.trans h1, ?_⟩
      rw [hc _ rfl]
      rcases g2 with g | g | ⟨a, g, g', g''⟩
      · exact .inl g
      · exact .inr (.inl g)
      · exact .inr (.inr ⟨a, g, g', by simp; omega⟩)
    | .error f => exact ⟨h1, .inl ⟨Panics.of_error h2 (by simp), fun hs => by simpa using h3 hs⟩⟩

theorem entries_writes {x : StyleText} {entry : Bool → Bool → A → Eff W Bool} {text : A → List Char} (he : ∀ hf a, entry false hf a = pure false)
    (ht : ∀ hf a, Writes out sure (entry true hf a) ((if hf then x.later else x.first) ++ text a ++ x.after)) :
    ∀ (fuel : Nat) (p : Plan W A) (ok hf : Bool), p.length < fuel → (∀ e ∈ p, Looks out sure e.2.2 (.ok e.2.1)) → ∀ w,
      ∃ q, q <+: partsText x hf ((wanted p).map text) ∧ out (entriesE entry planNext fuel p ok hf w).2 = out w ++ q ∧ (ok = false → q = []) ∧
        (Panics (entriesE entry planNext fuel p ok hf w).1 ∨ (entriesE entry planNext fuel p ok hf w).1 = .ok (some false) ∨
          ((entriesE entry planNext fuel p ok hf w).1 = .ok (some true) ∧ ok = true ∧ q = partsText x hf ((wanted p).map text))) ∧
        (sure → ok = true → (entriesE entry planNext fuel p ok hf w).1 = .ok (some true)) := by
  intro fuel
  induction fuel with
  | zero => intro p ok hf hl; exact absurd hl (Nat.not_lt_zero _)
  | succ n ih =>
    intro p ok hf hl hp w
    obtain ⟨h1, h2⟩ := planNext_looks p hp w
    have hm := planNext_mem p w
    unfold entriesE
    rcases hx : planNext p w with ⟨o, p', w'⟩
    rw [hx] at h1 h2 hm
    rcases h2 with ⟨⟨m, h⟩, hs⟩ | ⟨h, hw⟩ | ⟨a, h, hw, hlt⟩
    · obtain rfl : o = _ := h
      exact ⟨[], List.nil_prefix, by simpa using h1, fun _ => rfl, .inl ⟨m, rfl⟩, fun h => absurd h hs⟩
    · obtain rfl : o = _ := h
      rw [hw]
      refine ⟨[], List.nil_prefix, by simpa using h1, fun _ => rfl, ?_, fun _ h => by rw [h]⟩
      cases ok with
      | true => exact .inr (.inr ⟨rfl, rfl, rfl⟩)
      | false => exact .inr (.inl rfl)
    · obtain rfl : o = _ := h
      simp only [] at h1 hm hlt hw
      have IH := fun ok => ih p' ok true (by omega) (fun e he => hp e (hm e he))
      simp only [hw, List.map_cons, partsText]
      cases ok with
      | false =>
        rw [he]
        obtain ⟨q, g1, g2, g3, g4, g5⟩ := IH false w'
        obtain rfl := g3 rfl
        refine ⟨[], List.nil_prefix, ?_, fun _ => rfl, ?_, fun _ h => by cases h⟩
        · rw [← h1]; exact g2
        · rcases g4 with g | g | g
          · exact .inl g
          · exact .inr (.inl g)
          · cases g.2.1
      | true =>
        obtain ⟨q, g1, g2, g3, g4⟩ := ht hf a w'
        simp only [bind_run]
        rcases hy : entry true hf a w' with ⟨o, w2⟩
        rw [hy] at g2 g3 g4
        simp only [] at g2 g3 g4
        match o with
        | .error e =>
          exact ⟨q, g1.trans (List.prefix_append _ _), by rw [← h1]; exact g2, (fun h => by cases h), .inl (Panics.of_error g3 (by simp)), fun hs _ => by simpa using g4 hs⟩
        | .ok false =>
          obtain ⟨q', k1, k2, k3, k4, k5⟩ := IH false w2
          obtain rfl := k3 rfl
          refine ⟨q, g1.trans (List.prefix_append _ _), ?_, (fun h => by cases h), ?_, fun hs _ => by simpa using g4 hs⟩
          · show out (entriesE entry planNext n p' false true w2).2 = _
            rw [k2, g2, h1, List.append_nil]
          · rcases k4 with g | g | g
            · exact .inl g
            · exact .inr (.inl g)
            · cases g.2.1
        | .ok true =>
          obtain rfl : q = _ := by
            rcases g3 with ⟨m, g3⟩ | g3 | g3
            · cases g3
            · simp at g3
            · exact g3.2
          obtain ⟨q', k1, k2, k3, k4, k5⟩ := IH true w2
          refine ⟨_ ++ q', (List.prefix_append_right_inj _).2 k1, ?_, (fun h => by cases h), ?_, fun hs _ => k5 hs rfl⟩
          · show out (entriesE entry planNext n p' true true w2).2 = _
            rw [k2, g2, h1, List.append_assoc]
          · rcases k4 with g | g | g
            · exact .inl g
            · exact .inr (.inl g)
            · exact .inr (.inr ⟨g.1, trivial, by rw [g.2.2]⟩)

theorem debug_writes {st : DebugStyle W} {x : StyleText} (hst : StyleWrites out sure st x) {entry : Bool → Bool → A → Eff W Bool} {text : A → List Char}
    (he : ∀ hf a, entry false hf a = pure false)
    (ht : ∀ hf a, Writes out sure (entry true hf a) ((if hf then x.later else x.first) ++ text a ++ x.after)) {fuel : Nat} {p : Plan W A} (hl : p.length < fuel)
    (hp : ∀ e ∈ p, Looks out sure e.2.2 (.ok e.2.1)) :
    WritesWhole out sure (debugE st entry planNext fuel p) (wholeText x ((wanted p).map text)) := by
  intro w
  obtain ⟨q1, a1, a2, a3, a4⟩ := hst.opening w
  unfold debugE wholeText
  simp only [bind_run]
  rcases h : st.opening w with ⟨o, w1⟩
  rw [h] at a2 a3 a4
  simp only [] at a2 a3 a4
  match o with
  | .error e =>
    exact ⟨q1, a1.trans (by simp), a2, .inl (Panics.of_error a3 (by simp)), fun hs => by simpa using a4 hs⟩
  | .ok false =>
    obtain ⟨q, k1, k2, k3, k4, k5⟩ := entries_writes he ht fuel p false false hl hp w1
    obtain rfl := k3 rfl
    simp only []
    rcases h2 : entriesE entry planNext fuel p false false w1 with ⟨o, w2⟩
    rw [h2] at k2 k4 k5
    refine ⟨q1, a1.trans (by simp), ?_⟩
    rcases k4 with ⟨m, g⟩ | g | g
    · obtain rfl : o = _ := g
      exact ⟨by simpa [a2] using k2, .inl ⟨m, rfl⟩, fun hs => by simpa using a4 hs⟩
    · obtain rfl : o = _ := g
      exact ⟨by show out w2 = _; simpa [a2] using k2, .inr (.inl rfl), fun hs => by simpa using a4 hs⟩
    · cases g.2.1
  | .ok true =>
    obtain rfl : q1 = _ := by
      rcases a3 with ⟨m, g3⟩ | g3 | g3
      · cases g3
      · simp at g3
      · exact g3.2
    obtain ⟨q, k1, k2, k3, k4, k5⟩ := entries_writes he ht fuel p true false hl hp w1
    simp only []
    rcases h2 : entriesE entry planNext fuel p true false w1 with ⟨o, w2⟩
    rw [h2] at k2 k4 k5
    replace k2 : out w2 = _ := k2
    have hpre : x.opening ++ q <+: x.opening ++ partsText x false ((wanted p).map text) ++ x.closing :=
      ((List.prefix_append_right_inj _).2 k1).trans (List.prefix_append _ _)
    have hout : out w2 = out w ++ (x.opening ++ q) := by rw [k2, a2, List.append_assoc]
    rcases k4 with ⟨m, g⟩ | g | g
    · obtain rfl : o = _ := g
      exact ⟨_, hpre, hout, .inl ⟨m, rfl⟩, fun hs => by simpa using k5 hs rfl⟩
    · obtain rfl : o = _ := g
      exact ⟨_, hpre, hout, .inr (.inl rfl), fun hs => by simpa using k5 hs rfl⟩
    · obtain ⟨g, -, rfl⟩ := g
      obtain rfl : o = _ := g
      obtain ⟨q2, b1, b2, b3, b4⟩ := hst.closing w2
      simp only [andThenE, if_true, bind_run]
      rcases h3 : st.closing w2 with ⟨o, w3⟩
      rw [h3] at b2 b3 b4
      simp only [] at b2 b3 b4
      refine ⟨_ ++ q2, (List.prefix_append_right_inj _).2 b1, ?_⟩
      match o with
      | .error e => exact ⟨by show out w3 = _; rw [b2, hout, List.append_assoc], .inl (Panics.of_error b3 (by simp)), fun hs => by simpa using b4 hs⟩
      | .ok false => exact ⟨by show out w3 = _; rw [b2, hout, List.append_assoc], .inr (.inl rfl), fun hs => by simpa using b4 hs⟩
      | .ok true =>
        refine ⟨by show out w3 = _; rw [b2, hout, List.append_assoc], .inr (.inr ⟨rfl, ?_⟩), fun _ => rfl⟩
        rcases b3 with ⟨m, g3⟩ | g3 | g3
        · cases g3
        · simp at g3
        · rw [g3.2]

theorem listEntry_writes {st : DebugStyle W} {x : StyleText} (hst : StyleWrites out sure st x) {dA : A → Eff W Bool} {tA : A → List Char}
    (hA : ∀ a, Writes out sure (dA a) (tA a)) (hf : Bool) (a : A) :
    Writes out sure (listEntryE st dA true hf a) ((if hf then x.later else x.first) ++ tA a ++ x.after) := by
  rw [List.append_assoc]
  refine Writes.then ?_ ((hA a).then hst.after)
  cases hf with
  | true => exact hst.later
  | false => exact hst.first

theorem mapEntry_writes {st : DebugStyle W} {x : StyleText} (hst : StyleWrites out sure st x) {dK : K → Eff W Bool} {dV : V → Eff W Bool}
    {tK : K → List Char} {tV : V → List Char} (hK : ∀ k, Writes out sure (dK k) (tK k)) (hV : ∀ v, Writes out sure (dV v) (tV v)) (hf : Bool) (e : K × V) :
    Writes out sure (mapEntryE st dK dV true hf e) ((if hf then x.later else x.first) ++ (tK e.1 ++ x.colon ++ tV e.2) ++ x.after) := by
  have : (if hf then x.later else x.first) ++ (tK e.1 ++ x.colon ++ tV e.2) ++ x.after =
      ((if hf then x.later else x.first) ++ (tK e.1 ++ x.colon)) ++ (tV e.2 ++ x.after) := by simp [List.append_assoc]
  rw [this]
  refine Writes.then (Writes.then ?_ ((hK _).then hst.colon)) ((hV _).then hst.after)
  cases hf with
  | true => exact hst.later
  | false => exact hst.first

end texts

/-! ## Lengths of plans -/

theorem unionPlan_length (c1 c2 : T → Bool) (u : UnionE W T) : List.length (unionPlan c1 c2 u) < u.iter1.length + u.iter2.length + 1 := by
  unfold unionPlan allPlan notInPlan
  split <;> simp <;> omega

theorem interPlan_length (c1 c2 : T → Bool) (u : IntersectionE W T) : List.length (interPlan c1 c2 u) < u.iter1.length + u.iter2.length + 1 := by
  unfold interPlan inPlan
  split <;> simp

theorem diffPlan_length (c2 : T → Bool) (d : DifferenceE W T) : List.length (diffPlan c2 d) < d.iter1.length + 1 := by
  unfold diffPlan notInPlan
  simp

/-! ## Safety -/

theorem entries_safe {entry : Bool → Bool → A → Eff W Bool} (he : ∀ ok hf a, SafeCode (entry ok hf a)) :
    ∀ (fuel : Nat) (p : Plan W A) (ok hf : Bool), p.length < fuel → (∀ e ∈ p, SafeCode e.2.2) →
      Sure (entriesE entry Props.planNext fuel p ok hf) (fun r => r ≠ none) := by
  intro fuel
  induction fuel with
  | zero => intro p ok hf hl; exact absurd hl (Nat.not_lt_zero _)
  | succ n ih =>
    intro p ok hf hl hp w
    have h0 := planNext_noUb p w hp
    have h1 := planNext_sub p w
    have hm := planNext_mem p w
    unfold entriesE
    rcases hx : Props.planNext p w with ⟨o, p', w'⟩
    rw [hx] at h0 h1 hm
    match o with
    | .ok none => exact ⟨NoUb.ok _, fun a h => by cases h; simp⟩
    | .error e => exact ⟨fun msg h => by cases h; exact h0 msg rfl, fun a h => by cases h⟩
    | .ok (some a) =>
      have hlt : p'.length < n := by
        rcases h1 with h | ⟨b, -, -, h⟩ | ⟨f, -, -, h⟩
        · cases h.1
        · simp only [] at h; omega
        · simp only [] at h; omega
      exact Sure.bind (Sure.of (he ok hf a)) (fun ok' _ => ih p' ok' true hlt (fun e he => hp e (hm e he))) w'

theorem debug_safe {st : DebugStyle W} (ho : SafeCode st.opening) (hc : SafeCode st.closing) {entry : Bool → Bool → A → Eff W Bool}
    (he : ∀ ok hf a, SafeCode (entry ok hf a)) {fuel : Nat} {p : Plan W A} (hl : p.length < fuel) (hp : ∀ e ∈ p, SafeCode e.2.2) :
    FormatsSafely (debugE st entry Props.planNext fuel p) := by
  have : Sure (debugE st entry Props.planNext fuel p) (fun r => r ≠ none) := by
    refine Sure.bind (Sure.of ho) (fun ok _ => Sure.bind (entries_safe he fuel p ok false hl hp) (fun r hr => ?_))
    match r, hr with
    | some ok, _ =>
      refine Sure.bind (P := fun _ => True) (Sure.ite (fun _ => Sure.of hc) (fun _ => Sure.pure trivial)) (fun b _ => Sure.pure (by simp))
  exact fun w => ⟨(this w).1, fun h => (this w).2 _ h rfl⟩

end Frozen.Props
