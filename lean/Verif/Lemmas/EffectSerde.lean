import Verif.Props.EffectSerdeSpec
import Verif.Lemmas.EffectBuildSafe

/-!
# Lemmas on serialization and deserialization with effects
-/

namespace Frozen.Props

open Frozen Frozen.Spec Frozen.Model

variable {W E O A B M : Type}

theorem eff_bind_ok {x : Eff W A} {f : A → Eff W B} {w w' : W} {a : A} (h : x w = (.ok a, w')) : (x >>= f) w = f a w' := by
  show Eff.bind x f w = _
  unfold Eff.bind
  rw [h]

theorem eff_bind_error {x : Eff W A} {f : A → Eff W B} {w w' : W} {e : Fault} (h : x w = (.error e, w')) : (x >>= f) w = (.error e, w') := by
  show Eff.bind x f w = _
  unfold Eff.bind
  rw [h]

/-! ## Serialization -/

theorem feedE_spec {item : A → Eff W (Except E Unit)} {last : Eff W (Except E O)} : ∀ (l : List A) (w : W),
    Performed last (l.map item) w ((feedE item l >>= fun r => match r with
      | .error e => pure (.error e)
      | .ok () => last) w).1 ((feedE item l >>= fun r => match r with
      | .error e => pure (.error e)
      | .ok () => last) w).2
  | [], w => .last rfl
  | a :: l, w => by
    rcases h : item a w with ⟨r, w₁⟩
    rcases r with f | r
    · have hf : feedE item (a :: l) w = (.error f, w₁) := eff_bind_error h
      rw [eff_bind_error hf]
      exact .broke h
    · rcases r with e | u
      · have hf : feedE item (a :: l) w = (.ok (.error e), w₁) := eff_bind_ok h
        rw [eff_bind_ok hf]
        exact .failed h
      · have hf : feedE item (a :: l) w = feedE item l w₁ := eff_bind_ok h
        have hb : ∀ g : Except E Unit → Eff W (Except E O), (feedE item (a :: l) >>= g) w = (feedE item l >>= g) w₁ := by
          intro g
          show Eff.bind _ _ _ = Eff.bind _ _ _
          unfold Eff.bind
          rw [hf]
        rw [hb]
        exact .step h (feedE_spec l w₁)

theorem serializeAllE_spec (z : SerializerE W E O A) (n : Nat) (l : List A) (w : W) :
    Performed z.finish (z.start (some n) :: l.map z.item) w (serializeAllE z n l w).1 (serializeAllE z n l w).2 := by
  unfold serializeAllE
  rcases h : z.start (some n) w with ⟨r, w₁⟩
  rcases r with f | r
  · rw [eff_bind_error h]
    exact .broke h
  · rcases r with e | u
    · rw [eff_bind_ok h]
      exact .failed h
    · rw [eff_bind_ok h]
      exact .step h (feedE_spec l w₁)

theorem Performed.unique {last : Eff W (Except E O)} {l : List (Eff W (Except E Unit))} {w w₁ w₂ : W} {r₁ r₂ : Res (Except E O)}
    (h : Performed last l w r₁ w₁) : Performed last l w r₂ w₂ → r₁ = r₂ ∧ w₁ = w₂ := by
  induction h with
  | last h =>
    intro h'
    cases h' with
    | last h' => rw [h] at h'; cases h'; exact ⟨rfl, rfl⟩
  | step h _ ih =>
    intro h'
    cases h' with
    | step h' hl => rw [h] at h'; cases h'; exact ih hl
    | failed h' => rw [h] at h'; cases h'
    | broke h' => rw [h] at h'; cases h'
  | failed h =>
    intro h'
    cases h' with
    | step h' hl => rw [h] at h'; cases h'
    | failed h' => rw [h] at h'; cases h'; exact ⟨rfl, rfl⟩
    | broke h' => rw [h] at h'; cases h'
  | broke h =>
    intro h'
    cases h' with
    | step h' hl => rw [h] at h'; cases h'
    | failed h' => rw [h] at h'; cases h'
    | broke h' => rw [h] at h'; cases h'; exact ⟨rfl, rfl⟩

/-! ## Deserialization -/

theorem Supplies.unique {next : Eff W (Except E (Option A))} {w w₁ w₂ : W} {xs ys : List A} {r₁ r₂ : Ending E}
    (h : Supplies next w xs r₁ w₁) : Supplies next w ys r₂ w₂ → xs = ys ∧ r₁ = r₂ ∧ w₁ = w₂ := by
  induction h generalizing ys with
  | finished h =>
    intro h'
    cases h' with
    | finished h' => rw [h] at h'; cases h'; exact ⟨rfl, rfl, rfl⟩
    | failed h' => rw [h] at h'; cases h'
    | broke h' => rw [h] at h'; cases h'
    | more h' hs => rw [h] at h'; cases h'
  | failed h =>
    intro h'
    cases h' with
    | finished h' => rw [h] at h'; cases h'
    | failed h' => rw [h] at h'; cases h'; exact ⟨rfl, rfl, rfl⟩
    | broke h' => rw [h] at h'; cases h'
    | more h' hs => rw [h] at h'; cases h'
  | broke h =>
    intro h'
    cases h' with
    | finished h' => rw [h] at h'; cases h'
    | failed h' => rw [h] at h'; cases h'
    | broke h' => rw [h] at h'; cases h'; exact ⟨rfl, rfl, rfl⟩
    | more h' hs => rw [h] at h'; cases h'
  | more h _ ih =>
    intro h'
    cases h' with
    | finished h' => rw [h] at h'; cases h'
    | failed h' => rw [h] at h'; cases h'
    | broke h' => rw [h] at h'; cases h'
    | more h' hs =>
      rw [h] at h'; cases h'
      obtain ⟨rfl, h2⟩ := ih hs
      exact ⟨rfl, h2⟩

/-- What `drainE` returns at the end of the items. -/
def drained (f : A → B) (v : List B) (xs : List A) : Ending E → Res (Option (Except E (List B)))
  | .finished => .ok (some (.ok (v ++ xs.map f)))
  | .failed e => .ok (some (.error e))
  | .broke f => .error f

theorem drainE_of {next : Eff W (Except E (Option A))} (f : A → B) {w w' : W} {xs : List A} {r : Ending E} (h : Supplies next w xs r w') :
    ∀ v, ∃ fuel, drainE f next fuel v w = (drained f v xs r, w') := by
  induction h with
  | finished h => exact fun v => ⟨1, (eff_bind_ok h).trans (by simp [drained]; rfl)⟩
  | failed h => exact fun v => ⟨1, eff_bind_ok h⟩
  | broke h => exact fun v => ⟨1, eff_bind_error h⟩
  | @more w w₁ w' x xs r h hs ih =>
    intro v
    obtain ⟨fuel, hf⟩ := ih (v ++ [f x])
    refine ⟨fuel + 1, (eff_bind_ok h).trans (hf.trans ?_)⟩
    cases r <;> simp [drained]

theorem drainE_cases {next : Eff W (Except E (Option A))} (f : A → B) : ∀ (fuel : Nat) (v : List B) (w : W),
    (drainE f next fuel v w).1 = .ok none ∨
      ∃ xs r, Supplies next w xs r (drainE f next fuel v w).2 ∧ (drainE f next fuel v w).1 = drained f v xs r
  | 0, _, _ => .inl rfl
  | fuel + 1, v, w => by
    rcases h : next w with ⟨r, w₁⟩
    rcases r with e | r
    · have hd : drainE f next (fuel + 1) v w = (.error e, w₁) := eff_bind_error h
      rw [hd]
      exact .inr ⟨[], .broke e, .broke h, rfl⟩
    · rcases r with e | r
      · have hd : drainE f next (fuel + 1) v w = (.ok (some (.error e)), w₁) := eff_bind_ok h
        rw [hd]
        exact .inr ⟨[], .failed e, .failed h, rfl⟩
      · rcases r with - | x
        · have hd : drainE f next (fuel + 1) v w = (.ok (some (.ok v)), w₁) := eff_bind_ok h
          rw [hd]
          exact .inr ⟨[], .finished, .finished h, by simp [drained]⟩
        · have hd : drainE f next (fuel + 1) v w = drainE f next fuel (v ++ [f x]) w₁ := eff_bind_ok h
          rw [hd]
          rcases drainE_cases f fuel (v ++ [f x]) w₁ with h' | ⟨xs, r, hs, h'⟩
          · exact .inl h'
          · refine .inr ⟨x :: xs, r, .more h hs, h'.trans ?_⟩
            cases r <;> simp [drained]


/-- What follows the items. -/
def Afterwards (dflt : Eff W Unit) (build : List A → Eff W M) (xs : List A) (u : W) (r : Res (Except E M)) (w' : W) : Ending E → Prop
  | .failed e => r = .ok (.error e) ∧ w' = u
  | .broke f => r = .error f ∧ w' = u
  | .finished => (dflt >>= fun _ => build xs >>= fun m => pure (.ok m)) u = (r, w')

/-- What follows the size hint. -/
def AfterHint [Target] (size : Nat) (acc : AccessE W E A) (dflt : Eff W Unit) (build : List A → Eff W M) (u : W) (r : Res (Except E M)) (w' : W) :
    Res (Option Nat) → Prop
  | .error f => r = .error f ∧ w' = u
  | .ok n => (allocLimit ≤ n.getD 0 * size ∧ r = .error (.panic "capacity overflow") ∧ w' = u) ∨
      (n.getD 0 * size < allocLimit ∧ ∃ xs e u₁, Supplies acc.next u xs e u₁ ∧ Afterwards dflt build xs u₁ r w' e)

theorem Restores.iff [Target] {size : Nat} {acc : AccessE W E A} {dflt : Eff W Unit} {build : List A → Eff W M} {w w' : W} {r : Res (Except E M)} :
    Restores size acc dflt build w r w' ↔ AfterHint size acc dflt build (acc.sizeHint w).2 r w' (acc.sizeHint w).1 := by
  constructor
  · intro h
    cases h with
    | noHint h => rw [h]; exact ⟨rfl, rfl⟩
    | tooMany h hn => rw [h]; exact .inl ⟨hn, rfl, rfl⟩
    | failed h hn hs => rw [h]; exact .inr ⟨hn, _, _, _, hs, rfl, rfl⟩
    | broke h hn hs => rw [h]; exact .inr ⟨hn, _, _, _, hs, rfl, rfl⟩
    | noHasher h hn hs hd => rw [h]; exact .inr ⟨hn, _, _, _, hs, eff_bind_error hd⟩
    | notBuilt h hn hs hd hb => rw [h]; exact .inr ⟨hn, _, _, _, hs, (eff_bind_ok hd).trans (eff_bind_error hb)⟩
    | built h hn hs hd hb => rw [h]; exact .inr ⟨hn, _, _, _, hs, (eff_bind_ok hd).trans (eff_bind_ok hb)⟩
  · rcases h : acc.sizeHint w with ⟨n, u⟩
    intro ha
    rcases n with f | n
    · obtain ⟨rfl, rfl⟩ := ha
      exact .noHint h
    · rcases ha with ⟨hn, rfl, rfl⟩ | ⟨hn, xs, e, u₁, hs, ha⟩
      · exact .tooMany h hn
      · cases e with
        | failed e => obtain ⟨rfl, rfl⟩ := ha; exact .failed h hn hs
        | broke f => obtain ⟨rfl, rfl⟩ := ha; exact .broke h hn hs
        | finished =>
          have ha : (dflt >>= fun _ => build xs >>= fun m => Pure.pure (Except.ok (ε := E) m)) u₁ = (r, w') := ha
          rcases hd : dflt u₁ with ⟨d, u₂⟩
          rcases d with f | d
          · rw [eff_bind_error hd] at ha
            cases ha
            exact .noHasher h hn hs hd
          · rw [eff_bind_ok hd] at ha
            rcases hb : build xs u₂ with ⟨m, u₃⟩
            rcases m with f | m
            · rw [eff_bind_error hb] at ha
              cases ha
              exact .notBuilt h hn hs hd hb
            · rw [eff_bind_ok hb] at ha
              cases ha
              exact .built h hn hs hd hb

theorem Restores.unique [Target] {size : Nat} {acc : AccessE W E A} {dflt : Eff W Unit} {build : List A → Eff W M} {w w₁ w₂ : W} {r₁ r₂ : Res (Except E M)}
    (h₁ : Restores size acc dflt build w r₁ w₁) (h₂ : Restores size acc dflt build w r₂ w₂) : r₁ = r₂ ∧ w₁ = w₂ := by
  rw [Restores.iff] at h₁ h₂
  generalize acc.sizeHint w = p at h₁ h₂
  obtain ⟨n, u⟩ := p
  rcases n with f | n
  · obtain ⟨rfl, rfl⟩ := h₁
    obtain ⟨rfl, rfl⟩ := h₂
    exact ⟨rfl, rfl⟩
  · rcases h₁ with ⟨hn, rfl, rfl⟩ | ⟨hn, xs, e, u₁, hs, ha⟩
    · rcases h₂ with ⟨hn', rfl, rfl⟩ | ⟨hn', -⟩
      · exact ⟨rfl, rfl⟩
      · omega
    · rcases h₂ with ⟨hn', -⟩ | ⟨-, xs', e', u₁', hs', ha'⟩
      · omega
      · obtain ⟨rfl, rfl, rfl⟩ := hs.unique hs'
        cases e with
        | failed e => exact ⟨ha.1.trans ha'.1.symm, ha.2.trans ha'.2.symm⟩
        | broke f => exact ⟨ha.1.trans ha'.1.symm, ha.2.trans ha'.2.symm⟩
        | finished =>
          have h := Eq.trans (Eq.symm ha) ha'
          cases h
          exact ⟨rfl, rfl⟩

/-- An outcome, as that of a computation that may run out of fuel. -/
def withFuel {R : Type} : Res R → Res (Option R)
  | .ok r => .ok (some r)
  | .error f => .error f

theorem withFuel_ne {R : Type} (r : Res R) : withFuel r ≠ .ok none := by cases r <;> exact fun h => by cases h

theorem endsWith_iff {R : Type} {x : Nat → Eff W (Option R)} {w w' : W} {r : Res R} : EndsWith x w r w' ↔ ∃ fuel, x fuel w = (withFuel r, w') := by
  cases r <;> exact Iff.rfl

theorem tail_withFuel (dflt : Eff W Unit) (build : List B → Eff W M) (v : List B) (u : W) :
    (dflt >>= fun _ => build v >>= fun m => (pure (some (Except.ok m)) : Eff W (Option (Except E M)))) u =
      (withFuel ((dflt >>= fun _ => build v >>= fun m => (pure (Except.ok m) : Eff W (Except E M))) u).1,
        ((dflt >>= fun _ => build v >>= fun m => (pure (Except.ok m) : Eff W (Except E M))) u).2) := by
  rcases hd : dflt u with ⟨d, u₂⟩
  rcases d with f | d
  · rw [eff_bind_error hd, eff_bind_error hd]
    rfl
  · rw [eff_bind_ok hd, eff_bind_ok hd]
    rcases hb : build v u₂ with ⟨m, u₃⟩
    rcases m with f | m
    · rw [eff_bind_error hb, eff_bind_error hb]
      rfl
    · rw [eff_bind_ok hb, eff_bind_ok hb]
      rfl

theorem vecWithCapacity_small [Target] {size n : Nat} (h : n * size < allocLimit) : vecWithCapacity B size n = .ok [] := by
  unfold vecWithCapacity; rw [if_pos h]

theorem vecWithCapacity_large [Target] {size n : Nat} (h : allocLimit ≤ n * size) : vecWithCapacity B size n = .error (.panic "capacity overflow") := by
  unfold vecWithCapacity; rw [if_neg (by omega)]

/-- `visitE` runs out of fuel or does what it should. -/
theorem visitE_cases [Target] {size : Nat} (f : A → B) (dflt : Eff W Unit) (build : List B → Eff W M) (acc : AccessE W E A) (fuel : Nat) (w : W) :
    (visitE size f dflt build acc fuel w).1 = .ok none ∨
      ∃ r, Restores size acc dflt (fun xs => build (xs.map f)) w r (visitE size f dflt build acc fuel w).2 ∧
        (visitE size f dflt build acc fuel w).1 = withFuel r := by
  simp only [Restores.iff]
  unfold visitE
  rcases h : acc.sizeHint w with ⟨n, u⟩
  rcases n with e | n
  · rw [eff_bind_error h]
    exact .inr ⟨.error e, ⟨rfl, rfl⟩, rfl⟩
  · rw [eff_bind_ok h]
    by_cases hn : n.getD 0 * size < allocLimit
    · rw [vecWithCapacity_small hn, eff_bind_ok (x := Eff.lift (.ok [])) (w' := u) rfl]
      have hd := drainE_cases (next := acc.next) f fuel [] u
      rcases hw : drainE f acc.next fuel [] u with ⟨d, u₁⟩
      rw [hw] at hd
      rcases hd with hd | ⟨xs, e, hs, hd⟩
      · simp only at hd
        subst hd
        rw [eff_bind_ok hw]
        exact .inl rfl
      · simp only at hd hs
        subst hd
        cases e with
        | failed e => rw [eff_bind_ok hw]; exact .inr ⟨.ok (.error e), .inr ⟨hn, _, _, _, hs, rfl, rfl⟩, rfl⟩
        | broke e => rw [eff_bind_error hw]; exact .inr ⟨.error e, .inr ⟨hn, _, _, _, hs, rfl, rfl⟩, rfl⟩
        | finished =>
          rw [eff_bind_ok hw]
          simp only [List.nil_append]
          rw [tail_withFuel]
          exact .inr ⟨_, .inr ⟨hn, _, _, _, hs, rfl⟩, rfl⟩
    · rw [vecWithCapacity_large (by omega), eff_bind_error (x := Eff.lift (.error _)) (w' := u) rfl]
      exact .inr ⟨.error (.panic "capacity overflow"), .inl ⟨by omega, rfl, rfl⟩, rfl⟩

theorem visitE_cases_id [Target] {size : Nat} (dflt : Eff W Unit) (build : List B → Eff W M) (acc : AccessE W E B) (fuel : Nat) (w : W) :
    (visitE size id dflt build acc fuel w).1 = .ok none ∨
      ∃ r, Restores size acc dflt (fun xs => build xs) w r (visitE size id dflt build acc fuel w).2 ∧
        (visitE size id dflt build acc fuel w).1 = withFuel r := by
  simpa only [List.map_id] using visitE_cases (size := size) id dflt build acc fuel w

theorem visitE_of [Target] {size : Nat} (f : A → B) {dflt : Eff W Unit} {build : List B → Eff W M} {acc : AccessE W E A} {w w' : W} {r : Res (Except E M)}
    (h : Restores size acc dflt (fun xs => build (xs.map f)) w r w') : ∃ fuel, visitE size f dflt build acc fuel w = (withFuel r, w') := by
  suffices hs : ∃ fuel, (visitE size f dflt build acc fuel w).1 ≠ .ok none by
    obtain ⟨fuel, hf⟩ := hs
    rcases visitE_cases (size := size) f dflt build acc fuel w with h' | ⟨r', h', h''⟩
    · exact absurd h' hf
    · obtain ⟨rfl, rfl⟩ := h.unique h'
      exact ⟨fuel, Prod.ext h'' rfl⟩
  rw [Restores.iff] at h
  unfold visitE
  rcases hh : acc.sizeHint w with ⟨n, u⟩
  rw [hh] at h
  rcases n with e | n
  · exact ⟨0, by rw [eff_bind_error hh]; simp⟩
  · rcases h with ⟨hn, -⟩ | ⟨hn, xs, e, u₁, hs, -⟩
    · exact ⟨0, by rw [eff_bind_ok hh, vecWithCapacity_large hn, eff_bind_error (x := Eff.lift (.error _)) (w' := u) rfl]; simp⟩
    · obtain ⟨fuel, hf⟩ := drainE_of f hs []
      refine ⟨fuel, ?_⟩
      rw [eff_bind_ok hh, vecWithCapacity_small hn, eff_bind_ok (x := Eff.lift (.ok [])) (w' := u) rfl]
      cases e with
      | failed e => rw [eff_bind_ok hf]; exact fun h => by cases h
      | broke e => rw [eff_bind_error hf]; exact fun h => by cases h
      | finished =>
        rw [eff_bind_ok hf]
        simp only
        rw [tail_withFuel]
        exact withFuel_ne _

theorem Deserializer.cases' [Target] {x : Nat → Eff W (Option (Except E M))} {size : Nat} {acc : AccessE W E A} {dflt : Eff W Unit}
    {build : List A → Eff W M} (h : Deserializer x size acc dflt build) (fuel : Nat) (w : W) :
    (x fuel w).1 = .ok none ∨ ∃ r, Restores size acc dflt build w r (x fuel w).2 ∧ (x fuel w).1 = withFuel r := by
  cases h with
  | hashMap => exact visitE_cases_id _ _ _ fuel w
  | orderedMap => exact visitE_cases_id _ _ _ fuel w
  | scalarMap => exact visitE_cases_id _ _ _ fuel w
  | stringMap => exact visitE_cases_id _ _ _ fuel w
  | hashSet => exact visitE_cases _ _ _ _ fuel w
  | orderedSet => exact visitE_cases _ _ _ _ fuel w
  | scalarSet => exact visitE_cases _ _ _ _ fuel w
  | stringSet => exact visitE_cases _ _ _ _ fuel w

theorem Deserializer.of [Target] {x : Nat → Eff W (Option (Except E M))} {size : Nat} {acc : AccessE W E A} {dflt : Eff W Unit}
    {build : List A → Eff W M} (h : Deserializer x size acc dflt build) {w w' : W} {r : Res (Except E M)} (hr : Restores size acc dflt build w r w') :
    ∃ fuel, x fuel w = (withFuel r, w') := by
  cases h with
  | hashMap => exact visitE_of id (by simpa using hr)
  | orderedMap => exact visitE_of id (by simpa using hr)
  | scalarMap => exact visitE_of id (by simpa using hr)
  | stringMap => exact visitE_of id (by simpa using hr)
  | hashSet => exact visitE_of _ hr
  | orderedSet => exact visitE_of _ hr
  | scalarSet => exact visitE_of _ hr
  | stringSet => exact visitE_of _ hr

end Frozen.Props
