import Verif.Props.EffectCollectSpec
import Verif.Lemmas.EffectSerde

/-!
# Lemmas on `FromIterator` with effects
-/

namespace Frozen.Props

open Frozen Frozen.Spec Frozen.Model

variable {W A B M : Type}

/-- The outcome of a step that returns nothing. -/
def unitOf : Option Fault → Res Unit
  | none => .ok ()
  | some f => .error f

theorem roomE_of {p : RoomPolicy} {hint : Eff W Nat} {i : Nat} {w w' : W} {r : Option Fault} (h : RoomFor p hint i w r w') :
    roomE p hint i w = (unitOf r, w') := by
  unfold roomE
  cases h with
  | enough h => rw [h]; rfl
  | granted h hh hg => rw [h]; simp only; rw [eff_bind_ok hh, if_pos hg]; rfl
  | refused h hh hg => rw [h]; simp only; rw [eff_bind_ok hh, hg]; rfl
  | broke h hh => rw [h]; simp only; rw [eff_bind_error hh]; rfl

theorem roomE_cases (p : RoomPolicy) (hint : Eff W Nat) (i : Nat) (w : W) : ∃ r, RoomFor p hint i w r (roomE p hint i w).2 := by
  unfold roomE
  rcases hp : p i with - | g
  · exact ⟨none, .enough hp⟩
  · simp only
    rcases hh : hint w with ⟨n, w'⟩
    rcases n with f | n
    · rw [eff_bind_error hh]
      exact ⟨some f, .broke hp hh⟩
    · rw [eff_bind_ok hh]
      cases hg : g n with
      | true => exact ⟨none, .granted hp hh hg⟩
      | false => exact ⟨_, .refused hp hh hg⟩

theorem RoomFor.unique {p : RoomPolicy} {hint : Eff W Nat} {i : Nat} {w w₁ w₂ : W} {r₁ r₂ : Option Fault} (h₁ : RoomFor p hint i w r₁ w₁)
    (h₂ : RoomFor p hint i w r₂ w₂) : r₁ = r₂ ∧ w₁ = w₂ := by
  have h := (roomE_of h₁).symm.trans (roomE_of h₂)
  cases r₁ <;> cases r₂ <;> cases h <;> exact ⟨rfl, rfl⟩

theorem TakesAll.unique {p : RoomPolicy} {it : UserIter W A} {i : Nat} {w w₁ w₂ : W} {xs ys : List A} {r₁ r₂ : Option Fault}
    (h : TakesAll p it i w xs r₁ w₁) : TakesAll p it i w ys r₂ w₂ → xs = ys ∧ r₁ = r₂ ∧ w₁ = w₂ := by
  induction h generalizing ys with
  | finished h =>
    intro h'
    cases h' with
    | finished h' => rw [h] at h'; cases h'; exact ⟨rfl, rfl, rfl⟩
    | broke h' => rw [h] at h'; cases h'
    | noRoom h' hr => rw [h] at h'; cases h'
    | more h' hr hs => rw [h] at h'; cases h'
  | broke h =>
    intro h'
    cases h' with
    | finished h' => rw [h] at h'; cases h'
    | broke h' => rw [h] at h'; cases h'; exact ⟨rfl, rfl, rfl⟩
    | noRoom h' hr => rw [h] at h'; cases h'
    | more h' hr hs => rw [h] at h'; cases h'
  | noRoom h hr =>
    intro h'
    cases h' with
    | finished h' => rw [h] at h'; cases h'
    | broke h' => rw [h] at h'; cases h'
    | noRoom h' hr' => rw [h] at h'; cases h'; exact ⟨rfl, hr.unique hr'⟩
    | more h' hr' hs => rw [h] at h'; cases h'; cases (hr.unique hr').1
  | more h hr _ ih =>
    intro h'
    cases h' with
    | finished h' => rw [h] at h'; cases h'
    | broke h' => rw [h] at h'; cases h'
    | noRoom h' hr' => rw [h] at h'; cases h'; cases (hr.unique hr').1
    | more h' hr' hs =>
      rw [h] at h'; cases h'
      obtain ⟨-, rfl⟩ := hr.unique hr'
      obtain ⟨rfl, h2⟩ := ih hs
      exact ⟨rfl, h2⟩

/-- What `gatherE` returns at the end. -/
def gatheredAs (f : A → B) (v : List B) (xs : List A) : Option Fault → Res (Option (List B))
  | none => .ok (some (v ++ xs.map f))
  | some f => .error f

theorem gatherE_of {p : RoomPolicy} {it : UserIter W A} (f : A → B) {i : Nat} {w w' : W} {xs : List A} {r : Option Fault}
    (h : TakesAll p it i w xs r w') : ∀ v, v.length = i → ∃ fuel, gatherE p f it fuel v w = (gatheredAs f v xs r, w') := by
  induction h with
  | finished h => exact fun v _ => ⟨1, (eff_bind_ok h).trans (by simp [gatheredAs]; rfl)⟩
  | broke h => exact fun v _ => ⟨1, eff_bind_error h⟩
  | noRoom h hr =>
    rintro v rfl
    exact ⟨1, (eff_bind_ok h).trans (eff_bind_error (roomE_of hr))⟩
  | @more i w w₁ w₂ w' x xs r h hr hs ih =>
    rintro v rfl
    obtain ⟨fuel, hf⟩ := ih (v ++ [f x]) (by simp)
    refine ⟨fuel + 1, (eff_bind_ok h).trans ((eff_bind_ok (roomE_of hr)).trans (hf.trans ?_))⟩
    cases r <;> simp [gatheredAs]

theorem gatherE_cases {p : RoomPolicy} {it : UserIter W A} (f : A → B) : ∀ (fuel : Nat) (v : List B) (w : W),
    (gatherE p f it fuel v w).1 = .ok none ∨
      ∃ xs r, TakesAll p it v.length w xs r (gatherE p f it fuel v w).2 ∧ (gatherE p f it fuel v w).1 = gatheredAs f v xs r
  | 0, _, _ => .inl rfl
  | fuel + 1, v, w => by
    rcases h : it.next w with ⟨r, w₁⟩
    rcases r with e | r
    · have hd : gatherE p f it (fuel + 1) v w = (.error e, w₁) := eff_bind_error h
      rw [hd]
      exact .inr ⟨[], some e, .broke h, rfl⟩
    · rcases r with - | x
      · have hd : gatherE p f it (fuel + 1) v w = (.ok (some v), w₁) := eff_bind_ok h
        rw [hd]
        exact .inr ⟨[], none, .finished h, by simp [gatheredAs]⟩
      · have hd : gatherE p f it (fuel + 1) v w = (roomE p it.sizeHint v.length >>= fun _ => gatherE p f it fuel (v ++ [f x])) w₁ :=
          eff_bind_ok h
        rw [hd]
        obtain ⟨r, hr⟩ := roomE_cases p it.sizeHint v.length w₁
        cases r with
        | some e =>
          rw [eff_bind_error (roomE_of hr)]
          exact .inr ⟨[], some e, .noRoom h hr, rfl⟩
        | none =>
          rw [eff_bind_ok (roomE_of hr)]
          rcases gatherE_cases f fuel (v ++ [f x]) (roomE p it.sizeHint v.length w₁).2 with h' | ⟨xs, r, hs, h'⟩
          · exact .inl h'
          · rw [List.length_append] at hs
            refine .inr ⟨x :: xs, r, .more h hr hs, h'.trans ?_⟩
            cases r <;> simp [gatheredAs]

theorem CollectsInto.unique {p : RoomPolicy} {it : UserIter W A} {dflt : Eff W Unit} {build : List A → Eff W M} {w w₁ w₂ : W} {r₁ r₂ : Res M}
    (h₁ : CollectsInto p it dflt build w r₁ w₁) (h₂ : CollectsInto p it dflt build w r₂ w₂) : r₁ = r₂ ∧ w₁ = w₂ := by
  cases h₁ with
  | noIter h =>
    cases h₂ with
    | noIter h' => rw [h] at h'; cases h'; exact ⟨rfl, rfl⟩
    | broke h' hs' => rw [h] at h'; cases h'
    | noHasher h' hs' hd' => rw [h] at h'; cases h'
    | made h' hs' hd' hb' => rw [h] at h'; cases h'
  | broke h hs =>
    cases h₂ with
    | noIter h' => rw [h] at h'; cases h'
    | broke h' hs' => rw [h] at h'; cases h'; obtain ⟨-, h1, rfl⟩ := hs.unique hs'; cases h1; exact ⟨rfl, rfl⟩
    | noHasher h' hs' hd' => rw [h] at h'; cases h'; cases (hs.unique hs').2.1
    | made h' hs' hd' hb' => rw [h] at h'; cases h'; cases (hs.unique hs').2.1
  | noHasher h hs hd =>
    cases h₂ with
    | noIter h' => rw [h] at h'; cases h'
    | broke h' hs' => rw [h] at h'; cases h'; cases (hs.unique hs').2.1
    | noHasher h' hs' hd' =>
      rw [h] at h'; cases h'; obtain ⟨-, -, rfl⟩ := hs.unique hs'; rw [hd] at hd'; cases hd'; exact ⟨rfl, rfl⟩
    | made h' hs' hd' hb' => rw [h] at h'; cases h'; obtain ⟨-, -, rfl⟩ := hs.unique hs'; rw [hd] at hd'; cases hd'
  | made h hs hd hb =>
    cases h₂ with
    | noIter h' => rw [h] at h'; cases h'
    | broke h' hs' => rw [h] at h'; cases h'; cases (hs.unique hs').2.1
    | noHasher h' hs' hd' => rw [h] at h'; cases h'; obtain ⟨-, -, rfl⟩ := hs.unique hs'; rw [hd] at hd'; cases hd'
    | made h' hs' hd' hb' =>
      rw [h] at h'; cases h'; obtain ⟨rfl, -, rfl⟩ := hs.unique hs'; rw [hd] at hd'; cases hd'; rw [hb] at hb'; cases hb'; exact ⟨rfl, rfl⟩

theorem made_withFuel (x : Eff W M) (u : W) : (x >>= fun m => (pure (some m) : Eff W (Option M))) u = (withFuel (x u).1, (x u).2) := by
  rcases hx : x u with ⟨m, u'⟩
  rcases m with f | m
  · rw [eff_bind_error hx]; rfl
  · rw [eff_bind_ok hx]; rfl

theorem fromIterE_cases {p : RoomPolicy} (f : A → B) (dflt : Eff W Unit) (build : List B → Eff W M) (it : UserIter W A) (fuel : Nat) (w : W) :
    (fromIterE p f dflt build it fuel w).1 = .ok none ∨
      ∃ r, CollectsInto p it dflt (fun xs => build (xs.map f)) w r (fromIterE p f dflt build it fuel w).2 ∧
        (fromIterE p f dflt build it fuel w).1 = withFuel r := by
  unfold fromIterE
  rcases h : it.start w with ⟨n, u⟩
  rcases n with e | n
  · rw [eff_bind_error h]
    exact .inr ⟨.error e, .noIter h, rfl⟩
  · rw [eff_bind_ok h]
    have hd := gatherE_cases (p := p) (it := it) f fuel [] u
    rcases hw : gatherE p f it fuel [] u with ⟨d, u₁⟩
    rw [hw] at hd
    rcases hd with hd | ⟨xs, e, hs, hd⟩
    · simp only at hd
      subst hd
      rw [eff_bind_ok hw]
      exact .inl rfl
    · simp only at hd hs
      subst hd
      cases e with
      | some e => rw [eff_bind_error hw]; exact .inr ⟨.error e, .broke h hs, rfl⟩
      | none =>
        rw [eff_bind_ok hw]
        simp only [List.nil_append]
        rcases hd : dflt u₁ with ⟨d, u₂⟩
        rcases d with f | d
        · rw [eff_bind_error hd]
          exact .inr ⟨.error f, .noHasher h hs hd, rfl⟩
        · rw [eff_bind_ok hd, made_withFuel]
          exact .inr ⟨_, .made h hs hd rfl, rfl⟩

theorem fromIterE_of {p : RoomPolicy} (f : A → B) {dflt : Eff W Unit} {build : List B → Eff W M} {it : UserIter W A} {w w' : W} {r : Res M}
    (h : CollectsInto p it dflt (fun xs => build (xs.map f)) w r w') : ∃ fuel, fromIterE p f dflt build it fuel w = (withFuel r, w') := by
  suffices hs : ∃ fuel, (fromIterE p f dflt build it fuel w).1 ≠ .ok none by
    obtain ⟨fuel, hf⟩ := hs
    rcases fromIterE_cases (p := p) f dflt build it fuel w with h' | ⟨r', h', h''⟩
    · exact absurd h' hf
    · obtain ⟨rfl, rfl⟩ := h.unique h'
      exact ⟨fuel, Prod.ext h'' rfl⟩
  unfold fromIterE
  have key : ∀ {w₁ w₂ : W} {xs : List A}, it.start w = (.ok (), w₁) → TakesAll p it 0 w₁ xs none w₂ → ∃ fuel, ((do
      it.start
      let r ← gatherE p f it fuel []
      match r with
      | none => pure none
      | some v => dflt >>= fun _ => build v >>= fun m => pure (some m) : Eff W (Option M)) w).1 ≠ .ok none := by
    intro w₁ w₂ xs hh hs
    obtain ⟨fuel, hf⟩ := gatherE_of f hs [] rfl
    refine ⟨fuel, ?_⟩
    rw [eff_bind_ok hh, eff_bind_ok hf]
    simp only
    rcases hd : dflt w₂ with ⟨d, u₂⟩
    rcases d with f | d
    · rw [eff_bind_error hd]; exact fun h => by cases h
    · rw [eff_bind_ok hd, made_withFuel]; exact withFuel_ne _
  cases h with
  | noIter hh => exact ⟨0, by rw [eff_bind_error hh]; simp⟩
  | broke hh hs =>
    obtain ⟨fuel, hf⟩ := gatherE_of f hs [] rfl
    exact ⟨fuel, by rw [eff_bind_ok hh, eff_bind_error hf]; exact fun h => by cases h⟩
  | noHasher hh hs hd => exact key hh hs
  | made hh hs hd hb => exact key hh hs

theorem fromIterE_cases_id {p : RoomPolicy} (dflt : Eff W Unit) (build : List B → Eff W M) (it : UserIter W B) (fuel : Nat) (w : W) :
    (fromIterE p id dflt build it fuel w).1 = .ok none ∨
      ∃ r, CollectsInto p it dflt (fun xs => build xs) w r (fromIterE p id dflt build it fuel w).2 ∧
        (fromIterE p id dflt build it fuel w).1 = withFuel r := by
  simpa only [List.map_id] using fromIterE_cases (p := p) id dflt build it fuel w

theorem converts_spec {S V : Type} (asRef : S → Eff W Str) : ∀ (es : List (S × V)) (w : W),
    Converts asRef es w (Model.mapE (fun e : S × V => asRef e.1 >>= fun s => pure (s, e.2)) es w).1
      (Model.mapE (fun e : S × V => asRef e.1 >>= fun s => pure (s, e.2)) es w).2
  | [], w => .all
  | (s, v) :: es, w => by
    unfold Model.mapE
    rcases h : asRef s w with ⟨r, w₁⟩
    rcases r with f | t
    · rw [eff_bind_error (eff_bind_error h)]
      exact .broke h
    · rw [eff_bind_ok ((eff_bind_ok h).trans (rfl : _ = ((.ok (t, v) : Res (Str × V)), w₁)))]
      have ih := converts_spec asRef es w₁
      rcases h' : Model.mapE (fun e : S × V => asRef e.1 >>= fun s => pure (s, e.2)) es w₁ with ⟨r, w₂⟩
      rw [h'] at ih
      rcases r with f | ts
      · rw [eff_bind_error h']
        exact .later h ih
      · rw [eff_bind_ok h']
        exact .step h ih

theorem Converts.unique {S V : Type} {asRef : S → Eff W Str} {es : List (S × V)} {w w₁ w₂ : W} {r₁ r₂ : Res (List (Str × V))}
    (h : Converts asRef es w r₁ w₁) : Converts asRef es w r₂ w₂ → r₁ = r₂ ∧ w₁ = w₂ := by
  induction h generalizing r₂ with
  | all => rintro ⟨⟩; exact ⟨rfl, rfl⟩
  | broke h =>
    intro h'
    cases h' with
    | broke h' => rw [h] at h'; cases h'; exact ⟨rfl, rfl⟩
    | step h' hs => rw [h] at h'; cases h'
    | later h' hs => rw [h] at h'; cases h'
  | step h _ ih =>
    intro h'
    cases h' with
    | broke h' => rw [h] at h'; cases h'
    | step h' hs => rw [h] at h'; cases h'; obtain ⟨h1, rfl⟩ := ih hs; cases h1; exact ⟨rfl, rfl⟩
    | later h' hs => rw [h] at h'; cases h'; cases (ih hs).1
  | later h _ ih =>
    intro h'
    cases h' with
    | broke h' => rw [h] at h'; cases h'
    | step h' hs => rw [h] at h'; cases h'; cases (ih hs).1
    | later h' hs => rw [h] at h'; cases h'; obtain ⟨h1, rfl⟩ := ih hs; cases h1; exact ⟨rfl, rfl⟩

theorem Collector.cases' [Target] {x : Nat → Eff W (Option M)} {p : RoomPolicy} {it : UserIter W A} {dflt : Eff W Unit} {build : List A → Eff W M}
    (h : Collector x p it dflt build) (fuel : Nat) (w : W) :
    (x fuel w).1 = .ok none ∨ ∃ r, CollectsInto p it dflt build w r (x fuel w).2 ∧ (x fuel w).1 = withFuel r := by
  cases h with
  | hashMap => exact fromIterE_cases_id _ _ _ fuel w
  | orderedMap => exact fromIterE_cases_id _ _ _ fuel w
  | scalarMap => exact fromIterE_cases_id _ _ _ fuel w
  | stringMap => exact fromIterE_cases_id _ _ _ fuel w
  | hashSet => exact fromIterE_cases _ _ _ _ fuel w
  | orderedSet => exact fromIterE_cases _ _ _ _ fuel w
  | scalarSet => exact fromIterE_cases _ _ _ _ fuel w
  | stringSet => exact fromIterE_cases _ _ _ _ fuel w

theorem Collector.of [Target] {x : Nat → Eff W (Option M)} {p : RoomPolicy} {it : UserIter W A} {dflt : Eff W Unit} {build : List A → Eff W M}
    (h : Collector x p it dflt build) {w w' : W} {r : Res M} (hr : CollectsInto p it dflt build w r w') : ∃ fuel, x fuel w = (withFuel r, w') := by
  cases h with
  | hashMap => exact fromIterE_of id (by simpa using hr)
  | orderedMap => exact fromIterE_of id (by simpa using hr)
  | scalarMap => exact fromIterE_of id (by simpa using hr)
  | stringMap => exact fromIterE_of id (by simpa using hr)
  | hashSet => exact fromIterE_of _ hr
  | orderedSet => exact fromIterE_of _ hr
  | scalarSet => exact fromIterE_of _ hr
  | stringSet => exact fromIterE_of _ hr

end Frozen.Props
