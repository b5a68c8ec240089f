import Verif.Props.EffectTextSpec
import Verif.Lemmas.EffectSerde
import Verif.Lemmas.EffectBuildSafe

/-!
# Lemmas on lookups in string maps with queries whose `AsRef<str>` has effects
-/

namespace Frozen.Props

open Frozen Frozen.Spec Frozen.Model

variable {W S A B T K V Q : Type}

/-- What the computation returns, if it does, has the property `P`. -/
def Returns (x : Eff W A) (P : A → Prop) : Prop := ∀ w a, (x w).1 = .ok a → P a

theorem Returns.bind {x : Eff W A} {f : A → Eff W B} {P : A → Prop} {R : B → Prop} (hx : Returns x P) (hf : ∀ a, P a → Returns (f a) R) :
    Returns (x >>= f) R := by
  intro w b hb
  rcases h : x w with ⟨r, w'⟩
  rcases r with e | a
  · rw [eff_bind_error h] at hb
    cases hb
  · rw [eff_bind_ok h] at hb
    exact hf a (hx w a (by rw [h])) w' b hb

theorem Returns.any (x : Eff W A) : Returns x (fun _ => True) := fun _ _ _ => True.intro

theorem Returns.lift (r : Res A) : Returns (Eff.lift r : Eff W A) (fun a => r = .ok a) := fun _ _ h => h

theorem Returns.pure {a : A} {P : A → Prop} (h : P a) : Returns (Pure.pure a : Eff W A) P := fun _ _ h' => by cases h'; exact h

theorem getUnchecked_at {xs : List T} {i : Nat} {x : T} (h : getUnchecked xs i = .ok x) : xs[i]? = some x := by
  unfold getUnchecked at h
  split at h
  · cases h; assumption
  · cases h

theorem Returns.scanBucket {p : T → Bool} (bucket : List T) : ∀ (n ptr : Nat),
    Returns (scanBucketE (fun x => (Pure.pure (p x) : Eff W Bool)) bucket n ptr) (fun r => ∀ i, r = some i → i < ptr + n ∧ ∃ x, bucket[i]? = some x ∧ p x = true)
  | 0, _ => Returns.pure (fun _ h => by cases h)
  | n + 1, ptr => by
    refine Returns.bind (Returns.lift _) (fun x hx => Returns.bind (P := fun c => c = p x) (Returns.pure rfl) (fun c hc => ?_))
    subst hc
    cases hp : p x with
    | true => exact Returns.pure (fun i hi => by cases hi; exact ⟨by omega, x, getUnchecked_at hx, hp⟩)
    | false =>
      refine fun w a ha i hi => ?_
      obtain ⟨h1, h2⟩ := Returns.scanBucket bucket n (ptr + 1) w a ha i hi
      exact ⟨by omega, h2⟩

theorem Returns.table {p : T → Bool} (t : HashTable T) (hc : Nat) :
    Returns (t.searchE hc (fun x => (Pure.pure (p x) : Eff W Bool))) (fun r => ∀ i, r = some i → ∃ x, t.entries[i]? = some x ∧ p x = true) := by
  refine Returns.bind (Returns.lift _) (fun s hs => Returns.bind (Returns.lift _) (fun b hb => Returns.bind (Returns.scanBucket b _ 0) (fun r hr => ?_)))
  cases r with
  | none => exact Returns.pure (fun _ h => by cases h)
  | some ptr =>
    refine Returns.pure (fun i hi => ?_)
    cases hi
    obtain ⟨h1, x, h2, h3⟩ := hr ptr rfl
    refine ⟨x, ?_, h3⟩
    unfold getUncheckedRange at hb
    split at hb
    · cases hb
      rw [List.getElem?_take] at h2
      split at h2
      · rwa [List.getElem?_drop] at h2
      · cases h2
    · cases hb

theorem Returns.hashMap {p : Q → K → Bool} (hE : Q → Eff W Nat) (m : HashMap K V) (q : Q) :
    Returns (m.searchE hE (fun a b => (Pure.pure (p a b) : Eff W Bool)) q) (fun r => ∀ i, r = some i → ∃ e, m.table.entries[i]? = some e ∧ p q e.1 = true) :=
  Returns.bind (Returns.any _) (fun h _ => Returns.table m.table h)

/-- Whatever the hasher does, what is found has the key that was looked for. -/
theorem searchE_finds (b1 b2 : Str → Eff W Nat) (m : FzStringMap V) (t : Str) :
    Returns (m.searchE b1 b2 t) (fun r => ∀ i, r = some i → ∃ v, m.entries[i]? = some (t, v)) := by
  have key : ∀ {hE : Str → Eff W Nat} {m : HashMap Str V}, Returns (m.searchE hE (fun a b => (Pure.pure (strEq a b) : Eff W Bool)) t)
      (fun r => ∀ i, r = some i → ∃ v, m.table.entries[i]? = some (t, v)) := by
    intro hE m w r hr i hi
    obtain ⟨⟨k, v⟩, h1, h2⟩ := Returns.hashMap hE m t w r hr i hi
    have : t = k := by simpa [strEq] using h2
    subst this
    exact ⟨v, h1⟩
  cases m with
  | leftRange r m => exact key
  | rightRange r m => exact key
  | hash m => exact key

theorem mapE_texts {asRef : S → Eff W Str} : ∀ {qs : List S} {w w' : W} {ts : List Str}, mapE asRef qs w = (.ok ts, w') ↔ Texts asRef qs w ts w'
  | [], w, w', ts => ⟨fun h => (by cases h; exact .nil), fun h => (by cases h; rfl)⟩
  | q :: qs, w, w', ts => by
    unfold mapE
    rcases h : asRef q w with ⟨r, w₁⟩
    rcases r with e | t
    · rw [eff_bind_error h]
      refine ⟨fun h => (by cases h), fun h' => ?_⟩
      cases h' with
      | cons h' _ => rw [h] at h'; cases h'
    · rw [eff_bind_ok h]
      rcases h2 : mapE asRef qs w₁ with ⟨r, w₂⟩
      rcases r with e | ts'
      · rw [eff_bind_error h2]
        refine ⟨fun h => (by cases h), fun h' => ?_⟩
        cases h' with
        | cons h' hs =>
          rw [h] at h'
          cases h'
          rw [mapE_texts.2 hs] at h2
          cases h2
      · rw [eff_bind_ok h2]
        constructor
        · intro h'
          cases h'
          exact .cons h (mapE_texts.1 h2)
        · intro h'
          cases h' with
          | cons h' hs =>
            rw [h] at h'
            cases h'
            rw [mapE_texts.2 hs] at h2
            cases h2
            rfl

/-- Computations that leave the state alone. -/
def relStill (W : Type) : EffRel W where
  R A x r := ∀ w, x w = (r, w)
  lift r := fun _ => rfl
  bind := by
    intro A B x r f g hx hf w
    cases r with
    | error e => exact eff_bind_error (hx w)
    | ok a => exact (eff_bind_ok (hx w)).trans (hf a rfl w)

theorem hasDuplicatesE_strings (ts : List Str) : ∃ d, (d = false ↔ ts.Nodup) ∧
    ∀ w : W, hasDuplicatesE (fun a b => (pure (strEq a b) : Eff W Bool)) ts w = (.ok d, w) := by
  obtain ⟨d, h1, h2⟩ := hasDupLoop_spec strEq ts ts.length 0 (by omega)
  refine ⟨d, ?_, fun w => ?_⟩
  · rw [← Bool.not_eq_true, h2, List.nodup_iff_injective_get]
    constructor
    · intro hn i j hij
      by_contra hne
      have hne' : i.1 ≠ j.1 := fun h => hne (Fin.ext h)
      rcases Nat.lt_or_gt_of_ne hne' with hlt | hlt
      · exact hn ⟨j.1, i.1, ts[i.1], ts[j.1], hlt, Nat.zero_le _, List.getElem?_eq_getElem i.2, List.getElem?_eq_getElem j.2, by
          simp only [List.get_eq_getElem] at hij; simp [strEq, hij]⟩
      · exact hn ⟨i.1, j.1, ts[j.1], ts[i.1], hlt, Nat.zero_le _, List.getElem?_eq_getElem j.2, List.getElem?_eq_getElem i.2, by
          simp only [List.get_eq_getElem] at hij; simp [strEq, hij]⟩
    · rintro hi ⟨k, j, a, c, hjk, -, ha, hc, he⟩
      obtain ⟨hj, rfl⟩ := List.getElem?_eq_some_iff.1 ha
      obtain ⟨hk, rfl⟩ := List.getElem?_eq_some_iff.1 hc
      have := @hi ⟨j, hj⟩ ⟨k, hk⟩ (by simpa [strEq] using he)
      have := congrArg Fin.val this
      simp only at this
      omega
  · have := (relStill W).hasDupLoop (eq := strEq) (fun a b => (relStill W).pure (strEq a b)) ts ts.length 0 w
    rw [h1] at this
    exact this

theorem Returns.disjointUnchecked {search : Q → Eff W (Option Nat)} {P : Q → Option Nat → Prop} (h : ∀ q, Returns (search q) (P q)) :
    ∀ qs : List Q, Returns (disjointUncheckedE search qs) (fun ps => List.Forall₂ P qs ps)
  | [] => Returns.pure .nil
  | q :: qs => Returns.bind (h q) (fun _ hp => Returns.bind (Returns.disjointUnchecked h qs) (fun _ hps => Returns.pure (.cons hp hps)))

theorem forall₂_nodup {es : List (Str × V)} {ts : List Str} {ps : List (Option Nat)}
    (h : List.Forall₂ (fun t p => ∀ i, p = some i → ∃ v, es[i]? = some (t, v)) ts ps) (hn : ts.Nodup) :
    (ps.filterMap id).Nodup ∧ ∀ i ∈ ps.filterMap id, ∃ t ∈ ts, ∃ v, es[i]? = some (t, v) := by
  induction h with
  | nil => simp
  | @cons t p ts ps hp hps ih =>
    rw [List.nodup_cons] at hn
    obtain ⟨h1, h2⟩ := ih hn.2
    cases p with
    | none =>
      refine ⟨by simpa using h1, fun i hi => ?_⟩
      obtain ⟨t', ht', hv⟩ := h2 i (by simpa using hi)
      exact ⟨t', List.mem_cons_of_mem _ ht', hv⟩
    | some i =>
      obtain ⟨v, hv⟩ := hp i rfl
      have hc : (some i :: ps).filterMap id = i :: ps.filterMap id := rfl
      rw [hc]
      refine ⟨List.nodup_cons.2 ⟨fun hi => ?_, h1⟩, fun j hj => ?_⟩
      · obtain ⟨t', ht', v', hv'⟩ := h2 i hi
        rw [hv] at hv'
        cases hv'
        exact hn.1 ht'
      · rcases List.mem_cons.1 hj with rfl | hj
        · exact ⟨t, List.mem_cons_self, v, hv⟩
        · obtain ⟨t', ht', hv⟩ := h2 j hj
          exact ⟨t', List.mem_cons_of_mem _ ht', hv⟩

end Frozen.Props
