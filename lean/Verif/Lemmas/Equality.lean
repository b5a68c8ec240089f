import Verif.Lemmas.Built

/-! # Lemmas about map equality -/

namespace Frozen.Model

open Frozen Frozen.Spec Frozen.Props

variable {M M' Q K V V' : Type}

/-- Pigeonhole for keys up to equality: if `A` and `B` have pairwise different keys and as many, and every key of `A` is
in `B`, then every key of `B` is in `A`. -/
theorem covers_of_length_eq {eqK : K → K → Bool} (he : LawfulEq' eqK) {A B : List K} (hA : Distinct eqK A)
    (hB : Distinct eqK B) (hlen : A.length = B.length) (hc : ∀ a ∈ A, ∃ b ∈ B, eqK a b = true) :
    ∀ b ∈ B, ∃ a ∈ A, eqK b a = true := by
  intro b hb
  by_contra hno
  have hno : ∀ a ∈ A, eqK b a = false := by
    intro a ha
    cases h : eqK b a with
    | false => rfl
    | true => exact absurd ⟨a, ha, h⟩ hno
  obtain ⟨B1, B2, rfl⟩ := List.append_of_mem hb
  have := distinct_length_le he (A := A) (B := B1 ++ B2) hA (by
    intro a ha
    obtain ⟨c, hc', hac⟩ := hc a ha
    refine ⟨c, ?_, hac⟩
    have hne : c ≠ b := by
      rintro rfl
      have := hno a ha
      rw [he.symm _ _ hac] at this
      cases this
    simp only [List.mem_append, List.mem_cons] at hc' ⊢
    tauto)
  simp only [List.length_append, List.length_cons] at this hlen
  omega

theorem allEntriesIn_spec {J : MapImpl M' K K V'} {eqV : V → V' → Bool} {other : M'} (g : K → Option V')
    (hget : ∀ k, J.get other k = .ok (g k)) (l : List (K × V)) :
    allEntriesIn J eqV other l = .ok (l.all (fun e => match g e.1 with | some v => eqV e.2 v | none => false)) := by
  induction l with
  | nil => rfl
  | cons e l ih =>
    simp only [allEntriesIn, hget, bind, Except.bind, List.all_cons]
    cases hg : g e.1 with
    | none => rfl
    | some v =>
      cases hv : eqV e.2 v with
      | true => simp only [hv, if_true, ih, Bool.true_and]
      | false => simp only [hv, Bool.false_eq_true, if_false, Bool.false_and]

end Frozen.Model
