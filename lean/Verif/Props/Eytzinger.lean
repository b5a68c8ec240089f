import Verif.Lemmas.Eytzinger

/-!
# Property theorems: Eytzinger layout and search (C09, C10)
-/

namespace Frozen.Props

open Frozen.Spec Frozen.Model

variable {T : Type _}

/-- **C09**.  Laying out any list succeeds (no panic, no arithmetic underflow, no failing `unwrap`), permutes it,
and reading the result in order as a binary tree gives back the original list. -/
theorem c09_layout [Target] (xs : List T) :
    ∃ ys, eytzingerLayout xs = .ok ys ∧ ys.Perm xs ∧ ys.length = xs.length ∧
      (inorder ys.length 0).filterMap (fun j => ys[j]?) = xs := by
  obtain ⟨ys, h, hlen, _⟩ := eytzingerLayout_spec xs
  exact ⟨ys, h, eytzingerLayout_perm h, hlen, eytzingerLayout_inorder h⟩

/-- **C09** (positions).  Position `j` of the result holds the element whose sorted position is the in-order rank
of node `j`: every node `0..n` occurs exactly once in the in-order traversal, at the rank of its element. -/
theorem c09_position [Target] (xs ys : List T) (h : eytzingerLayout xs = .ok ys) (r j : Nat)
    (hr : (inorder xs.length 0)[r]? = some j) : j < xs.length ∧ ys[j]? = xs[r]? := by
  obtain ⟨ys', h1, hlen, hget⟩ := eytzingerLayout_spec xs
  rw [h] at h1
  cases h1
  have hj := (mem_inorder (List.mem_of_getElem? hr)).1
  refine ⟨hj, ?_⟩
  have h2 : ((inorder xs.length 0).map (rank xs.length))[r]? = some (rank xs.length j) := by
    rw [List.getElem?_map, hr]; rfl
  rw [inorder_rank] at h2
  obtain ⟨h3, h4⟩ := List.getElem?_eq_some_iff.1 h2
  rw [List.getElem_range] at h4
  rw [hget j hj, ← h4]

/-- **C09** (traversal is complete): the in-order traversal visits each of the `n` nodes exactly once. -/
theorem c09_inorder_complete (n : Nat) : (inorder n 0).Nodup ∧ ∀ j, j ∈ inorder n 0 ↔ j < n := by
  refine ⟨(inorder_sorted n 0).imp (fun h => by rintro rfl; omega), fun j => ⟨fun h => (mem_inorder h).1, fun h => ?_⟩⟩
  have hz : dep 0 = 0 := dep_unique (by simp) (by simp)
  exact inorder_complete h (by omega) (InSub.root (dep_le_hgt h))

attribute [local instance] w64 in
example : eytzingerLayout [10, 20, 30, 40, 50, 60] = .ok [40, 20, 60, 10, 30, 50] := by decide +kernel
example : inorder 6 0 = [3, 1, 4, 0, 5, 2] := by decide +kernel

/-- `f` classifies a list as: first the elements below the target, then at most one hit, then those above.  This is what a
consistent comparison does on a strictly ascending list. -/
def Unimodal (f : T → Ordering) (xs : List T) : Prop :=
  xs.Pairwise (fun a b => (f b ≠ .gt → f a = .lt) ∧ (f a ≠ .lt → f b = .gt))

/-- **C10**.  Searching the laid out list finds the matching element if there is one, and only then; the position
returned is in bounds. -/
theorem c10_search_exact [Target] {xs ys : List T} {f : T → Ordering} (hl : eytzingerLayout xs = .ok ys) (hf : Unimodal f xs) :
    (∀ i, eytzingerSearchBy ys f = some i → ∃ x, ys[i]? = some x ∧ f x = .eq ∧ x ∈ xs) ∧
    (eytzingerSearchBy ys f = none ↔ ∀ x ∈ xs, f x ≠ .eq) := by
  obtain ⟨h1, h2⟩ := eytzingerSearch_spec hl hf
  constructor
  · intro i hi
    obtain ⟨x, hx, he⟩ := searchLoop_some (i := 0) (steps := 0) (Prod.ext hi rfl)
    exact ⟨x, hx, he, (eytzingerLayout_perm hl).mem_iff.1 (List.mem_of_getElem? hx)⟩
  · constructor
    · intro hn x hx he
      rw [hn] at h1
      exact (List.find?_eq_none.1 h1.symm) x hx (by simp [he])
    · intro hall
      rw [List.find?_eq_none.2 (by intro x hx; simpa using hall x hx)] at h1
      cases hs : eytzingerSearchBy ys f with
      | none => rfl
      | some i =>
        rw [hs, Option.bind_some, List.getElem?_eq_none_iff] at h1
        have := h2 i hs
        omega

/-- **C10** (cost).  The search calls the comparison at most `floor(log2 n) + 1` times, whatever the comparison
does. -/
theorem c10_search_cost (data : List T) (f : T → Ordering) (h : data ≠ []) :
    eytzingerSearchCost data f ≤ Nat.log2 data.length + 1 := by
  have := searchLoop_cost data f 0 0 (.inl ⟨rfl, rfl⟩)
  rwa [if_neg (by simpa using h)] at this

/-- **C10** (instance at numbers): over any strictly ascending list of numbers, the search for `q` succeeds iff `q`
is in the list. -/
theorem c10_search_nat [Target] (xs ys : List Nat) (hs : xs.Pairwise (· < ·)) (hl : eytzingerLayout xs = .ok ys) (q : Nat) :
    (eytzingerSearchBy ys (fun x => compare x q)).isSome = true ↔ q ∈ xs := by
  have hf : Unimodal (fun x => compare x q) xs := by
    apply hs.imp
    intro a b hab
    simp only [ne_eq, Nat.compare_eq_gt, Nat.compare_eq_lt]
    omega
  obtain ⟨h1, h2⟩ := c10_search_exact hl hf
  rw [← not_iff_not, Bool.not_eq_true, Option.isSome_eq_false_iff, Option.isNone_iff_eq_none, h2]
  constructor
  · intro h hq; exact h q hq (Nat.compare_eq_eq.2 rfl)
  · intro hq x hx he
    rw [Nat.compare_eq_eq] at he
    subst he; exact hq hx

example : eytzingerSearchBy [40, 20, 60, 10, 30, 50] (fun x => compare x 50) = some 5 := by decide +kernel
example : eytzingerSearchCost [40, 20, 60, 10, 30, 50] (fun x => compare x 50) = 3 := by decide +kernel

end Frozen.Props
