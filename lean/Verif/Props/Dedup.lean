import Verif.Lemmas.Dedup
import Verif.Lemmas.KeepLast

/-!
# Property theorems: deduplication (C07, C08)
-/

namespace Frozen.Props

open Frozen.Spec Frozen.Model

variable {T : Type _}

/-- Hash-based lookup that scans the stored pairs in order: an instance of the `hashbrown` contract, used in the
examples. -/
def listFind : HbFind := fun _ tbl h p => (tbl.find? (fun e => e.1 == h && p e.2)).map Prod.snd

theorem listFind_ok : HbFindOk listFind where
  hit := by
    intro _ tbl h p v hv
    simp only [listFind, Option.map_eq_some_iff] at hv
    obtain ⟨e, he, rfl⟩ := hv
    have h1 := List.find?_some he
    have h2 := List.mem_of_find?_eq_some he
    simp only [Bool.and_eq_true] at h1
    exact ⟨⟨e.1, h2⟩, h1.2⟩
  miss := by
    intro _ tbl h p hv v hm
    simp only [listFind, Option.map_eq_none_iff, List.find?_eq_none] at hv
    have := hv (h, v) hm
    simpa using this

/-- **C07** (equality-based).  `using_eq` returns the last occurrence of every element, in input order; `cmp` need not
satisfy any law. -/
theorem c07_using_eq (entries : List T) (eq : T → T → Bool) :
    usingEq entries eq = keepLast eq entries :=
  usingEq_eq_keepLast entries eq

/-- **C07** (hash-based).  `using_hash` does not panic and returns the last occurrence of every element, in
input order, for every `hashbrown` behaviour allowed by its contract and every hash function consistent with
equality. -/
theorem c07_using_hash {find : HbFind} (hfind : HbFindOk find) {hasher : T → Nat} {eq : T → T → Bool}
    (heq : LawfulEq' eq) (hhash : ∀ a b, eq a b = true → hasher a = hasher b) (entries : List T) :
    usingHash find entries hasher eq = .ok (keepLast eq entries) :=
  usingHash_eq_keepLast hfind heq hhash entries

/-- **C07** (comparison-based).  `using_cmp` and `SortedAndDeduppedVec::new` return the same survivors in strictly
ascending order. -/
theorem c07_using_cmp {cmp : T → T → Ordering} (hcmp : LawfulCmp cmp) (entries : List T) :
    usingCmp entries cmp = sortedAndDedupped entries cmp ∧
    (usingCmp entries cmp).Perm (keepLast (fun a b => cmp a b == .eq) entries) ∧
    (usingCmp entries cmp).Pairwise (fun a b => cmp a b = .lt) :=
  ⟨rfl, sortedAndDedupped_perm hcmp entries, sortedAndDedupped_strict hcmp entries⟩

/-- **C07** (agreement).  When the equality and the order agree, all three strategies keep the same elements. -/
theorem c07_agree {find : HbFind} (hfind : HbFindOk find) {hasher : T → Nat} {eq : T → T → Bool}
    {cmp : T → T → Ordering} (heq : LawfulEq' eq) (hhash : ∀ a b, eq a b = true → hasher a = hasher b)
    (hcmp : LawfulCmp cmp) (hagree : ∀ a b, eq a b = (cmp a b == .eq)) (entries : List T) :
    usingHash find entries hasher eq = .ok (usingEq entries eq) ∧
    (usingCmp entries cmp).Perm (usingEq entries eq) := by
  have e : eq = fun a b => cmp a b == .eq := funext fun a => funext fun b => hagree a b
  refine ⟨by rw [usingHash_eq_keepLast hfind heq hhash, usingEq_eq_keepLast], ?_⟩
  rw [usingEq_eq_keepLast, e]
  exact sortedAndDedupped_perm hcmp entries

/-- **C07** (meaning of keep-last).  `keepLast` is characterised without recursion: position `i` of the input survives
iff no later position holds an equal element, the survivors are pairwise distinct and every input element equals
a survivor. -/
theorem c07_keepLast_meaning {eq : T → T → Bool} (heq : LawfulEq' eq) (entries : List T) :
    (usingEq entries eq).Sublist entries ∧ Distinct eq (usingEq entries eq) ∧
    (∀ x ∈ entries, ∃ y ∈ usingEq entries eq, eq x y = true) ∧
    (∀ x, (usingEq entries eq).filter (eq x) = ((entries.filter (eq x)).getLast?).toList) := by
  rw [usingEq_eq_keepLast]
  exact ⟨keepLast_sublist _ _, keepLast_distinct _, fun x hx => exists_mem_keepLast heq hx,
    fun x => filter_keepLast (heq.isClass x) entries⟩

/-- Order on entries by first component. -/
def cmpFst (a b : Nat × String) : Ordering := compare a.1 b.1

theorem cmpFst_lawful : LawfulCmp cmpFst where
  refl a := by simp [cmpFst]
  swap a b := by simp [cmpFst, ← Nat.compare_swap a.1 b.1]
  trans a b c h1 h2 := by
    simp only [cmpFst, ne_eq, Nat.compare_eq_gt] at *
    omega

/-- Equality of entries by first component. -/
def eqFst (a b : Nat × String) : Bool := a.1 == b.1

theorem eqFst_lawful : LawfulEq' eqFst where
  refl a := by simp [eqFst]
  symm a b h := by simp only [eqFst, beq_iff_eq] at *; omega
  trans a b c h1 h2 := by simp only [eqFst, beq_iff_eq] at *; omega

example : usingEq [(1, "a"), (2, "b"), (1, "c"), (3, "d"), (2, "e")] eqFst = [(1, "c"), (3, "d"), (2, "e")] := by
  decide

/-- Hypotheses of `c07_using_hash` and `c07_agree` at a colliding hash function. -/
example : usingHash listFind [(1, "a"), (2, "b"), (1, "c"), (3, "d"), (2, "e")] (fun e => e.1 % 2) eqFst =
    .ok [(1, "c"), (3, "d"), (2, "e")] :=
  (c07_using_hash listFind_ok eqFst_lawful (by intro a b h; simp only [eqFst, beq_iff_eq] at h; simp [h]) _).trans
    (by decide)

example : (usingCmp [(2, "b"), (1, "a"), (2, "c"), (3, "d"), (1, "e")] cmpFst).Perm
    [(2, "c"), (3, "d"), (1, "e")] :=
  (c07_using_cmp cmpFst_lawful _).2.1

/-- **C08**.  `has_duplicates` never panics and is true iff two different positions hold equal elements. -/
theorem c08_has_duplicates (eq : T → T → Bool) (values : List T) :
    ∃ b, hasDuplicates eq values = .ok b ∧
      (b = true ↔ ∃ j k, ∃ (hj : j < values.length) (hk : k < values.length), j < k ∧ eq values[j] values[k] = true) := by
  obtain ⟨b, h1, h2⟩ := hasDupLoop_spec eq values values.length 0 (by omega)
  refine ⟨b, h1, h2.trans ?_⟩
  constructor
  · rintro ⟨k, j, a, c, hjk, _, ha, hc, he⟩
    obtain ⟨hj, rfl⟩ := List.getElem?_eq_some_iff.1 ha
    obtain ⟨hk, rfl⟩ := List.getElem?_eq_some_iff.1 hc
    exact ⟨j, k, hj, hk, hjk, he⟩
  · rintro ⟨j, k, hj, hk, hjk, he⟩
    exact ⟨k, j, _, _, hjk, Nat.zero_le _, List.getElem?_eq_getElem hj, List.getElem?_eq_getElem hk, he⟩

/-- **C08** (in terms of distinctness). -/
theorem c08_no_duplicates_iff_distinct (eq : T → T → Bool) (values : List T) :
    hasDuplicates eq values = .ok false ↔ Distinct eq values := by
  obtain ⟨b, h1, h2⟩ := c08_has_duplicates eq values
  rw [h1, Distinct, List.pairwise_iff_getElem]
  constructor
  · intro h j k hj hk hjk
    cases h
    by_contra hc
    have := h2.2 ⟨j, k, hj, hk, hjk, by simpa using hc⟩
    cases this
  · intro h
    cases hb : b with
    | false => rfl
    | true =>
      obtain ⟨j, k, hj, hk, hjk, he⟩ := h2.1 hb
      rw [h j k hj hk hjk] at he; cases he

example : hasDuplicates (fun (a b : Nat) => a == b) [3, 1, 4, 1, 5] = .ok true := by decide
example : Distinct (fun (a b : Nat) => a == b) [3, 1, 4, 2, 5] := by
  rw [← c08_no_duplicates_iff_distinct]; decide

end Frozen.Props
