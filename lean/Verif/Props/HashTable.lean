import Verif.Lemmas.HashTable
import Verif.Spec

/-!
# Property theorems: bitmap, hash code analysis and hash table (C11, C12, C13, C14, C43)
-/

namespace Frozen.Props

open Frozen.Spec Frozen.Model

variable {T : Type _}

/-! ## C43 -/

/-- An operation on the bitmap. -/
inductive BitOp where
  | set (i : Nat)
  | clear

/-- Run operations on the modelled bitmap. -/
def runBits : List BitOp → BitSet → Res BitSet
  | [], b => .ok b
  | .set i :: ops, b => do
    let b ← b.set i
    runBits ops b
  | .clear :: ops, b => runBits ops b.clearAll

/-- The abstract set after the same operations. -/
def runSet : List BitOp → (Nat → Prop) → (Nat → Prop)
  | [], s => s
  | .set i :: ops, s => runSet ops (fun j => j = i ∨ s j)
  | .clear :: ops, _ => runSet ops (fun _ => False)

/-- **C43**.  Create a bitmap of any capacity (the initial words are garbage), clear it, and apply any sequence of
in-range `set` and `clear_all` operations: nothing panics, and afterwards `get(i)` says exactly whether `i` has been set
since the last clearing. -/
theorem c43_bitmap (cap : Nat) (ops : List BitOp) (hops : ∀ i, BitOp.set i ∈ ops → i < cap) :
    ∃ b, runBits ops (BitSet.withCapacity cap).clearAll = .ok b ∧
      ∀ i, i < cap → ∃ r, b.get i = .ok r ∧ (r = true ↔ runSet ops (fun _ => False) i) := by
  have main : ∀ (ops : List BitOp) (b : BitSet) (s : Nat → Prop), (∀ i, BitOp.set i ∈ ops → i < cap) → b.WF →
      b.len = cap → (∀ i, b.mem i = true ↔ s i) →
      ∃ b', runBits ops b = .ok b' ∧ ∀ i, i < cap → ∃ r, b'.get i = .ok r ∧ (r = true ↔ runSet ops s i) := by
    intro ops
    induction ops with
    | nil =>
      intro b s _ hwf hlen hmem
      refine ⟨b, rfl, fun i hi => ⟨b.mem i, BitSet.get_ok hwf (by omega), hmem i⟩⟩
    | cons op ops ih =>
      intro b s hops hwf hlen hmem
      have hrest : ∀ i, BitOp.set i ∈ ops → i < cap := fun i hi => hops i (List.mem_cons_of_mem _ hi)
      cases op with
      | set i =>
        obtain ⟨b1, h1, h2, h3, h4⟩ := BitSet.set_ok hwf (i := i) (by rw [hlen]; exact hops i List.mem_cons_self)
        obtain ⟨b', h5, h6⟩ := ih b1 (fun j => j = i ∨ s j) hrest h2 (by omega) (by
          intro j; rw [h4, Bool.or_eq_true, hmem]; simp)
        refine ⟨b', ?_, h6⟩
        simp only [runBits, h1, bind, Except.bind]
        exact h5
      | clear =>
        exact ih b.clearAll (fun _ => False) hrest (BitSet.clearAll_wf hwf) hlen (by
          intro j; rw [BitSet.clearAll_mem]; simp)
  exact main ops _ _ hops (BitSet.clearAll_wf (BitSet.withCapacity_wf cap)) rfl (by
    intro j; rw [BitSet.clearAll_mem]; simp)

/-- Without the initial clearing the claim would be false: a fresh bitmap is not empty. -/
example : (BitSet.withCapacity 100).get 64 = .ok true := by decide

example : ∃ b, runBits [.set 3, .set 70, .clear, .set 99, .set 64] (BitSet.withCapacity 100).clearAll = .ok b ∧
    b.get 99 = .ok true ∧ b.get 70 = .ok false := ⟨_, rfl, by decide, by decide⟩

/-! ## C12 -/

/-- **C12**.  For every non-empty list of hash codes the analysis returns normally; the slot count is a power of two
not larger than the documented maximum (10, 7 or 3 times the number of codes, rounded up to a power of two) and not
smaller than 95% of the number of codes; the reported collision count is the number of codes minus the number of
distinct slots they use. -/
theorem c12_hash_code_analysis [Target] (codes : List Nat) (hne : codes ≠ []) (hsz : codes.length < sizeLimit) :
    ∃ s c, analyzeHashCodes codes = .ok (s, c) ∧ (∃ k, s = 2 ^ k) ∧ 1 ≤ s ∧
      s < 2 * (codes.length * (if codes.length < 128 then 10 else if codes.length < 1000 then 7 else 3)) ∧
      19 * codes.length ≤ 20 * s ∧
      c = codes.length - ((codes.map (· % s)).toFinset).card := by
  obtain ⟨s, c, minK, maxK, h1, ⟨b, hb1, hb2, rfl, rfl⟩, h3, _, h5, _, _⟩ := analyzeHashCodes_spec codes hne hsz
  have p1 : 2 ^ b ≤ 2 ^ maxK := Nat.pow_le_pow_right (by omega) hb2
  have p2 : 2 ^ minK ≤ 2 ^ b := Nat.pow_le_pow_right (by omega) hb1
  refine ⟨_, _, h1, ⟨b, rfl⟩, Nat.one_le_two_pow, ?_, by omega, rfl⟩
  unfold growth at h5
  rw [Nat.mul_comm codes.length]
  omega

/-- **C12** (small tables are collision free when possible).  For fewer than 128 codes, a collision is reported only if
every power-of-two table size in the searched range `n <= 2^b <= 10 n` has a collision. -/
theorem c12_collision_free_when_possible [Target] (codes : List Nat) (hne : codes ≠ []) (hsz : codes.length < 128) :
    ∃ s c, analyzeHashCodes codes = .ok (s, c) ∧
      (0 < c → ∀ b, 2 * codes.length ≤ 2 ^ b → 2 ^ b ≤ 10 * codes.length →
        ((codes.map (· % 2 ^ b)).toFinset).card < codes.length) := by
  have hu := target_cases
  obtain ⟨s, c, minK, maxK, h1, _, _, h4, _, h6, h7⟩ := analyzeHashCodes_spec codes hne (by omega)
  refine ⟨s, c, h1, fun hc b hb1 hb2 => ?_⟩
  have hk1 : minK ≤ b := by
    by_contra hlt
    have : 2 ^ b ≤ 2 ^ minK := Nat.pow_le_pow_right (by omega) (by omega)
    have := h4 hsz
    omega
  have hk2 : b ≤ maxK := by
    by_contra hlt
    have hp : 2 ^ (maxK + 1) ≤ 2 ^ b := Nat.pow_le_pow_right (by omega) (by omega)
    have hg : growth codes.length = 10 := by unfold growth; rw [if_pos hsz]
    have : 0 < codes.length := List.length_pos_of_ne_nil hne
    rw [hg] at h6
    rw [Nat.pow_succ] at hp
    omega
  have := h7 hsz hc b hk1 hk2
  unfold collisions slotSet at this
  omega

attribute [local instance] w64 in
example : analyzeHashCodes [5, 13, 21, 2] = .ok (32, 0) := by decide +kernel

/-! ## C13, C11, C14 -/

/-- Insertion sort by slot: an instance of the unstable-sort contract, used in the examples. -/
def slotSort : Sorter T := fun l => l.mergeSort (fun a b => decide (a.1 ≤ b.1))

theorem slotSort_ok : SorterOk (slotSort : Sorter T) where
  perm l := List.mergeSort_perm l _
  sorted l := by
    have := List.pairwise_mergeSort (le := fun (a b : Nat × T) => decide (a.1 ≤ b.1))
      (by intro a b c h1 h2; simp only [decide_eq_true_eq] at *; omega)
      (by intro a b; simp only [Bool.or_eq_true, decide_eq_true_eq]; omega) l
    exact this.imp (by intro a b h; simpa using h)

/-- **C13**.  In a table built by the constructor, for every hash the masked index is the hash modulo the number of slots
and is in range, and the bucket inspected for the hash of any stored entry contains that entry. -/
theorem c13_mask_is_modulo [Target] {cm : Magnitude} {sort : Sorter T} (hsort : SorterOk sort) {entries : List T}
    {hash : T → Nat} (hsz : entries.length < sizeLimit) {t : HashTable T}
    (ht : HashTable.new cm sort entries hash = .ok (.ok t)) :
    (∀ h, h &&& t.mask = h % t.slots.length ∧ h &&& t.mask < t.slots.length) ∧
    (∀ e ∈ entries, ∃ s, t.slots[hash e &&& t.mask]? = some s ∧
      ∃ i, s.minIndex ≤ i ∧ i < s.maxIndex ∧ t.entries[i]? = some e) := by
  obtain ⟨h1, h2⟩ := HashTable.new_spec cm hsort entries hash hsz
  by_cases hc : entries.length ≤ cm.maxCapacity
  swap
  · rw [h2 (by omega)] at ht; cases ht
  obtain ⟨t', ht', hok, hperm, _⟩ := h1 hc
  rw [ht] at ht'
  cases ht'
  obtain ⟨k, hk1, hk2⟩ := hok.pow
  have hmask : ∀ h, h &&& t.mask = h % t.slots.length ∧ h &&& t.mask < t.slots.length := by
    intro h
    rw [hk1, hk2, Nat.and_two_pow_sub_one_eq_mod]
    exact ⟨rfl, Nat.mod_lt _ (Nat.pow_pos (by omega))⟩
  refine ⟨hmask, fun e he => ?_⟩
  obtain ⟨hm1, hm2⟩ := hmask (hash e)
  obtain ⟨b1, b2, b3⟩ := hok.bucket _ hm2
  refine ⟨_, List.getElem?_eq_getElem hm2, ?_⟩
  have hin : e ∈ t.entries.filter (fun e' => hash e' % t.slots.length == hash e &&& t.mask) := by
    rw [List.mem_filter]
    exact ⟨hperm.mem_iff.2 he, by simp [hm1]⟩
  rw [← b3] at hin
  obtain ⟨i, hi⟩ := List.mem_iff_getElem?.1 hin
  rw [List.getElem?_take, List.getElem?_drop] at hi
  split at hi
  · exact ⟨_, Nat.le_add_right _ _, by omega, hi⟩
  · cases hi

/-- **C11**.  In a table built by the constructor, `find` and `find_mut` perform no out-of-bounds access for any hash code
and predicate, and return the first stored entry (in storage order) that falls in the bucket of that hash code and
satisfies the predicate; `find_mut` designates that very entry. -/
theorem c11_find_in_bounds [Target] {cm : Magnitude} {sort : Sorter T} (hsort : SorterOk sort) {entries : List T}
    {hash : T → Nat} (hsz : entries.length < sizeLimit) {t : HashTable T}
    (ht : HashTable.new cm sort entries hash = .ok (.ok t)) (hashCode : Nat) (pred : T → Bool) :
    let hit := t.entries.find? (fun e => hash e % t.slots.length == hashCode % t.slots.length && pred e)
    t.find hashCode pred = .ok hit ∧
    ∃ place, t.findMut hashCode pred = .ok place ∧ place.bind (fun i => t.entries[i]?) = hit ∧
      (∀ i, place = some i → i < t.entries.length) := by
  obtain ⟨h1, h2⟩ := HashTable.new_spec cm hsort entries hash hsz
  by_cases hc : entries.length ≤ cm.maxCapacity
  swap
  · rw [h2 (by omega)] at ht; cases ht
  obtain ⟨t', ht', hok, hperm, _⟩ := h1 hc
  rw [ht] at ht'
  cases ht'
  have hb : (t.bucketOf hash hashCode).find? pred =
      t.entries.find? (fun e => hash e % t.slots.length == hashCode % t.slots.length && pred e) := by
    unfold HashTable.bucketOf
    rw [List.find?_filter]
    congr 1
    funext e
    rw [Bool.beq_eq_decide_eq]
    simp
  refine ⟨by rw [HashTable.find_spec hok, hb], ?_⟩
  rw [← hb]
  rcases HashTable.findMut_spec hok hashCode pred with ⟨a, b⟩ | ⟨i, e, a, b, c⟩
  · exact ⟨none, a, by rw [b]; rfl, by simp⟩
  · refine ⟨some i, a, by rw [c]; exact b, ?_⟩
    intro j hj
    cases hj
    exact (List.getElem?_eq_some_iff.1 b).1

/-- **C11** (no entry is lost).  If some input entry with the given hash satisfies the predicate, the lookup
finds an entry satisfying it; and whatever is found is an input entry. -/
theorem c11_find_complete [Target] {cm : Magnitude} {sort : Sorter T} (hsort : SorterOk sort) {entries : List T}
    {hash : T → Nat} (hsz : entries.length < sizeLimit) {t : HashTable T}
    (ht : HashTable.new cm sort entries hash = .ok (.ok t)) (hashCode : Nat) (pred : T → Bool) :
    (∀ e ∈ entries, hash e = hashCode → pred e = true → ∃ e', t.find hashCode pred = .ok (some e') ∧ pred e' = true) ∧
    (∀ e, t.find hashCode pred = .ok (some e) → e ∈ entries ∧ pred e = true) := by
  obtain ⟨h1, h2⟩ := HashTable.new_spec cm hsort entries hash hsz
  by_cases hc : entries.length ≤ cm.maxCapacity
  swap
  · rw [h2 (by omega)] at ht; cases ht
  obtain ⟨t', ht', _, hperm, _⟩ := h1 hc
  rw [ht] at ht'
  cases ht'
  have hf := (c11_find_in_bounds hsort hsz ht hashCode pred).1
  constructor
  · intro e he hh hp
    cases hs : t.entries.find? (fun e => hash e % t.slots.length == hashCode % t.slots.length && pred e) with
    | none =>
      rw [List.find?_eq_none] at hs
      exact absurd (by simp [hh, hp]) (hs e (hperm.mem_iff.2 he))
    | some e' =>
      rw [hs] at hf
      have := List.find?_some hs
      simp only [Bool.and_eq_true] at this
      exact ⟨e', hf, this.2⟩
  · intro e he
    rw [hf] at he
    simp only [Except.ok.injEq] at he
    have h3 := List.find?_some he
    simp only [Bool.and_eq_true] at h3
    exact ⟨hperm.mem_iff.1 (List.mem_of_find?_eq_some he), h3.2⟩

/-- **C14** (table level).  Construction never panics; it fails iff there are more entries than the magnitude can count; on
success every stored index is within the magnitude's integer type and the slot ranges cover exactly the stored
entries, so no index has been truncated. -/
theorem c14_magnitude [Target] {cm : Magnitude} {sort : Sorter T} (hsort : SorterOk sort) (entries : List T)
    (hash : T → Nat) (hsz : entries.length < sizeLimit) :
    ∃ r, HashTable.new cm sort entries hash = .ok r ∧
      ((∃ msg, r = .error msg) ↔ cm.maxCapacity < entries.length) ∧
      ∀ t, r = .ok t → (∀ s ∈ t.slots, s.minIndex ≤ cm.maxCapacity ∧ s.maxIndex ≤ cm.maxCapacity) ∧
        t.entries.Perm entries := by
  obtain ⟨h1, h2⟩ := HashTable.new_spec cm hsort entries hash hsz
  by_cases hc : entries.length ≤ cm.maxCapacity
  · obtain ⟨t, ht, hok, hperm, hmax⟩ := h1 hc
    refine ⟨_, ht, ⟨(by rintro ⟨msg, h⟩; cases h), (by intro; omega)⟩, ?_⟩
    intro t' h
    cases h
    refine ⟨fun s hs => ?_, hperm⟩
    have h3 := hmax s hs
    obtain ⟨i, hi, rfl⟩ := List.mem_iff_getElem.1 hs
    have h4 := (hok.bucket i hi).1
    omega
  · refine ⟨_, h2 (by omega), ⟨fun _ => by omega, fun _ => ⟨_, rfl⟩⟩, ?_⟩
    intro t h; cases h

attribute [local instance] w64 in
/-- A table with a two-entry bucket. -/
example : ∃ t, HashTable.new .small slotSort [(5, "a"), (37, "b"), (69, "c"), (101, "d"), (133, "e")] (fun e => e.1) =
      .ok (.ok t) ∧ t.find 69 (fun e => e.1 == 69) = .ok (some (69, "c")) ∧
      t.find 165 (fun e => e.1 == 165) = .ok none := by
  obtain ⟨t, ht, -⟩ := (HashTable.new_spec .small slotSort_ok [(5, "a"), (37, "b"), (69, "c"), (101, "d"), (133, "e")]
    (fun e => e.1) (by decide)).1 (by decide)
  refine ⟨t, ht, ?_, ?_⟩
  · obtain ⟨e', h1, h2⟩ := (c11_find_complete slotSort_ok (by decide) ht 69 (fun e => e.1 == 69)).1 (69, "c")
      (by decide) rfl rfl
    have h3 := ((c11_find_complete slotSort_ok (by decide) ht 69 (fun e => e.1 == 69)).2 e' h1).1
    rw [h1]
    simp only [List.mem_cons, List.not_mem_nil, or_false] at h3
    rcases h3 with rfl | rfl | rfl | rfl | rfl <;> first | rfl | (exact absurd h2 (by decide))
  · cases hf : t.find 165 (fun e => e.1 == 165) with
    | error e => have := (c11_find_in_bounds slotSort_ok (by decide) ht 165 (fun e => e.1 == 165)).1; rw [hf] at this; cases this
    | ok o =>
      cases o with
      | none => rfl
      | some e =>
        obtain ⟨h3, h2⟩ := (c11_find_complete slotSort_ok (by decide) ht 165 (fun e => e.1 == 165)).2 e hf
        simp only [List.mem_cons, List.not_mem_nil, or_false] at h3
        rcases h3 with rfl | rfl | rfl | rfl | rfl <;> exact absurd h2 (by decide)

attribute [local instance] w64 in
/-- 256 entries do not fit the small magnitude. -/
example : HashTable.new .small slotSort (List.range 256) (fun e => e) = .ok (.error tooManyEntries) :=
  (HashTable.new_spec .small slotSort_ok (List.range 256) (fun e => e) (by simp)).2 (by simp [Magnitude.maxCapacity])

end Frozen.Props
