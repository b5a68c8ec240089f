import Verif.Props.Safety

/-!
# C52: exactly which arguments of the raw constructors are safe

The raw constructors of the dense, sparse and hash inline maps are safe functions that check nothing.  Each theorem below says
which arguments make all lookups of a query type `Q` free of undefined behaviour: those for which every query that can be made
is led to a place that exists.
-/

namespace Frozen.Props

open Frozen.Spec Frozen.Model

variable {Q K V : Type}

theorem noUb_getUnchecked {α : Type} {xs : List α} {i : Nat} (h : NoUb (getUnchecked xs i)) : i < xs.length := by
  by_contra hc
  apply h "get_unchecked out of bounds"
  unfold getUnchecked
  rw [List.getElem?_eq_none (by omega)]

theorem noUb_bind_left {α β : Type} {r : Res α} {f : α → Res β} (h : NoUb (r >>= f)) : NoUb r := by
  cases r with
  | error e => intro w hw; exact h w (by rw [hw]; rfl)
  | ok x => exact NoUb.ok _

theorem ok_bind {α β : Type} (x : α) (f : α → Res β) : ((.ok x : Res α) >>= f) = f x := rfl

/-- **C52** (dense, exactly) `InlineDenseScalarLookupMap::new_raw(entries, min, max)` is safe if and only if every index between
`min` and `max` that a query can have is within the entries. -/
theorem c52_dense_iff (t : QueryTraits Q K) (sz : Nat) (es : List (K × V)) (min max : Nat) :
    MemSafe (InlineMap.impl t) ⟨sz, .dense ⟨min, max, es⟩⟩ ↔
      ∀ q, min ≤ t.index q → t.index q ≤ max → t.index q - min < es.length := by
  constructor
  · intro h q h1 h2
    have h3 : NoUb (DenseMap.get t.index ⟨min, max, es⟩ q) := h.get q
    unfold DenseMap.get at h3
    rw [if_pos ⟨h1, h2⟩] at h3
    exact noUb_getUnchecked (noUb_bind_left h3)
  · intro h
    have key : ∀ q, t.index q ≥ min ∧ t.index q ≤ max → t.index q - min < es.length := fun q h1 => h q h1.1 h1.2
    refine ⟨fun q => ?_, fun q => ?_, fun q => ?_, fun q => ?_, fun q i hi => ?_⟩
    · show NoUb (DenseMap.get t.index _ q)
      unfold DenseMap.get
      split
      · rename_i hg; rw [getUnchecked_lt (key q hg)]; exact NoUb.ok _
      · exact NoUb.ok _
    · show NoUb (DenseMap.getKeyValue t.index _ q)
      unfold DenseMap.getKeyValue
      split
      · rename_i hg; rw [getUnchecked_lt (key q hg)]; exact NoUb.ok _
      · exact NoUb.ok _
    · show NoUb (DenseMap.containsKey t.index _ q)
      unfold DenseMap.containsKey DenseMap.get
      split
      · rename_i hg; rw [getUnchecked_lt (key q hg)]; exact NoUb.ok _
      · exact NoUb.ok _
    · show NoUb (DenseMap.getMut t.index _ q)
      unfold DenseMap.getMut
      split
      · rename_i hg; rw [getUnchecked_lt (key q hg)]; exact NoUb.ok _
      · exact NoUb.ok _
    · change DenseMap.getMut t.index _ q = .ok (some i) at hi
      unfold DenseMap.getMut at hi
      split at hi
      · rename_i hg
        rw [getUnchecked_lt (key q hg)] at hi
        cases hi
        exact key q hg
      · cases hi

/-- **C52** (sparse, exactly) `InlineSparseScalarLookupMap::new_raw(entries, lookup, min, max)` is safe if and only if for every index
between `min` and `max` that a query can have there is an element of `lookup`, and it is no larger than the number of entries. -/
theorem c52_sparse_iff (t : QueryTraits Q K) (sz : Nat) (es : List (K × V)) (lookup : List Nat) (min max : Nat) :
    MemSafe (InlineMap.impl t) ⟨sz, .sparse ⟨min, max, lookup, es⟩⟩ ↔
      ∀ q, min ≤ t.index q → t.index q ≤ max → ∃ v, lookup[t.index q - min]? = some v ∧ v ≤ es.length := by
  constructor
  · intro h q h1 h2
    have h3 : NoUb (SparseMap.get t.index ⟨min, max, lookup, es⟩ q) := h.get q
    unfold SparseMap.get at h3
    rw [if_pos ⟨h1, h2⟩] at h3
    have h4 := noUb_getUnchecked (noUb_bind_left h3)
    refine ⟨_, List.getElem?_eq_getElem h4, ?_⟩
    rw [getUnchecked_lt h4] at h3
    simp only [ok_bind] at h3
    by_cases hv : lookup[t.index q - min] > 0
    · rw [if_pos hv] at h3
      have h5 := noUb_getUnchecked (noUb_bind_left h3)
      simp only at h5 ⊢
      omega
    · simp only at hv ⊢
      omega
  · intro h
    have key : ∀ q, t.index q ≥ min ∧ t.index q ≤ max →
        ∃ v, getUnchecked lookup (t.index q - min) = .ok v ∧ (v > 0 → v - 1 < es.length) := by
      intro q h1
      obtain ⟨v, h2, h3⟩ := h q h1.1 h1.2
      exact ⟨v, by unfold getUnchecked; rw [h2], fun _ => by omega⟩
    refine ⟨fun q => ?_, fun q => ?_, fun q => ?_, fun q => ?_, fun q i hi => ?_⟩
    · show NoUb (SparseMap.get t.index _ q)
      unfold SparseMap.get
      split
      · rename_i hg
        obtain ⟨v, hv, he⟩ := key q hg
        simp only [hv, Bind.bind, Except.bind]
        split
        · rename_i hp; rw [getUnchecked_lt (he hp)]; exact NoUb.ok _
        · exact NoUb.ok _
      · exact NoUb.ok _
    · show NoUb (SparseMap.getKeyValue t.index _ q)
      unfold SparseMap.getKeyValue
      split
      · rename_i hg
        obtain ⟨v, hv, he⟩ := key q hg
        simp only [hv, Bind.bind, Except.bind]
        split
        · rename_i hp; rw [getUnchecked_lt (he hp)]; exact NoUb.ok _
        · exact NoUb.ok _
      · exact NoUb.ok _
    · show NoUb (SparseMap.containsKey t.index _ q)
      unfold SparseMap.containsKey SparseMap.get
      split
      · rename_i hg
        obtain ⟨v, hv, he⟩ := key q hg
        simp only [hv, ok_bind]
        split
        · rename_i hp; rw [getUnchecked_lt (he hp)]; exact NoUb.ok _
        · exact NoUb.ok _
      · exact NoUb.ok _
    · show NoUb (SparseMap.getMut t.index _ q)
      unfold SparseMap.getMut
      split
      · rename_i hg
        obtain ⟨v, hv, he⟩ := key q hg
        simp only [hv, Bind.bind, Except.bind]
        split
        · rename_i hp; rw [getUnchecked_lt (he hp)]; exact NoUb.ok _
        · exact NoUb.ok _
      · exact NoUb.ok _
    · change SparseMap.getMut t.index _ q = .ok (some i) at hi
      unfold SparseMap.getMut at hi
      split at hi
      · rename_i hg
        obtain ⟨v, hv, he⟩ := key q hg
        simp only [hv, Bind.bind, Except.bind] at hi
        split at hi
        · rename_i hp
          rw [getUnchecked_lt (he hp)] at hi
          cases hi
          exact he hp
        · cases hi
      · cases hi

/-- **C52** (hash, exactly) `InlineHashMap` over `InlineHashTable::new_raw(slots, entries)`, with at least one slot, is safe if and only if
the slot that the hash code of a query selects denotes, for every query, a window of the entries. -/
theorem c52_hash_iff (t : QueryTraits Q K) (sz : Nat) (hasher : InlineHasher) (slots : List Slot) (es : List (K × V))
    {tab : HashTable (K × V)} (ht : HashTable.newRaw slots es = .ok tab) :
    MemSafe (InlineMap.impl t) ⟨sz, .hash hasher ⟨tab⟩⟩ ↔
      ∀ q h, hasher.hashOne t q = .ok h →
        ∃ slot, slots[h &&& (slots.length - 1)]? = some slot ∧ slot.minIndex ≤ slot.maxIndex ∧ slot.maxIndex ≤ es.length := by
  have htab : tab = ⟨slots, es, slots.length - 1⟩ := by
    unfold HashTable.newRaw csub at ht
    split at ht
    · cases ht; rfl
    · cases ht
  subst htab
  constructor
  · intro h q c hc
    have h3 : NoUb (HashMap.get (hasher.hashOne t) t.equivalent ⟨⟨slots, es, slots.length - 1⟩⟩ q) := h.get q
    unfold HashMap.get at h3
    rw [hc] at h3
    simp only [ok_bind] at h3
    have h4 := noUb_bind_left h3
    unfold HashTable.find at h4
    have h5 := noUb_getUnchecked (noUb_bind_left h4)
    refine ⟨_, List.getElem?_eq_getElem h5, ?_⟩
    simp only at h5
    rw [getUnchecked_lt h5] at h4
    simp only [ok_bind] at h4
    by_contra hcon
    unfold getUncheckedRange at h4
    rw [if_neg hcon] at h4
    exact h4 _ rfl
  · intro h
    have key : ∀ q c, hasher.hashOne t q = .ok c → ∀ eq : K × V → Bool,
        NoUb ((⟨slots, es, slots.length - 1⟩ : HashTable (K × V)).find c eq) ∧
        NoUb ((⟨slots, es, slots.length - 1⟩ : HashTable (K × V)).findMut c eq) ∧
        ∀ i, (⟨slots, es, slots.length - 1⟩ : HashTable (K × V)).findMut c eq = .ok (some i) → i < es.length := by
      intro q c hc eq
      obtain ⟨slot, h1, h2, h3⟩ := h q c hc
      -- a table with this slot alone behaves alike
      have hb : (⟨[slot], es, 0⟩ : HashTable (K × V)).Bounded :=
        ⟨Nat.zero_lt_one, fun s hs => by rw [List.mem_singleton.1 hs]; exact ⟨h2, h3⟩⟩
      have h4 := hb.findMut c eq
      unfold HashTable.find HashTable.findMut at h4 ⊢
      have e1 : getUnchecked slots (c &&& (slots.length - 1)) = .ok slot := by unfold getUnchecked; rw [h1]
      have e2 : getUnchecked [slot] (c &&& 0) = .ok slot := by rw [Nat.and_zero]; rfl
      simp only [e1, e2] at h4 ⊢
      exact h4
    refine ⟨fun q => ?_, fun q => ?_, fun q => ?_, fun q => ?_, fun q i hi => ?_⟩
    · exact NoUb.bind (hasher.hashOne_noUb t q) fun x hx => NoUb.bind (key q x hx _).1 fun _ _ => NoUb.ok _
    · exact NoUb.bind (hasher.hashOne_noUb t q) fun x hx => NoUb.bind (key q x hx _).1 fun _ _ => NoUb.ok _
    · exact NoUb.bind (NoUb.bind (hasher.hashOne_noUb t q) fun x hx => NoUb.bind (key q x hx _).1 fun _ _ => NoUb.ok _)
        fun _ _ => NoUb.ok _
    · exact NoUb.bind (hasher.hashOne_noUb t q) fun x hx => (key q x hx _).2.1
    · change HashMap.getMut (hasher.hashOne t) t.equivalent _ q = .ok (some i) at hi
      unfold HashMap.getMut at hi
      cases hx : hasher.hashOne t q with
      | error e => rw [hx] at hi; cases hi
      | ok x =>
        rw [hx] at hi
        exact (key q x hx _).2.2 i hi

/-- **C52** (hash without collisions, exactly) `InlineHashMapNoCollisions` over `InlineHashTableNoCollisions::new_raw(slots, entries)` is safe
if and only if the slot that the hash code of a query selects is, for every query, no larger than the number of entries. -/
theorem c52_hash_nc_iff (t : QueryTraits Q K) (sz : Nat) (hasher : InlineHasher) (slots : List Nat) (es : List (K × V))
    {tab : HashTableNC (K × V)} (ht : HashTableNC.newRaw slots es = .ok tab) :
    MemSafe (InlineMap.impl t) ⟨sz, .hashNC hasher ⟨tab⟩⟩ ↔
      ∀ q h, hasher.hashOne t q = .ok h → ∃ v, slots[h &&& (slots.length - 1)]? = some v ∧ v ≤ es.length := by
  have htab : tab = ⟨slots, es, slots.length - 1⟩ := by
    unfold HashTableNC.newRaw csub at ht
    split at ht
    · cases ht; rfl
    · cases ht
  subst htab
  constructor
  · intro h q c hc
    have h3 : NoUb (HashMapNC.get (hasher.hashOne t) t.equivalent ⟨⟨slots, es, slots.length - 1⟩⟩ q) := h.get q
    unfold HashMapNC.get at h3
    rw [hc] at h3
    simp only [ok_bind] at h3
    have h4 := noUb_bind_left h3
    unfold HashTableNC.find at h4
    have h5 := noUb_getUnchecked (noUb_bind_left h4)
    refine ⟨_, List.getElem?_eq_getElem h5, ?_⟩
    simp only at h5
    rw [getUnchecked_lt h5] at h4
    simp only [ok_bind] at h4
    by_cases hv : slots[c &&& (slots.length - 1)] > 0
    · rw [if_pos hv] at h4
      have h6 := noUb_getUnchecked (noUb_bind_left h4)
      simp only at h6 ⊢
      omega
    · simp only at hv ⊢
      omega
  · intro h
    have key : ∀ q c, hasher.hashOne t q = .ok c → ∀ eq : K × V → Bool,
        NoUb ((⟨slots, es, slots.length - 1⟩ : HashTableNC (K × V)).find c eq) ∧
        NoUb ((⟨slots, es, slots.length - 1⟩ : HashTableNC (K × V)).findMut c eq) ∧
        ∀ i, (⟨slots, es, slots.length - 1⟩ : HashTableNC (K × V)).findMut c eq = .ok (some i) → i < es.length := by
      intro q c hc eq
      obtain ⟨v, h1, h2⟩ := h q c hc
      have hb : (⟨[v], es, 0⟩ : HashTableNC (K × V)).Bounded :=
        ⟨Nat.zero_lt_one, fun s hs => by rw [List.mem_singleton.1 hs]; exact h2⟩
      have h4 := hb.findMut c eq
      unfold HashTableNC.find HashTableNC.findMut at h4 ⊢
      have e1 : getUnchecked slots (c &&& (slots.length - 1)) = .ok v := by unfold getUnchecked; rw [h1]
      have e2 : getUnchecked [v] (c &&& 0) = .ok v := by rw [Nat.and_zero]; rfl
      simp only [e1, e2] at h4 ⊢
      exact h4
    refine ⟨fun q => ?_, fun q => ?_, fun q => ?_, fun q => ?_, fun q i hi => ?_⟩
    · exact NoUb.bind (hasher.hashOne_noUb t q) fun x hx => NoUb.bind (key q x hx _).1 fun _ _ => NoUb.ok _
    · exact NoUb.bind (hasher.hashOne_noUb t q) fun x hx => NoUb.bind (key q x hx _).1 fun _ _ => NoUb.ok _
    · exact NoUb.bind (NoUb.bind (hasher.hashOne_noUb t q) fun x hx => NoUb.bind (key q x hx _).1 fun _ _ => NoUb.ok _)
        fun _ _ => NoUb.ok _
    · exact NoUb.bind (hasher.hashOne_noUb t q) fun x hx => (key q x hx _).2.1
    · change HashMapNC.getMut (hasher.hashOne t) t.equivalent _ q = .ok (some i) at hi
      unfold HashMapNC.getMut at hi
      cases hx : hasher.hashOne t q with
      | error e => rw [hx] at hi; cases hi
      | ok x =>
        rw [hx] at hi
        exact (key q x hx _).2.2 i hi

/-- A lookup table whose last element is out of range but beyond `max`, hence never reached: safe.  With `max` one larger it is not. -/
example (t : QueryTraits Nat Nat) (ht : t.index = id) :
    MemSafe (InlineMap.impl t) ⟨2, .sparse ⟨10, 12, [1, 0, 2, 9], [(10, 'a'), (12, 'b')]⟩⟩ ∧
    ¬ MemSafe (InlineMap.impl t) ⟨2, .sparse ⟨10, 13, [1, 0, 2, 9], [(10, 'a'), (12, 'b')]⟩⟩ := by
  rw [c52_sparse_iff, c52_sparse_iff, ht]
  constructor
  · intro q h1 h2
    simp only [id] at h1 h2
    have : q = 10 ∨ q = 11 ∨ q = 12 := by omega
    rcases this with rfl | rfl | rfl <;> exact ⟨_, rfl, by decide⟩
  · intro h
    obtain ⟨v, h1, h2⟩ := h 13 (by decide) (by decide)
    simp at h1
    subst h1
    simp at h2

/-- The hypothesis of the hash theorems. -/
example : ∃ tab, HashTable.newRaw [⟨0, 1⟩, ⟨1, 1⟩] [((0 : Nat), 'a')] = .ok tab := ⟨_, rfl⟩
example : ∃ tab, HashTableNC.newRaw [0, 1] [((0 : Nat), 'a')] = .ok tab := ⟨_, rfl⟩

/-! ## C51, exactly -/

theorem dense_safe_iff (qindex : Q → Nat) (m : DenseMap K V) :
    MemSafe (DenseMap.impl qindex) m ↔ ∀ q, m.min ≤ qindex q → qindex q ≤ m.max → qindex q - m.min < m.entries.length := by
  constructor
  · intro h q h1 h2
    have h3 : NoUb (DenseMap.get qindex m q) := h.get q
    unfold DenseMap.get at h3
    rw [if_pos ⟨h1, h2⟩] at h3
    exact noUb_getUnchecked (noUb_bind_left h3)
  · intro h
    obtain ⟨a, b, c, d, e⟩ := (c52_dense_iff (Q := Q) (K := K) (V := V)
      { equivalent := fun _ _ => true, compare := fun _ _ => .eq, index := qindex, fixedState := fun _ _ => 0, bytes := fun _ => [], fixedStateSlice := fun _ _ => 0 } 0 m.entries m.min m.max).2 h
    exact ⟨a, b, c, d, e⟩

theorem idx_first {α : Type} {l : List α} {x f : α} (h : idx l 0 = .ok x) (hf : l.head? = some f) : x = f := by
  cases l with
  | nil => cases hf
  | cons a r => cases h; cases hf; rfl

theorem idx_last [Target] {α : Type} {b : Build} {l : List α} {n : Nat} {x e : α} (hn : subM b l.length 1 = .ok n) (h : idx l n = .ok x)
    (hl : l.getLast? = some e) : x = e := by
  have hne : l ≠ [] := by rintro rfl; cases hl
  have hlen : 1 ≤ l.length := List.length_pos_iff.2 hne
  have : n = l.length - 1 := by
    have := subM_ok b hlen
    rw [this] at hn
    cases hn; rfl
  subst this
  rw [List.getLast?_eq_getElem?] at hl
  unfold idx at h
  rw [hl] at h
  cases h; rfl

/-- **C51** (dense, exactly) Let `Scalar::index` answer `first` when the constructor asks for the smallest index for the second time, and `last`
when it does so for the largest. The map is safe if and only if the indices of queries between these answers are within the entries. -/
theorem c51_dense_iff [Target] {b : Build} {i1 i2 i3 i4 : K → Nat} {es : List (K × V)} {m : DenseMap K V}
    (h : DenseMap.newSorted b i1 i2 i3 i4 es = .ok (.ok m)) {f l : K × V} (hf : es.head? = some f) (hl : es.getLast? = some l)
    (qindex : Q → Nat) :
    MemSafe (DenseMap.impl qindex) m ↔ ∀ q, i3 f.1 ≤ qindex q → qindex q ≤ i4 l.1 → qindex q - i3 f.1 < es.length := by
  have hne : es.isEmpty = false := by cases es with | nil => cases hf | cons a r => rfl
  rw [dense_safe_iff]
  unfold DenseMap.newSorted at h
  rw [hne] at h
  simp only [Bool.false_eq_true, if_false, bind, Except.bind] at h
  cases h1 : idx es 0 with
  | error e => rw [h1] at h; cases h
  | ok x =>
    cases h2 : subM b es.length 1 with
    | error e => simp only [h1, h2] at h; cases h
    | ok n =>
      cases h3 : idx es n with
      | error e => simp only [h1, h2, h3] at h; cases h
      | ok y =>
        simp only [h1, h2, h3] at h
        split at h
        · cases h
        · split at h
          · cases h
          · split at h
            · cases h
              cases idx_first h1 hf
              cases idx_last h2 h3 hl
              rfl
            · cases h

/-- **C51** (scalar maps, exactly) An `FzScalarMap` built while `Scalar::index` changes its answers is safe if and only if it is not of the dense
kind, or the answers given at the end describe a range within the entries. -/
theorem c51_fz_scalar_iff [Target] {b : Build} {sort : Sorter (K × V)} (hs : SorterOk sort) {i0 i3 i4 : K → Nat} (hi : ∀ k, i3 k ≤ usizeMax)
    {es : List (K × V)} (hn : es.length < sizeLimit) {m : FzScalarMap K V} (h : FzScalarMap.newSorted b sort i0 i3 i4 es = .ok m)
    {f l : K × V} (hf : es.head? = some f) (hl : es.getLast? = some l) (qindex : Q → Nat) (mt : Q → K → Bool) :
    MemSafe (FzScalarMap.impl qindex mt) m ↔
      ((∃ d, m = .dense d) → ∀ q, i3 f.1 ≤ qindex q → qindex q ≤ i4 l.1 → qindex q - i3 f.1 < es.length) := by
  simp only [FzScalarMap.newSorted, bind, Except.bind] at h
  cases ha : analyzeScalarKeys b (es.map (fun x => i0 x.1)) with
  | error e => rw [ha] at h; cases h
  | ok a =>
    rw [ha] at h
    cases a with
    | denseRange =>
      simp only at h
      cases h1 : idx es 0 with
      | error e => simp only [h1] at h; cases h
      | ok x =>
        cases h2 : subM b es.length 1 with
        | error e => simp only [h1, h2] at h; cases h
        | ok n =>
          cases h3 : idx es n with
          | error e => simp only [h1, h2, h3] at h; cases h
          | ok y =>
            simp only [h1, h2, h3] at h
            cases h
            cases idx_first h1 hf
            cases idx_last h2 h3 hl
            have key := dense_safe_iff qindex (⟨i3 f.1, i4 l.1, es⟩ : DenseMap K V)
            constructor
            · rintro ⟨a, b, c, d, e⟩ -
              exact key.1 ⟨a, b, c, d, e⟩
            · intro hh
              obtain ⟨a, b, c, d, e⟩ := key.2 (hh ⟨_, rfl⟩)
              exact ⟨a, b, c, d, e⟩
    | sparseRange =>
      simp only [FzScalarMap.build, bind, Except.bind] at h
      cases h1 : SparseMap.fromSortedAndDedupped b i3 es with
      | error e => rw [h1] at h; cases h
      | ok m' =>
        rw [h1] at h
        cases h
        constructor
        · rintro - ⟨d, hd⟩; cases hd
        · intro _
          exact FzScalarMap.Bounded.safe (m := .sparse m') (SparseMap.fromSorted_bounded hi h1) qindex mt
    | general =>
      simp only [FzScalarMap.build, bind, Except.bind] at h
      cases h1 : HashMap.fromDedupped .large sort (scalarHash i3) es with
      | error e => rw [h1] at h; cases h
      | ok r =>
        rw [h1] at h
        cases r with
        | error e => cases h
        | ok m' =>
          cases h
          constructor
          · rintro - ⟨d, hd⟩; cases hd
          · intro _
            exact FzScalarMap.Bounded.safe (m := .hash m') (HashMap.fromDedupped_bounded hs hn h1) qindex mt

attribute [local instance] w64 in
/-- Three keys with indices 4, 5, 6; when asked again the last one answers 7 (unsafe) or 5 (safe, though 6 is no longer found). -/
example : (∀ b, ∃ m, DenseMap.newSorted b id id id (fun k => k + 1) [(4, 'a'), (5, 'b'), (6, 'c')] = .ok (.ok m) ∧
      ¬ MemSafe (DenseMap.impl (fun q : Nat => q)) m) ∧
    ∀ b, ∃ m, DenseMap.newSorted b id id id (fun k => k - 1) [(4, 'a'), (5, 'b'), (6, 'c')] = .ok (.ok m) ∧
      MemSafe (DenseMap.impl (fun q : Nat => q)) m := by
  refine ⟨fun b => ?_, fun b => ?_⟩
  · have h : DenseMap.newSorted b id id id (fun k => k + 1) [(4, 'a'), (5, 'b'), (6, 'c')] =
        .ok (.ok ⟨4, 7, [(4, 'a'), (5, 'b'), (6, 'c')]⟩) := by cases b <;> rfl
    refine ⟨_, h, fun hs => ?_⟩
    exact absurd ((c51_dense_iff h rfl rfl (fun q : Nat => q)).1 hs 7 (by decide) (by decide)) (by decide)
  · have h : DenseMap.newSorted b id id id (fun k => k - 1) [(4, 'a'), (5, 'b'), (6, 'c')] =
        .ok (.ok ⟨4, 5, [(4, 'a'), (5, 'b'), (6, 'c')]⟩) := by cases b <;> rfl
    refine ⟨_, h, (c51_dense_iff h rfl rfl (fun q : Nat => q)).2 fun q h1 h2 => ?_⟩
    have h1' : 4 ≤ q := h1
    have h2' : q ≤ 5 := h2
    show q - 4 < 3
    omega

end Frozen.Props
