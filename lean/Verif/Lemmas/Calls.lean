import Verif.Props.CallSpec
import Verif.Props.HashTable
import Verif.Lemmas.FzMaps
import Verif.Lemmas.InlineMaps

/-!
# Lemmas on the calls made by lookups
-/

namespace Frozen.Model

open Frozen.Props Frozen.Spec

variable {T Q K V : Type}

/-! ## Scan -/

theorem scanLoopT_fst (eqv : Q → K → Bool) (key : Q) (l : List (K × V)) (i : Nat) (r : Option Nat) :
    (scanLoopT eqv key l i r).1 = scanMutLoop eqv key l i r := by
  induction l generalizing i r with
  | nil => rfl
  | cons e l ih => simp only [scanLoopT, scanMutLoop]; exact ih _ _

theorem scanLoopT_calls (eqv : Q → K → Bool) (key : Q) (l : List (K × V)) (i : Nat) (r : Option Nat) :
    (scanLoopT eqv key l i r).2 = l.map (fun e => .equivalent e.1) := by
  induction l generalizing i r with
  | nil => rfl
  | cons e l ih => simp only [scanLoopT, List.map_cons]; rw [ih]

theorem scanMutLoop_fold {β : Type} (eqv : Q → K → Bool) (key : Q) (g : K × V → β) (all : List (K × V)) :
    ∀ (l : List (K × V)) (i : Nat) (r : Option Nat) (acc : Option β), all.drop i = l →
      (∀ p, r = some p → p < all.length) → acc = r.bind (fun p => all[p]?.map g) →
      (∀ p, scanMutLoop eqv key l i r = some p → p < all.length) ∧
      l.foldl (fun result entry => if eqv key entry.1 then some (g entry) else result) acc =
        (scanMutLoop eqv key l i r).bind (fun p => all[p]?.map g)
  | [], i, r, acc, _, hr, ha => ⟨hr, ha⟩
  | e :: l, i, r, acc, hd, hr, ha => by
    have hi : all[i]? = some e := by
      have := congrArg (fun l : List (K × V) => l[0]?) hd
      simpa [List.getElem?_drop] using this
    have hlt : i < all.length := (List.getElem?_eq_some_iff.1 hi).1
    simp only [scanMutLoop, List.foldl_cons]
    apply scanMutLoop_fold eqv key g all l (i + 1)
    · rw [← List.drop_drop, hd]; rfl
    · intro p hp
      by_cases hm : eqv key e.1 = true
      · rw [if_pos hm] at hp
        cases hp; exact hlt
      · rw [if_neg hm] at hp
        exact hr p hp
    · by_cases hm : eqv key e.1 = true
      · rw [if_pos hm, if_pos hm]; simp [hi]
      · rw [if_neg hm, if_neg hm]; exact ha

theorem entryAt_some {es : List (K × V)} {i : Nat} {e : K × V} (h : es[i]? = some e) :
    entryAt es (some i) = .ok (some e) := by
  simp [entryAt, getUnchecked_ok h, Except.map]

theorem ScanMap.searchOf (eqv : Q → K → Bool) (m : ScanMap K V) (q : Q) :
    SearchOf (ScanMap.impl eqv) m q (m.searchT eqv q) := by
  have key : ∀ {β : Type} (g : K × V → β),
      m.entries.foldl (fun result entry => if eqv q entry.1 then some (g entry) else result) none =
        (scanMutLoop eqv q m.entries 0 none).bind (fun p => m.entries[p]?.map g) ∧
      (∀ p, scanMutLoop eqv q m.entries 0 none = some p → p < m.entries.length) := by
    intro β g
    have := scanMutLoop_fold eqv q g m.entries m.entries 0 none none (by simp) (by simp) rfl
    exact ⟨this.2, this.1⟩
  have hs : m.searchT eqv q = .ok (scanLoopT eqv q m.entries 0 none) := rfl
  have hfind : entryAt m.entries (scanMutLoop eqv q m.entries 0 none) =
      .ok ((scanMutLoop eqv q m.entries 0 none).bind (fun p => m.entries[p]?)) := by
    generalize hr : scanMutLoop eqv q m.entries 0 none = r at *
    cases r with
    | none => rfl
    | some p =>
      have hp := (key (fun e => e)).2 p rfl
      rw [entryAt_some (List.getElem?_eq_getElem hp)]
      simp [List.getElem?_eq_getElem hp]
  have hget : m.get eqv q = .ok (((scanMutLoop eqv q m.entries 0 none).bind (fun p => m.entries[p]?)).map Prod.snd) := by
    unfold ScanMap.get
    rw [(key (fun e => e.2)).1]
    generalize scanMutLoop eqv q m.entries 0 none = r
    cases r <;> rfl
  constructor
  · show ScanMap.getMut eqv m q = _
    rw [hs]
    simp only [Except.map, ScanMap.getMut, scanLoopT_fst]
  · show ScanMap.getKeyValue eqv m q = _
    rw [hs]
    simp only [Except.bind, scanLoopT_fst, ScanMap.impl]
    rw [hfind]
    unfold ScanMap.getKeyValue
    rw [(key (fun e => (e.1, e.2))).1]
    generalize scanMutLoop eqv q m.entries 0 none = r
    cases r with
    | none => rfl
    | some p => simp
  · show ScanMap.get eqv m q = _
    rw [hs, hget]
    simp only [Except.bind, scanLoopT_fst, ScanMap.impl, hfind, Except.map]
  · show ScanMap.containsKey eqv m q = _
    unfold ScanMap.containsKey
    rw [hs, hget]
    simp only [bind, Except.bind, scanLoopT_fst, ScanMap.impl, hfind, Except.map, Option.isSome_map]

/-! ## Eytzinger -/

theorem searchLoopT_fst (data : List T) (f : T → Ordering) (i steps : Nat) :
    (searchLoopT data f i).1 = (searchLoop data f i steps).1 ∧
    (searchLoopT data f i).2.length + steps = (searchLoop data f i steps).2 := by
  fun_induction searchLoop data f i steps with
  | case1 i steps hi order he =>
    unfold searchLoopT
    rw [dif_pos hi]
    simp only [order] at he
    simp only [he, if_true]
    simp
    omega
  | case2 i steps hi order he ih =>
    unfold searchLoopT
    rw [dif_pos hi]
    simp only [order] at he
    simp only [he]
    simp only [order] at ih
    refine ⟨ih.1, ?_⟩
    rw [← ih.2]
    simp
    omega
  | case3 i steps hi =>
    unfold searchLoopT
    rw [dif_neg hi]
    simp

theorem searchLoopT_sublist (data : List T) (f : T → Ordering) (i : Nat) :
    (searchLoopT data f i).2.Sublist (data.drop i) := by
  fun_induction searchLoopT data f i with
  | case1 i hi order he =>
    rw [List.drop_eq_getElem_cons hi]
    exact (List.nil_sublist _).cons_cons _
  | case2 i hi order he r ih =>
    rw [List.drop_eq_getElem_cons hi]
    refine List.Sublist.cons_cons _ (ih.trans ?_)
    have h1 : 2 * i + 1 + orderBit order = (i + 1) + (i + orderBit order) := by omega
    rw [h1, ← List.drop_drop]
    exact List.drop_sublist _ _
  | case3 i hi => simp

theorem searchLoopT_stop (data : List T) (f : T → Ordering) (i : Nat) :
    ∀ x ∈ (searchLoopT data f i).2.dropLast, f x ≠ .eq := by
  fun_induction searchLoopT data f i with
  | case1 i hi order he => simp
  | case2 i hi order he r ih =>
    intro x hx
    have hf : f data[i] ≠ .eq := by simpa [order] using he
    by_cases hr : r.2 = []
    · rw [hr] at hx; simp at hx
    · rw [List.dropLast_cons_of_ne_nil hr] at hx
      rcases List.mem_cons.1 hx with rfl | hx
      · exact hf
      · exact ih x hx
  | case3 i hi => simp

theorem eytzingerSearchBy_eq (data : List T) (f : T → Ordering) :
    eytzingerSearchBy data f = (searchLoopT data f 0).1 := (searchLoopT_fst data f 0 0).1.symm

theorem eytzinger_hit {data : List T} {f : T → Ordering} {i : Nat} (h : (searchLoopT data f 0).1 = some i) :
    ∃ x, data[i]? = some x := by
  rw [(searchLoopT_fst data f 0 0).1] at h
  obtain ⟨x, hx, _⟩ := searchLoop_some (i := 0) (steps := 0) (Prod.ext h rfl)
  exact ⟨x, hx⟩

theorem EytzingerMap.searchOf (qcmp : Q → K → Ordering) (m : EytzingerMap K V) (q : Q) :
    SearchOf (EytzingerMap.impl qcmp) m q (m.searchT qcmp q) := by
  have hs : m.searchT qcmp q = .ok ((searchLoopT m.entries (fun entry => (qcmp q entry.1).swap) 0).1,
    (searchLoopT m.entries (fun entry => (qcmp q entry.1).swap) 0).2.map (fun e => .compare e.1)) := rfl
  have hg : m.get qcmp q = .ok (((searchLoopT m.entries (fun entry => (qcmp q entry.1).swap) 0).1.bind
      (fun p => m.entries[p]?)).map Prod.snd) ∧
    m.getKeyValue qcmp q = .ok ((searchLoopT m.entries (fun entry => (qcmp q entry.1).swap) 0).1.bind
      (fun p => m.entries[p]?)) ∧
    m.getMut qcmp q = .ok (searchLoopT m.entries (fun entry => (qcmp q entry.1).swap) 0).1 ∧
    entryAt m.entries (searchLoopT m.entries (fun entry => (qcmp q entry.1).swap) 0).1 =
      .ok ((searchLoopT m.entries (fun entry => (qcmp q entry.1).swap) 0).1.bind (fun p => m.entries[p]?)) := by
    unfold EytzingerMap.get EytzingerMap.getKeyValue EytzingerMap.getMut
    rw [eytzingerSearchBy_eq]
    have := @eytzinger_hit _ m.entries (fun entry => (qcmp q entry.1).swap)
    generalize (searchLoopT m.entries (fun entry => (qcmp q entry.1).swap) 0).1 = r at *
    cases r with
    | none => exact ⟨rfl, rfl, rfl, rfl⟩
    | some i =>
      obtain ⟨x, hx⟩ := this rfl
      rw [entryAt_some hx]
      simp only [getUnchecked_ok hx, bind, Except.bind, Option.bind, hx, Option.map]
      exact ⟨trivial, trivial, trivial, trivial⟩
  obtain ⟨g1, g2, g3, g4⟩ := hg
  constructor
  · show EytzingerMap.getMut qcmp m q = _
    rw [hs, g3]; rfl
  · show EytzingerMap.getKeyValue qcmp m q = _
    rw [hs, g2]; exact g4.symm
  · show EytzingerMap.get qcmp m q = _
    rw [hs, g1]
    simp only [Except.bind, EytzingerMap.impl, g4, Except.map]
  · show EytzingerMap.containsKey qcmp m q = _
    unfold EytzingerMap.containsKey
    rw [hs, g1]
    simp only [bind, Except.bind, EytzingerMap.impl, g4, Except.map, Option.isSome_map]

/-! ## Dense and sparse -/

theorem DenseMap.searchOf (qindex : Q → Nat) (m : DenseMap K V) (q : Q) :
    SearchOf (DenseMap.impl qindex) m q (m.searchT qindex q) := by
  unfold DenseMap.searchT
  constructor
  · show DenseMap.getMut qindex m q = _
    unfold DenseMap.getMut
    split
    · cases h : getUnchecked m.entries (qindex q - m.min) <;> rfl
    · rfl
  · show DenseMap.getKeyValue qindex m q = _
    unfold DenseMap.getKeyValue
    split
    · cases h : getUnchecked m.entries (qindex q - m.min) <;>
        simp [bind, Except.bind, entryAt, DenseMap.impl, h, Except.map]
    · rfl
  · show DenseMap.get qindex m q = _
    unfold DenseMap.get
    split
    · cases h : getUnchecked m.entries (qindex q - m.min) <;>
        simp [bind, Except.bind, entryAt, DenseMap.impl, h, Except.map]
    · rfl
  · show DenseMap.containsKey qindex m q = _
    unfold DenseMap.containsKey DenseMap.get
    split
    · cases h : getUnchecked m.entries (qindex q - m.min) <;>
        simp [bind, Except.bind, entryAt, DenseMap.impl, h, Except.map]
    · rfl

theorem SparseMap.searchOf (qindex : Q → Nat) (m : SparseMap K V) (q : Q) :
    SearchOf (SparseMap.impl qindex) m q (m.searchT qindex q) := by
  unfold SparseMap.searchT
  constructor
  · show SparseMap.getMut qindex m q = _
    unfold SparseMap.getMut
    split
    · cases h : getUnchecked m.lookup (qindex q - m.min) with
      | error e => rfl
      | ok v =>
        simp only [bind, Except.bind]
        split
        · cases h2 : getUnchecked m.entries (v - 1) <;> rfl
        · rfl
    · rfl
  · show SparseMap.getKeyValue qindex m q = _
    unfold SparseMap.getKeyValue
    split
    · cases h : getUnchecked m.lookup (qindex q - m.min) with
      | error e => rfl
      | ok v =>
        simp only [bind, Except.bind]
        split
        · cases h2 : getUnchecked m.entries (v - 1) <;>
            simp [entryAt, SparseMap.impl, h2, Except.map]
        · rfl
    · rfl
  · show SparseMap.get qindex m q = _
    unfold SparseMap.get
    split
    · cases h : getUnchecked m.lookup (qindex q - m.min) with
      | error e => rfl
      | ok v =>
        simp only [bind, Except.bind]
        split
        · cases h2 : getUnchecked m.entries (v - 1) <;>
            simp [entryAt, SparseMap.impl, h2, Except.map]
        · rfl
    · rfl
  · show SparseMap.containsKey qindex m q = _
    unfold SparseMap.containsKey SparseMap.get
    split
    · cases h : getUnchecked m.lookup (qindex q - m.min) with
      | error e => rfl
      | ok v =>
        simp only [bind, Except.bind]
        by_cases hv : v > 0
        · simp only [if_pos hv]
          cases h2 : getUnchecked m.entries (v - 1) <;>
            simp [entryAt, SparseMap.impl, h2, Except.map]
        · simp only [if_neg hv]; rfl
    · rfl

/-! ## Hash tables -/

theorem scanBucketT_fst (eq : T → Bool) (bucket : List T) (n ptr : Nat) :
    (scanBucketT eq bucket n ptr).map (fun r => r.1) = scanBucket eq bucket n ptr := by
  induction n generalizing ptr with
  | zero => rfl
  | succ n ih =>
    unfold scanBucketT scanBucket
    cases h : getUnchecked bucket ptr with
    | error e => rfl
    | ok e =>
      simp only [bind, Except.bind]
      split
      · rfl
      · rw [← ih]
        cases scanBucketT eq bucket n (ptr + 1) <;> rfl

/-- The elements a search for the first match looks at. -/
def untilMatch (p : T → Bool) : List T → List T
  | [] => []
  | x :: xs => if p x then [x] else x :: untilMatch p xs

theorem scanBucketT_calls (eq : T → Bool) (bucket : List T) (n ptr : Nat) (h : ptr + n = bucket.length) :
    ∃ r, scanBucketT eq bucket n ptr = .ok (r, untilMatch eq (bucket.drop ptr)) := by
  induction n generalizing ptr with
  | zero =>
    have : bucket.drop ptr = [] := List.drop_eq_nil_iff.2 (by omega)
    exact ⟨none, by rw [this]; rfl⟩
  | succ n ih =>
    have hp : ptr < bucket.length := by omega
    unfold scanBucketT getUnchecked
    rw [List.getElem?_eq_getElem hp, List.drop_eq_getElem_cons hp]
    simp only [bind, Except.bind, untilMatch]
    obtain ⟨r, hr⟩ := ih (ptr + 1) (by omega)
    split
    · exact ⟨_, rfl⟩
    · rw [hr]; exact ⟨_, rfl⟩

theorem scanBucketT_length {eq : T → Bool} {bucket : List T} {n ptr : Nat} {r : Option Nat × List T}
    (h : scanBucketT eq bucket n ptr = .ok r) : r.2.length ≤ n := by
  induction n generalizing ptr r with
  | zero => cases h; simp
  | succ n ih =>
    unfold scanBucketT at h
    cases hg : getUnchecked bucket ptr with
    | error e => rw [hg] at h; cases h
    | ok e =>
      rw [hg] at h
      simp only [bind, Except.bind] at h
      split at h
      · cases h; simp
      · cases hs : scanBucketT eq bucket n (ptr + 1) with
        | error e => rw [hs] at h; cases h
        | ok r' =>
          rw [hs] at h
          cases h
          have := ih hs
          simp; omega

theorem scanBucket_lt {eq : T → Bool} {bucket : List T} {n ptr : Nat} {i : Nat}
    (h : scanBucket eq bucket n ptr = .ok (some i)) : ∃ e, bucket[i]? = some e := by
  induction n generalizing ptr with
  | zero => cases h
  | succ n ih =>
    unfold scanBucket at h
    cases hg : getUnchecked bucket ptr with
    | error e => rw [hg] at h; cases h
    | ok e =>
      rw [hg] at h
      simp only [bind, Except.bind] at h
      split at h
      · cases h
        unfold getUnchecked at hg
        cases hb : bucket[i]? with
        | none => rw [hb] at hg; cases hg
        | some x => exact ⟨x, rfl⟩
      · exact ih h

theorem getUncheckedRange_get {es bucket : List T} {lo hi i : Nat} {e : T}
    (h : getUncheckedRange es lo hi = .ok bucket) (hi' : bucket[i]? = some e) : es[lo + i]? = some e := by
  unfold getUncheckedRange at h
  split at h
  · cases h
    rw [List.getElem?_take] at hi'
    split at hi'
    · rwa [List.getElem?_drop] at hi'
    · cases hi'
  · cases h

theorem HashTable.searchT_find (t : HashTable T) (hashCode : Nat) (eq : T → Bool) :
    t.findMut hashCode eq = (t.searchT hashCode eq).map (fun r => r.1) ∧
    t.find hashCode eq = (t.searchT hashCode eq).bind (fun r =>
      r.1.elim (.ok none) (fun i => (getUnchecked t.entries i).map some)) := by
  unfold HashTable.findMut HashTable.find HashTable.searchT
  cases h1 : getUnchecked t.slots (hashCode &&& t.mask) with
  | error e => exact ⟨rfl, rfl⟩
  | ok slot =>
    simp only [bind, Except.bind]
    cases h2 : getUncheckedRange t.entries slot.minIndex slot.maxIndex with
    | error e => exact ⟨rfl, rfl⟩
    | ok bucket =>
      simp only
      have h3 := scanBucketT_fst eq bucket (slot.maxIndex - slot.minIndex) 0
      cases h4 : scanBucketT eq bucket (slot.maxIndex - slot.minIndex) 0 with
      | error e =>
        rw [h4] at h3
        simp only [Except.map] at h3
        rw [← h3]
        exact ⟨rfl, rfl⟩
      | ok r =>
        rw [h4] at h3
        simp only [Except.map] at h3
        rw [← h3]
        obtain ⟨r1, r2⟩ := r
        cases r1 with
        | none => exact ⟨rfl, rfl⟩
        | some i =>
          obtain ⟨e, he⟩ := scanBucket_lt h3.symm
          have := getUncheckedRange_get h2 he
          simp only [Except.map, Option.map, Option.elim, getUnchecked_ok he, getUnchecked_ok this]
          exact ⟨trivial, trivial⟩

/-- A hasher with calls computes what the hasher without computes. -/
def HasherOf (hQ : Q → Res Nat) (hT : Q → Res (Nat × List (Call K))) : Prop := ∀ q, hQ q = (hT q).map (fun r => r.1)

theorem HashMap.searchOf {hQ : Q → Res Nat} {hT : Q → Res (Nat × List (Call K))} (hh : HasherOf hQ hT)
    (eqv : Q → K → Bool) (m : HashMap K V) (q : Q) :
    SearchOf (HashMap.impl hQ eqv) m q (m.searchT hT eqv q) := by
  unfold HashMap.searchT
  have h0 := hh q
  cases h1 : hT q with
  | error e =>
    rw [h1] at h0
    simp only [Except.map] at h0
    constructor
    · show HashMap.getMut hQ eqv m q = _
      unfold HashMap.getMut; rw [h0]; rfl
    · show HashMap.getKeyValue hQ eqv m q = _
      unfold HashMap.getKeyValue; rw [h0]; rfl
    · show HashMap.get hQ eqv m q = _
      unfold HashMap.get; rw [h0]; rfl
    · show HashMap.containsKey hQ eqv m q = _
      unfold HashMap.containsKey HashMap.get; rw [h0]; rfl
  | ok h =>
    rw [h1] at h0
    simp only [Except.map] at h0
    obtain ⟨g1, g2⟩ := HashTable.searchT_find m.table h.1 (fun entry => eqv q entry.1)
    simp only [bind, Except.bind]
    constructor
    · show HashMap.getMut hQ eqv m q = _
      unfold HashMap.getMut; rw [h0]
      simp only [bind, Except.bind]
      rw [g1]
      cases m.table.searchT h.1 (fun entry => eqv q entry.1) <;> rfl
    · show HashMap.getKeyValue hQ eqv m q = _
      unfold HashMap.getKeyValue; rw [h0]
      simp only [bind, Except.bind]
      rw [g2]
      cases m.table.searchT h.1 (fun entry => eqv q entry.1) with
      | error e => rfl
      | ok r =>
        simp only [Except.bind, HashMap.impl]
        cases r.1 with
        | none => rfl
        | some i =>
          simp only [Option.elim, entryAt]
          cases getUnchecked m.table.entries i <;> rfl
    · show HashMap.get hQ eqv m q = _
      unfold HashMap.get; rw [h0]
      simp only [bind, Except.bind]
      rw [g2]
      cases m.table.searchT h.1 (fun entry => eqv q entry.1) with
      | error e => rfl
      | ok r =>
        simp only [Except.bind, HashMap.impl]
        cases r.1 with
        | none => rfl
        | some i =>
          simp only [Option.elim, entryAt]
          cases getUnchecked m.table.entries i <;> rfl
    · show HashMap.containsKey hQ eqv m q = _
      unfold HashMap.containsKey HashMap.get; rw [h0]
      simp only [bind, Except.bind]
      rw [g2]
      cases m.table.searchT h.1 (fun entry => eqv q entry.1) with
      | error e => rfl
      | ok r =>
        simp only [Except.bind, HashMap.impl]
        cases r.1 with
        | none => rfl
        | some i =>
          simp only [Option.elim, entryAt]
          cases getUnchecked m.table.entries i <;> rfl

theorem HashTableNC.searchT_find (t : HashTableNC T) (hashCode : Nat) (eq : T → Bool) :
    t.findMut hashCode eq = (t.searchT hashCode eq).map (fun r => r.1) ∧
    t.find hashCode eq = (t.searchT hashCode eq).bind (fun r =>
      r.1.elim (.ok none) (fun i => (getUnchecked t.entries i).map some)) := by
  unfold HashTableNC.findMut HashTableNC.find HashTableNC.searchT
  cases h1 : getUnchecked t.slots (hashCode &&& t.mask) with
  | error e => exact ⟨rfl, rfl⟩
  | ok v =>
    simp only [bind, Except.bind]
    split
    · cases h2 : getUnchecked t.entries (v - 1) with
      | error e => exact ⟨rfl, rfl⟩
      | ok e =>
        simp only
        split
        · simp [Except.map, h2]
        · exact ⟨rfl, rfl⟩
    · exact ⟨rfl, rfl⟩

theorem HashMapNC.searchOf {hQ : Q → Res Nat} {hT : Q → Res (Nat × List (Call K))} (hh : HasherOf hQ hT)
    (eqv : Q → K → Bool) (m : HashMapNC K V) (q : Q) :
    SearchOf (HashMapNC.impl hQ eqv) m q (m.searchT hT eqv q) := by
  unfold HashMapNC.searchT
  have h0 := hh q
  cases h1 : hT q with
  | error e =>
    rw [h1] at h0
    simp only [Except.map] at h0
    constructor
    · show HashMapNC.getMut hQ eqv m q = _
      unfold HashMapNC.getMut; rw [h0]; rfl
    · show HashMapNC.getKeyValue hQ eqv m q = _
      unfold HashMapNC.getKeyValue; rw [h0]; rfl
    · show HashMapNC.get hQ eqv m q = _
      unfold HashMapNC.get; rw [h0]; rfl
    · show HashMapNC.containsKey hQ eqv m q = _
      unfold HashMapNC.containsKey HashMapNC.get; rw [h0]; rfl
  | ok h =>
    rw [h1] at h0
    simp only [Except.map] at h0
    obtain ⟨g1, g2⟩ := HashTableNC.searchT_find m.table h.1 (fun entry => eqv q entry.1)
    simp only [bind, Except.bind]
    constructor
    · show HashMapNC.getMut hQ eqv m q = _
      unfold HashMapNC.getMut; rw [h0]
      simp only [bind, Except.bind]
      rw [g1]
      cases m.table.searchT h.1 (fun entry => eqv q entry.1) <;> rfl
    · show HashMapNC.getKeyValue hQ eqv m q = _
      unfold HashMapNC.getKeyValue; rw [h0]
      simp only [bind, Except.bind]
      rw [g2]
      cases m.table.searchT h.1 (fun entry => eqv q entry.1) with
      | error e => rfl
      | ok r =>
        simp only [Except.bind, HashMapNC.impl]
        cases r.1 with
        | none => rfl
        | some i =>
          simp only [Option.elim, entryAt]
          cases getUnchecked m.table.entries i <;> rfl
    · show HashMapNC.get hQ eqv m q = _
      unfold HashMapNC.get; rw [h0]
      simp only [bind, Except.bind]
      rw [g2]
      cases m.table.searchT h.1 (fun entry => eqv q entry.1) with
      | error e => rfl
      | ok r =>
        simp only [Except.bind, HashMapNC.impl]
        cases r.1 with
        | none => rfl
        | some i =>
          simp only [Option.elim, entryAt]
          cases getUnchecked m.table.entries i <;> rfl
    · show HashMapNC.containsKey hQ eqv m q = _
      unfold HashMapNC.containsKey HashMapNC.get; rw [h0]
      simp only [bind, Except.bind]
      rw [g2]
      cases m.table.searchT h.1 (fun entry => eqv q entry.1) with
      | error e => rfl
      | ok r =>
        simp only [Except.bind, HashMapNC.impl]
        cases r.1 with
        | none => rfl
        | some i =>
          simp only [Option.elim, entryAt]
          cases getUnchecked m.table.entries i <;> rfl

/-! ## Hashers -/

theorem bridgeHashT_of (bh : Q → Nat) : HasherOf (K := K) (bridgeHash bh) (bridgeHashT bh) := fun _ => rfl

theorem scalarHashT_of (index : Q → Nat) : HasherOf (K := K) (scalarHash index) (scalarHashT index) := fun _ => rfl

theorem leftRangeHashT_of (bh : Str → Nat) (r : Range) :
    HasherOf (K := K) (leftRangeHash bh r) (leftRangeHashT bh r) := by
  intro q
  unfold leftRangeHash leftRangeHashT
  split
  · rfl
  · cases idxRange q r.lo r.hi <;> rfl

theorem rightRangeHashT_of (bh : Str → Nat) (r : Range) :
    HasherOf (K := K) (rightRangeHash bh r) (rightRangeHashT bh r) := by
  intro q
  unfold rightRangeHash rightRangeHashT
  split
  · rfl
  · cases csub q.length r.hi with
    | error e => rfl
    | ok lo =>
      cases csub q.length r.lo with
      | error e => rfl
      | ok hi =>
        simp only [bind, Except.bind]
        cases idxRange q lo hi <;> rfl

theorem InlineHasher.hashOneT_of (t : QueryTraits Q K) (h : InlineHasher) :
    HasherOf (h.hashOne t) (h.hashOneT t) := by
  intro q
  cases h with
  | bridge seed => rfl
  | scalar => rfl
  | length => rfl
  | left a b seed => exact leftRangeHashT_of (K := K) (t.fixedStateSlice seed) ⟨a, b⟩ (t.bytes q)
  | right a b seed => exact rightRangeHashT_of (K := K) (t.fixedStateSlice seed) ⟨a, b⟩ (t.bytes q)

theorem FzScalarMap.searchOf (qindex : Q → Nat) (eqv : Q → K → Bool) (m : FzScalarMap K V) (q : Q) :
    SearchOf (FzScalarMap.impl qindex eqv) m q (m.searchT qindex eqv q) := by
  cases m with
  | hash m =>
    have h := HashMap.searchOf (scalarHashT_of qindex) eqv m q
    exact ⟨h.getMut, h.getKeyValue, h.get, h.containsKey⟩
  | dense m =>
    have h := DenseMap.searchOf qindex m q
    exact ⟨h.getMut, h.getKeyValue, h.get, h.containsKey⟩
  | sparse m =>
    have h := SparseMap.searchOf qindex m q
    exact ⟨h.getMut, h.getKeyValue, h.get, h.containsKey⟩

theorem FzStringMap.searchOf (bhStr bhSlice : Str → Nat) (m : FzStringMap V) (q : Str) :
    SearchOf (FzStringMap.impl bhStr bhSlice) m q (m.searchT bhStr bhSlice q) := by
  cases m with
  | leftRange r m =>
    have h := HashMap.searchOf (leftRangeHashT_of bhSlice r) strEq m q
    exact ⟨h.getMut, h.getKeyValue, h.get, h.containsKey⟩
  | rightRange r m =>
    have h := HashMap.searchOf (rightRangeHashT_of bhSlice r) strEq m q
    exact ⟨h.getMut, h.getKeyValue, h.get, h.containsKey⟩
  | hash m =>
    have h := HashMap.searchOf (bridgeHashT_of bhStr) strEq m q
    exact ⟨h.getMut, h.getKeyValue, h.get, h.containsKey⟩

theorem InlineMap.searchOf (t : QueryTraits Q K) (m : InlineMap K V) (q : Q) :
    SearchOf (InlineMap.impl t) m q (m.searchT t q) := by
  obtain ⟨sz, r⟩ := m
  cases r with
  | scan m =>
    have h := ScanMap.searchOf t.equivalent m q
    exact ⟨h.getMut, h.getKeyValue, h.get, h.containsKey⟩
  | eytzinger m =>
    have h := EytzingerMap.searchOf t.compare m q
    exact ⟨h.getMut, h.getKeyValue, h.get, h.containsKey⟩
  | dense m =>
    have h := DenseMap.searchOf t.index m q
    exact ⟨h.getMut, h.getKeyValue, h.get, h.containsKey⟩
  | sparse m =>
    have h := SparseMap.searchOf t.index m q
    exact ⟨h.getMut, h.getKeyValue, h.get, h.containsKey⟩
  | hash hr m =>
    have h := HashMap.searchOf (hr.hashOneT_of t) t.equivalent m q
    exact ⟨h.getMut, h.getKeyValue, h.get, h.containsKey⟩
  | hashNC hr m =>
    have h := HashMapNC.searchOf (hr.hashOneT_of t) t.equivalent m q
    exact ⟨h.getMut, h.getKeyValue, h.get, h.containsKey⟩

/-! ## What hash lookups compare -/

theorem untilMatch_sublist (p : T → Bool) (l : List T) : (untilMatch p l).Sublist l := by
  induction l with
  | nil => exact List.nil_sublist _
  | cons x l ih =>
    unfold untilMatch
    split
    · exact (List.nil_sublist _).cons_cons _
    · exact ih.cons_cons _

theorem untilMatch_stop (p : T → Bool) (l : List T) : ∀ x ∈ (untilMatch p l).dropLast, p x = false := by
  induction l with
  | nil => simp [untilMatch]
  | cons x l ih =>
    unfold untilMatch
    split
    · simp
    · rename_i hx
      intro y hy
      by_cases hr : untilMatch p l = []
      · rw [hr] at hy; simp at hy
      · rw [List.dropLast_cons_of_ne_nil hr] at hy
        rcases List.mem_cons.1 hy with rfl | hy
        · simpa using hx
        · exact ih y hy

theorem untilMatch_all {p : T → Bool} {l : List T} (h : ∀ x ∈ untilMatch p l, p x = false) : untilMatch p l = l := by
  induction l with
  | nil => rfl
  | cons x l ih =>
    unfold untilMatch at h ⊢
    split
    · rename_i hx
      rw [if_pos hx] at h
      have := h x (by simp)
      rw [hx] at this; cases this
    · rename_i hx
      rw [if_neg hx] at h
      rw [ih (fun y hy => h y (List.mem_cons_of_mem _ hy))]

theorem HashTable.searchT_calls {hash : T → Nat} {t : HashTable T} (h : TableOK hash t) (hashCode : Nat) (eq : T → Bool) :
    ∃ r, t.searchT hashCode eq = .ok (r, untilMatch eq (t.bucketOf hash hashCode)) := by
  obtain ⟨s, h1, h2, h3, h4, h5, h6⟩ := h.slot hashCode
  unfold HashTable.searchT
  simp only [h1, h4, bind, Except.bind]
  obtain ⟨r, hr⟩ := scanBucketT_calls eq (t.bucketOf hash hashCode) (s.maxIndex - s.minIndex) 0 (by rw [h5]; omega)
  rw [hr]
  exact ⟨_, rfl⟩

/-- The residues of a list take at most one value on the elements of one class. -/
theorem class_card (f : T → Nat) (l : List T) (c : Nat) :
    (l.filter (fun x => f x == c)).length + ((l.map f).toFinset).card ≤ l.length + 1 := by
  have h1 : (l.map f).toFinset ⊆ insert c (((l.filter (fun x => !(f x == c))).map f).toFinset) := by
    intro y hy
    simp only [List.mem_toFinset, List.mem_map] at hy
    obtain ⟨x, hx, rfl⟩ := hy
    by_cases hc : f x = c
    · simp [hc]
    · apply Finset.mem_insert_of_mem
      simp only [List.mem_toFinset, List.mem_map, List.mem_filter]
      exact ⟨x, ⟨hx, by simpa using hc⟩, rfl⟩
  have h2 := Finset.card_le_card h1
  have h3 := Finset.card_insert_le c (((l.filter (fun x => !(f x == c))).map f).toFinset)
  have h4 := List.toFinset_card_le ((l.filter (fun x => !(f x == c))).map f)
  rw [List.length_map] at h4
  have h5 := List.length_eq_length_filter_add (l := l) (fun x => f x == c)
  omega

theorem HashMap.searchT_calls {hk : K → Nat} {m : HashMap K V} (h : TableOK (fun e : K × V => hk e.1) m.table)
    {hT : Q → Res (Nat × List (Call K))} {q : Q} {hc : Nat} {pre : List (Call K)} (hq : hT q = .ok (hc, pre))
    (eqv : Q → K → Bool) :
    ∃ r ks, m.searchT hT eqv q = .ok (r, pre ++ ks.map .equivalent) ∧
      BucketProbes hk m.table.slots.length hc (eqv q) (m.table.entries.map Prod.fst) ks := by
  obtain ⟨r, hr⟩ := HashTable.searchT_calls h hc (fun entry => eqv q entry.1)
  refine ⟨r, (untilMatch (fun entry => eqv q entry.1) (m.table.bucketOf (fun e => hk e.1) hc)).map Prod.fst, ?_, ?_⟩
  · unfold HashMap.searchT
    rw [hq]
    simp only [bind, Except.bind, hr, List.map_map]
    rfl
  · have hsub := untilMatch_sublist (fun entry : K × V => eqv q entry.1) (m.table.bucketOf (fun e => hk e.1) hc)
    have hsub2 : (m.table.bucketOf (fun e => hk e.1) hc).Sublist m.table.entries := List.filter_sublist
    constructor
    · exact (hsub.trans hsub2).map _
    · intro k hkm
      obtain ⟨e, he, rfl⟩ := List.mem_map.1 hkm
      have := hsub.subset he
      unfold HashTable.bucketOf at this
      rw [List.mem_filter] at this
      exact eq_of_beq this.2
    · intro k hkm
      rw [← List.map_dropLast] at hkm
      obtain ⟨e, he, rfl⟩ := List.mem_map.1 hkm
      exact untilMatch_stop _ _ e he
    · intro hall k hkm hslot
      have := untilMatch_all (p := fun entry : K × V => eqv q entry.1)
        (l := m.table.bucketOf (fun e => hk e.1) hc) (fun e he => hall e.1 (List.mem_map_of_mem he))
      rw [this]
      obtain ⟨e, he, rfl⟩ := List.mem_map.1 hkm
      apply List.mem_map_of_mem
      unfold HashTable.bucketOf
      rw [List.mem_filter]
      exact ⟨he, by simpa using hslot⟩
    · have h1 := class_card (fun e : K × V => hk e.1 % m.table.slots.length) m.table.entries
        (hc % m.table.slots.length)
      have h2 := hsub.length_le
      unfold HashTable.bucketOf at h2
      rw [List.length_map, List.length_map, List.map_map]
      have h3 : ((fun k => hk k % m.table.slots.length) ∘ Prod.fst : K × V → Nat) =
        (fun e => hk e.1 % m.table.slots.length) := rfl
      rw [h3]
      unfold HashTable.bucketOf
      simp only at h2 ⊢
      omega

/-! ## The number of slots -/

theorem setIdx_len {xs ys : List T} {i : Nat} {x : T} (h : setIdx xs i x = .ok ys) : ys.length = xs.length := by
  unfold setIdx at h
  split at h
  · cases h; simp
  · cases h

theorem fillSlots_length [Target] (cm : Magnitude) :
    ∀ (n : Nat) (items : List (Nat × T)) (slots : List Slot) (i : Nat) (final : List T) (r : List Slot × List T),
      items.length ≤ n → fillSlots cm items slots i final = .ok r → r.1.length = slots.length
  | n, [], slots, i, final, r, _, h => by
    unfold fillSlots at h; cases h; rfl
  | 0, item :: items, slots, i, final, r, hn, h => by simp at hn
  | n + 1, item :: items, slots, i, final, r, hn, h => by
    unfold fillSlots at h
    simp only [bind, Except.bind] at h
    split at h
    · cases h
    · rename_i sl hsl
      have h1 := setIdx_len hsl
      have h2 := drainGroup_length item.1 item.2 items final 0
      have := fillSlots_length cm n _ _ _ _ _ (by simp only [List.length_cons] at hn; omega) h
      omega

theorem HashTable.new_slots [Target] {cm : Magnitude} {sort : Sorter T} {entries : List T} {hash : T → Nat} {t : HashTable T}
    (hne : entries ≠ []) (h : HashTable.new cm sort entries hash = .ok (.ok t)) :
    ∃ c, analyzeHashCodes (entries.map hash) = .ok (t.slots.length, c) := by
  unfold HashTable.new at h
  rw [if_neg (by simpa using hne)] at h
  split at h
  · cases h
  · simp only [bind, Except.bind] at h
    split at h
    · cases h
    · rename_i sc hsc
      obtain ⟨s, c⟩ := sc
      simp only at h
      split at h
      · cases h
      · rename_i prep hprep
        split at h
        · cases h
        · rename_i r hr
          split at h
          · cases h
          · cases h
            have := fillSlots_length cm _ _ _ _ _ _ (Nat.le_refl _) hr
            simp only [List.length_replicate] at this
            exact ⟨c, by rw [hsc, ← this]⟩

theorem nodup_iff_card (l : List Nat) : l.Nodup ↔ l.toFinset.card = l.length := by
  constructor
  · exact List.toFinset_card_of_nodup
  · intro h
    exact (Multiset.toFinset_card_eq_card_iff_nodup (m := (l : Multiset Nat))).1 (by simpa using h)

theorem slotCount_perm {codes codes' : List Nat} {s : Nat} (hp : codes.Perm codes') (h : SlotCount codes s) :
    SlotCount codes' s where
  pow := h.pow
  size hne := by
    rw [← hp.length_eq]
    exact h.size (by rintro rfl; exact hne hp.symm.eq_nil)
  perfect hn b h1 h2 hd := by
    rw [← hp.length_eq] at hn h1 h2
    exact ((hp.map (· % s)).nodup_iff).1 (h.perfect hn b h1 h2 (((hp.map (· % 2 ^ b)).nodup_iff).2 hd))

theorem analyze_slotCount [Target] {codes : List Nat} {s c : Nat} (hne : codes ≠ []) (hsz : codes.length < sizeLimit)
    (h : analyzeHashCodes codes = .ok (s, c)) : SlotCount codes s := by
  obtain ⟨s1, c1, h1, hp, _, hlt, _, hc⟩ := c12_hash_code_analysis codes hne hsz
  rw [h] at h1
  cases h1
  refine ⟨hp, fun _ => hlt, ?_⟩
  intro hn b hb1 hb2 hd
  obtain ⟨s2, c2, h2, hfree⟩ := c12_collision_free_when_possible codes hne hn
  rw [h] at h2
  cases h2
  rw [nodup_iff_card, List.length_map] at hd ⊢
  by_contra hcon
  have hle : ((codes.map (· % s)).toFinset).card ≤ codes.length := by
    have := List.toFinset_card_le (codes.map (· % s))
    rwa [List.length_map] at this
  have := hfree (by omega) b hb1 hb2
  omega

theorem HashMap.fromDedupped_slots [Target] {cm : Magnitude} {sort : Sorter (K × V)} (hsort : SorterOk sort)
    {hK : K → Res Nat} {hk : K → Nat} (hKok : ∀ k, hK k = .ok (hk k)) {S : List (K × V)} (hsz : S.length < sizeLimit)
    {m : HashMap K V} (h : HashMap.fromDedupped cm sort hK S = .ok (.ok m)) :
    TableOK (fun e : K × V => hk e.1) m.table ∧ m.table.entries.Perm S ∧
      SlotCount (m.table.entries.map (fun e => hk e.1)) m.table.slots.length := by
  unfold HashMap.fromDedupped at h
  rw [hashAll_ok hKok, hashVal_ok hKok] at h
  simp only [bind, Except.bind] at h
  obtain ⟨h1, h2⟩ := HashTable.new_spec cm hsort S (fun e : K × V => hk e.1) hsz
  by_cases hcap : S.length ≤ cm.maxCapacity
  · obtain ⟨t, ht, hok, hp, _⟩ := h1 hcap
    rw [ht] at h
    cases h
    refine ⟨hok, hp, slotCount_perm (hp.map _).symm ?_⟩
    by_cases hne : S = []
    · subst hne
      unfold HashTable.new at ht
      rw [if_pos (by rfl)] at ht
      cases ht
      exact ⟨⟨0, rfl⟩, fun h => absurd rfl h, by intros; exact List.nodup_nil⟩
    · obtain ⟨c, hc⟩ := HashTable.new_slots hne ht
      exact analyze_slotCount (by simpa using hne) (by simpa using hsz) hc
  · rw [h2 (by omega)] at h
    cases h

/-! ## Counting calls -/

theorem compared_equivalent (ks : List K) : compared (ks.map Call.equivalent) = ks := by
  unfold compared
  rw [List.filterMap_map]
  exact List.filterMap_some

theorem compared_compare (ks : List K) : compared (ks.map Call.compare) = ks := by
  unfold compared
  rw [List.filterMap_map]
  exact List.filterMap_some

theorem compared_append (a b : List (Call K)) : compared (a ++ b) = compared a ++ compared b := by
  unfold compared
  rw [List.filterMap_append]

theorem hashings_append (a b : List (Call K)) : hashings (a ++ b) = hashings a + hashings b := by
  unfold hashings
  rw [List.filter_append, List.length_append]

theorem hashings_equivalent (ks : List K) : hashings (ks.map Call.equivalent) = 0 := by
  unfold hashings
  induction ks with
  | nil => rfl
  | cons k ks ih => simpa using ih

theorem hashings_compare (ks : List K) : hashings (ks.map Call.compare) = 0 := by
  unfold hashings
  induction ks with
  | nil => rfl
  | cons k ks ih => simpa using ih

theorem DenseMap.searchT_index {qindex : Q → Nat} {m : DenseMap K V} {q : Q} {r : Option Nat} {calls : List (Call K)}
    (h : m.searchT qindex q = .ok (r, calls)) : calls = [.index] := by
  unfold DenseMap.searchT at h
  by_cases hv : qindex q ≥ m.min ∧ qindex q ≤ m.max
  · simp only [if_pos hv, bind, Except.bind] at h
    cases hg : getUnchecked m.entries (qindex q - m.min) with
    | error e => rw [hg] at h; cases h
    | ok e => rw [hg] at h; cases h; rfl
  · rw [if_neg hv] at h
    cases h; rfl

theorem SparseMap.searchT_index {qindex : Q → Nat} {m : SparseMap K V} {q : Q} {r : Option Nat}
    {calls : List (Call K)} (h : m.searchT qindex q = .ok (r, calls)) : calls = [.index] := by
  unfold SparseMap.searchT at h
  by_cases hv : qindex q ≥ m.min ∧ qindex q ≤ m.max
  · simp only [if_pos hv, bind, Except.bind] at h
    cases hg : getUnchecked m.lookup (qindex q - m.min) with
    | error e => rw [hg] at h; cases h
    | ok v =>
      rw [hg] at h
      by_cases hv2 : v > 0
      · simp only [if_pos hv2] at h
        cases hg2 : getUnchecked m.entries (v - 1) with
        | error e => rw [hg2] at h; cases h
        | ok e => rw [hg2] at h; cases h; rfl
      · simp only [if_neg hv2] at h
        cases h; rfl
  · rw [if_neg hv] at h
    cases h; rfl

theorem scanBucketT_sublist {eq : T → Bool} {bucket : List T} {n ptr : Nat} {r : Option Nat × List T}
    (h : scanBucketT eq bucket n ptr = .ok r) : r.2.Sublist (bucket.drop ptr) := by
  induction n generalizing ptr r with
  | zero => cases h; exact List.nil_sublist _
  | succ n ih =>
    unfold scanBucketT getUnchecked at h
    simp only [bind, Except.bind] at h
    cases hb : bucket[ptr]? with
    | none => rw [hb] at h; cases h
    | some e =>
      rw [hb] at h
      obtain ⟨hlt, he⟩ := List.getElem?_eq_some_iff.1 hb
      rw [List.drop_eq_getElem_cons hlt, he]
      simp only at h
      by_cases hq : eq e = true
      · rw [if_pos hq] at h
        cases h
        exact (List.nil_sublist _).cons_cons e
      · rw [if_neg hq] at h
        cases hr : scanBucketT eq bucket n (ptr + 1) with
        | error e => rw [hr] at h; cases h
        | ok r' =>
          rw [hr] at h
          cases h
          exact (ih hr).cons_cons e

theorem HashMap.searchT_sub {hT : Q → Res (Nat × List (Call K))} {eqv : Q → K → Bool} {m : HashMap K V} {q : Q}
    {r : Option Nat} {calls : List (Call K)} (h : m.searchT hT eqv q = .ok (r, calls)) :
    ∃ (hc : Nat) (pre : List (Call K)) (ks : List K), hT q = .ok (hc, pre) ∧ calls = pre ++ ks.map .equivalent ∧
      ks.Sublist (m.table.entries.map Prod.fst) := by
  unfold HashMap.searchT HashTable.searchT at h
  simp only [bind, Except.bind] at h
  cases hq : hT q with
  | error e => rw [hq] at h; cases h
  | ok x =>
    rw [hq] at h
    simp only at h
    cases hs : getUnchecked m.table.slots (x.1 &&& m.table.mask) with
    | error e => rw [hs] at h; cases h
    | ok slot =>
      rw [hs] at h
      simp only at h
      cases hb : getUncheckedRange m.table.entries slot.minIndex slot.maxIndex with
      | error e => rw [hb] at h; cases h
      | ok bucket =>
        rw [hb] at h
        simp only at h
        cases hr : scanBucketT (fun entry => eqv q entry.1) bucket (slot.maxIndex - slot.minIndex) 0 with
        | error e => rw [hr] at h; cases h
        | ok y =>
          rw [hr] at h
          cases h
          refine ⟨x.1, x.2, y.2.map Prod.fst, rfl, by rw [List.map_map]; rfl, ?_⟩
          have h1 := scanBucketT_sublist hr
          rw [List.drop_zero] at h1
          refine (h1.trans ?_).map _
          unfold getUncheckedRange at hb
          split at hb
          · cases hb
            exact (List.take_sublist _ _).trans (List.drop_sublist _ _)
          · cases hb

theorem HashMapNC.searchT_sub {hT : Q → Res (Nat × List (Call K))} {eqv : Q → K → Bool} {m : HashMapNC K V} {q : Q}
    {r : Option Nat} {calls : List (Call K)} (h : m.searchT hT eqv q = .ok (r, calls)) :
    ∃ (hc : Nat) (pre : List (Call K)) (ks : List K), hT q = .ok (hc, pre) ∧ calls = pre ++ ks.map .equivalent ∧
      ks.Sublist (m.table.entries.map Prod.fst) ∧ ks.length ≤ 1 := by
  unfold HashMapNC.searchT HashTableNC.searchT at h
  simp only [bind, Except.bind] at h
  cases hq : hT q with
  | error e => rw [hq] at h; cases h
  | ok x =>
    rw [hq] at h
    simp only at h
    cases hs : getUnchecked m.table.slots (x.1 &&& m.table.mask) with
    | error e => rw [hs] at h; cases h
    | ok v =>
      rw [hs] at h
      simp only at h
      by_cases hv : v > 0
      · simp only [if_pos hv] at h
        cases hb : getUnchecked m.table.entries (v - 1) with
        | error e => rw [hb] at h; cases h
        | ok e =>
          rw [hb] at h
          simp only at h
          have hmem : e ∈ m.table.entries := by
            unfold getUnchecked at hb
            cases he : m.table.entries[v - 1]? with
            | none => rw [he] at hb; cases hb
            | some e' => rw [he] at hb; cases hb; exact List.mem_of_getElem? he
          have hsub : [e.1].Sublist (m.table.entries.map Prod.fst) :=
            List.singleton_sublist.2 (List.mem_map.2 ⟨e, hmem, rfl⟩)
          by_cases hq : eqv q e.1 = true
          · simp only [if_pos hq] at h
            cases h
            exact ⟨x.1, x.2, [e.1], rfl, rfl, hsub, Nat.le_refl _⟩
          · simp only [if_neg hq] at h
            cases h
            exact ⟨x.1, x.2, [e.1], rfl, rfl, hsub, Nat.le_refl _⟩
      · simp only [if_neg hv] at h
        cases h
        exact ⟨x.1, x.2, [], rfl, by simp, List.nil_sublist _, Nat.zero_le _⟩

theorem rangeT_pre {bh : Str → Nat} {r : Range} {s : Str} {x : Nat × List (Call K)}
    (h : leftRangeHashT bh r s = .ok x ∨ rightRangeHashT bh r s = .ok x) : hashings x.2 ≤ 1 ∧ compared x.2 = [] := by
  rcases h with h | h
  · unfold leftRangeHashT at h
    split at h
    · cases h; exact ⟨Nat.zero_le _, rfl⟩
    · simp only [bind, Except.bind] at h
      split at h
      · cases h
      · cases h; exact ⟨Nat.le_refl _, rfl⟩
  · unfold rightRangeHashT at h
    split at h
    · cases h; exact ⟨Nat.zero_le _, rfl⟩
    · simp only [bind, Except.bind] at h
      repeat' split at h
      all_goals first | (cases h; done) | (cases h; exact ⟨Nat.le_refl _, rfl⟩)

theorem InlineHasher.hashOneT_pre {t : QueryTraits Q K} {hs : InlineHasher} {q : Q} {hc : Nat} {pre : List (Call K)}
    (h : hs.hashOneT t q = .ok (hc, pre)) : hashings pre ≤ 1 ∧ compared pre = [] := by
  cases hs with
  | bridge seed => cases h; exact ⟨Nat.le_refl _, rfl⟩
  | scalar => cases h; exact ⟨Nat.le_refl _, rfl⟩
  | length => cases h; exact ⟨Nat.zero_le _, rfl⟩
  | left a b seed => exact rangeT_pre (.inl h)
  | right a b seed => exact rangeT_pre (.inr h)

end Frozen.Model
