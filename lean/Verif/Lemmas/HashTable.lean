import Verif.Model.HashTable
import Verif.Lemmas.HashAnalyzer

/-!
# Helper lemmas on the hash table model
-/

namespace Frozen.Model

variable {T : Type _}

theorem drainGroup_spec (slot : Nat) (e : T) (items : List (Nat × T)) (final : List T) (c : Nat) :
    drainGroup slot e items final c =
      (final ++ e :: (items.takeWhile (fun i => i.1 == slot)).map Prod.snd,
       c + 1 + (items.takeWhile (fun i => i.1 == slot)).length,
       items.dropWhile (fun i => i.1 == slot)) := by
  induction items generalizing e final c with
  | nil => simp [drainGroup]
  | cons i is ih =>
    unfold drainGroup
    split
    · rename_i h
      rw [ih, List.takeWhile_cons_of_pos (p := fun j : Nat × T => j.1 == slot) h, List.dropWhile_cons_of_pos (p := fun j : Nat × T => j.1 == slot) h]
      simp only [List.map_cons, List.length_cons, List.append_assoc, List.cons_append, List.nil_append]
      congr 2
      omega
    · rename_i h
      rw [List.takeWhile_cons_of_neg (p := fun j : Nat × T => j.1 == slot) h, List.dropWhile_cons_of_neg (p := fun j : Nat × T => j.1 == slot) h]
      simp

/-- Every slot designates exactly the items that were assigned to it. -/
def Buckets (slots : List Slot) (P : List (Nat × T)) : Prop :=
  ∀ s (h : s < slots.length), slots[s].minIndex ≤ slots[s].maxIndex ∧ slots[s].maxIndex ≤ P.length ∧
    (P.drop slots[s].minIndex).take (slots[s].maxIndex - slots[s].minIndex) = P.filter (fun p => p.1 == s)

theorem sorted_takeWhile_eq_filter {slot : Nat} {items : List (Nat × T)}
    (hs : items.Pairwise (fun a b => b.1 ≤ a.1)) (hle : ∀ i ∈ items, i.1 ≤ slot) :
    items.takeWhile (fun i => i.1 == slot) = items.filter (fun i => i.1 == slot) ∧
    ∀ i ∈ items.dropWhile (fun i => i.1 == slot), i.1 < slot := by
  induction items with
  | nil => simp
  | cons i is ih =>
    rw [List.pairwise_cons] at hs
    have ih' := ih hs.2 (fun j hj => hle j (List.mem_cons_of_mem _ hj))
    by_cases h : (i.1 == slot) = true
    · rw [List.takeWhile_cons_of_pos (p := fun j : Nat × T => j.1 == slot) h, List.dropWhile_cons_of_pos (p := fun j : Nat × T => j.1 == slot) h, List.filter_cons_of_pos (p := fun j : Nat × T => j.1 == slot) h, ih'.1]
      exact ⟨rfl, ih'.2⟩
    · rw [List.takeWhile_cons_of_neg (p := fun j : Nat × T => j.1 == slot) h, List.dropWhile_cons_of_neg (p := fun j : Nat × T => j.1 == slot) h, List.filter_cons_of_neg (p := fun j : Nat × T => j.1 == slot) h]
      have h1 : i.1 < slot := by
        have := hle i (by simp)
        have hne : i.1 ≠ slot := by simpa using h
        omega
      have h2 : ∀ j ∈ i :: is, j.1 < slot := by
        intro j hj
        rw [List.mem_cons] at hj
        rcases hj with rfl | hj
        · exact h1
        · have := hs.1 j hj; omega
      refine ⟨?_, h2⟩
      symm
      rw [List.filter_eq_nil_iff]
      intro j hj
      have := h2 j (List.mem_cons_of_mem _ hj)
      simp; omega

theorem fillSlots_spec [Target] (cm : Magnitude) :
    ∀ (n : Nat) (items : List (Nat × T)) (slots : List Slot) (P : List (Nat × T)), items.length ≤ n →
      items.Pairwise (fun a b => b.1 ≤ a.1) →
      (∀ p ∈ P, ∀ i ∈ items, i.1 < p.1) → (∀ i ∈ items, i.1 < slots.length) →
      P.length + items.length ≤ cm.maxCapacity → Buckets slots P →
      ∃ slots', fillSlots cm items slots P.length (P.map Prod.snd) = .ok (slots', (P ++ items).map Prod.snd) ∧
        slots'.length = slots.length ∧ Buckets slots' (P ++ items) := by
  intro n
  induction n with
  | zero =>
    intro items slots P hlen _ _ _ _ hb
    have : items = [] := List.length_eq_zero_iff.1 (by omega)
    subst this
    exact ⟨slots, by simp [fillSlots], rfl, by simpa using hb⟩
  | succ n ih =>
    intro items slots P hlen hsort hlt hin hcap hb
    match items with
    | [] => exact ⟨slots, by simp [fillSlots], rfl, by simpa using hb⟩
    | item :: items =>
      rw [List.pairwise_cons] at hsort
      obtain ⟨htw, hdw⟩ := sorted_takeWhile_eq_filter hsort.2 hsort.1
      have hsplit := List.takeWhile_append_dropWhile (p := fun i : Nat × T => i.1 == item.1) (l := items)
      generalize htwg : items.takeWhile (fun i => i.1 == item.1) = tw at *
      generalize hdwg : items.dropWhile (fun i => i.1 == item.1) = dw at *
      have hitem : item.1 < slots.length := hin item (by simp)
      have hlen2 : items.length = tw.length + dw.length := by rw [← hsplit]; simp
      simp only [List.length_cons] at hlen hcap
      unfold fillSlots
      simp only
      rw [drainGroup_spec, htwg, hdwg]
      simp only
      unfold setIdx
      rw [if_pos hitem]
      simp only [bind, Except.bind]
      have he1 : cm.ofNatOrZero P.length = P.length := by
        unfold Magnitude.ofNatOrZero; rw [if_pos (by omega)]
      have he2 : cm.ofNatOrZero (P.length + (0 + 1 + tw.length)) = P.length + (1 + tw.length) := by
        unfold Magnitude.ofNatOrZero; rw [if_pos (by omega)]
      rw [he1, he2]
      have hPg : (P ++ item :: tw).length = P.length + (1 + tw.length) := by
        simp only [List.length_append, List.length_cons]; omega
      have hslots : ∀ i ∈ tw, i.1 = item.1 := by
        intro i hi
        rw [htw] at hi
        simpa using (List.mem_filter.1 hi).2
      -- the new bucket table
      have hb' : Buckets (slots.set item.1 ⟨P.length, P.length + (1 + tw.length)⟩) (P ++ item :: tw) := by
        intro s hs
        rw [List.length_set] at hs
        rw [List.filter_append]
        by_cases hse : item.1 = s
        · subst hse
          rw [List.getElem_set_self]
          simp only
          refine ⟨by omega, by omega, ?_⟩
          have h1 : P.filter (fun p => p.1 == item.1) = [] := by
            rw [List.filter_eq_nil_iff]
            intro p hp
            have := hlt p hp item (by simp)
            simp; omega
          have h2 : (item :: tw).filter (fun p => p.1 == item.1) = item :: tw := by
            rw [List.filter_eq_self]
            intro i hi
            rw [List.mem_cons] at hi
            rcases hi with rfl | hi
            · simp
            · simp [hslots i hi]
          rw [h1, h2]
          simp only [List.drop_left, List.nil_append]
          apply List.take_of_length_le
          simp only [List.length_cons]; omega
        · rw [List.getElem_set_of_ne hse]
          obtain ⟨g1, g2, g3⟩ := hb s hs
          refine ⟨g1, by rw [hPg]; omega, ?_⟩
          have h2 : (item :: tw).filter (fun p => p.1 == s) = [] := by
            rw [List.filter_eq_nil_iff]
            intro i hi
            rw [List.mem_cons] at hi
            rcases hi with rfl | hi
            · simpa using hse
            · rw [hslots i hi]; simpa using hse
          rw [h2, List.append_nil, ← g3]
          rw [List.drop_append_of_le_length (by omega)]
          rw [List.take_append_of_le_length (by rw [List.length_drop]; omega)]
      obtain ⟨slots', e1, e2, e3⟩ := ih dw (slots.set item.1 ⟨P.length, P.length + (1 + tw.length)⟩)
        (P ++ item :: tw) (by omega)
        (hsort.2.sublist (by rw [← hdwg]; exact List.dropWhile_sublist _))
        (by
          intro p hp i hi
          rw [List.mem_append, List.mem_cons] at hp
          rcases hp with hp | rfl | hp
          · have hi' : i ∈ items := by rw [← hsplit]; exact List.mem_append_right _ hi
            exact hlt p hp i (List.mem_cons_of_mem _ hi')
          · exact hdw i hi
          · rw [hslots p hp]; exact hdw i hi)
        (by
          intro i hi
          rw [List.length_set]
          have hi' : i ∈ items := by rw [← hsplit]; exact List.mem_append_right _ hi
          exact hin i (List.mem_cons_of_mem _ hi'))
        (by omega) hb'
      refine ⟨slots', ?_, by rw [e2, List.length_set], ?_⟩
      · rw [hPg] at e1
        have hmap : List.map Prod.snd P ++ item.2 :: List.map Prod.snd tw = (P ++ item :: tw).map Prod.snd := by simp
        have hidx : P.length + (0 + 1 + tw.length) = P.length + (1 + tw.length) := by omega
        rw [hmap, hidx, e1, ← hsplit]
        simp
      · have : P ++ item :: items = P ++ item :: tw ++ dw := by rw [← hsplit]; simp
        rw [this]; exact e3

theorem prepItems_spec (hash : T → Nat) (n : Nat) (hn : 0 < n) (es : List T) :
    prepItems hash n es = .ok (es.map (fun e => (hash e % n, e))) := by
  induction es with
  | nil => rfl
  | cons e es ih =>
    unfold prepItems cmod
    rw [if_neg (by omega), ih]
    rfl

/-- Well-formed table w.r.t. a hash function: `2^k` slots, each designating exactly the entries hashed to it. -/
structure TableOK (hash : T → Nat) (t : HashTable T) : Prop where
  pow : ∃ k, t.slots.length = 2 ^ k ∧ t.mask = 2 ^ k - 1
  bucket : ∀ s (h : s < t.slots.length), t.slots[s].minIndex ≤ t.slots[s].maxIndex ∧
    t.slots[s].maxIndex ≤ t.entries.length ∧
    (t.entries.drop t.slots[s].minIndex).take (t.slots[s].maxIndex - t.slots[s].minIndex) =
      t.entries.filter (fun e => hash e % t.slots.length == s)

theorem default_tableOK (hash : T → Nat) : TableOK hash (HashTable.default : HashTable T) where
  pow := ⟨0, rfl, rfl⟩
  bucket := by
    intro s h
    have : s = 0 := by simpa [HashTable.default] using h
    subst this
    simp [HashTable.default]

theorem HashTable.new_spec [Target] (cm : Magnitude) {sort : Sorter T} (hsort : SorterOk sort) (entries : List T)
    (hash : T → Nat) (hsz : entries.length < sizeLimit) :
    (entries.length ≤ cm.maxCapacity →
      ∃ t, HashTable.new cm sort entries hash = .ok (.ok t) ∧ TableOK hash t ∧ t.entries.Perm entries ∧
        (∀ s ∈ t.slots, s.maxIndex ≤ entries.length)) ∧
    (cm.maxCapacity < entries.length → HashTable.new cm sort entries hash = .ok (.error tooManyEntries)) := by
  constructor
  · intro hcap
    unfold HashTable.new
    by_cases he : entries = []
    · subst he
      exact ⟨HashTable.default, rfl, default_tableOK hash, .refl _, by simp [HashTable.default]⟩
    · have hlen : 1 ≤ entries.length := List.length_pos_iff.2 he
      rw [if_neg (by simpa using he), if_neg (by omega)]
      obtain ⟨s, c, minK, maxK, h1, ⟨b, _, _, hs, _⟩, _⟩ :=
        analyzeHashCodes_spec (entries.map hash) (by simpa using he) (by simpa using hsz)
      have hpos : 0 < 2 ^ b := Nat.pow_pos (by omega)
      rw [h1]
      simp only [bind, Except.bind, hs]
      rw [prepItems_spec hash (2 ^ b) hpos]
      simp only
      generalize hprep : sort (entries.reverse.map (fun e => (hash e % 2 ^ b, e))) = prep
      have hperm : prep.Perm (entries.reverse.map (fun e => (hash e % 2 ^ b, e))) := by
        rw [← hprep]; exact hsort.perm _
      have hsorted : prep.Pairwise (fun a b => a.1 ≤ b.1) := by rw [← hprep]; exact hsort.sorted _
      have hslot : ∀ p ∈ prep, p.1 = hash p.2 % 2 ^ b := by
        intro p hp
        have := hperm.subset hp
        rw [List.mem_map] at this
        obtain ⟨e, _, rfl⟩ := this
        rfl
      have hplen : prep.length = entries.length := by rw [hperm.length_eq]; simp
      obtain ⟨slots', e1, e2, e3⟩ := fillSlots_spec cm prep.reverse.length prep.reverse
        (List.replicate (2 ^ b) ⟨0, 0⟩) [] (Nat.le_refl _)
        (by rw [List.pairwise_reverse]; exact hsorted)
        (by simp)
        (by
          intro i hi
          rw [List.length_replicate, hslot i (by simpa using hi)]
          exact Nat.mod_lt _ hpos)
        (by simp only [List.length_nil, List.length_reverse]; omega)
        (by intro s hs; simp)
      simp only [List.length_nil, List.map_nil, List.nil_append] at e1 e3
      rw [List.length_replicate] at e2
      rw [e1]
      simp only [csub, e2]
      rw [if_pos (by omega)]
      refine ⟨_, rfl, ⟨⟨b, e2, rfl⟩, ?_⟩, ?_, ?_⟩
      · intro s hs
        simp only at hs ⊢
        obtain ⟨g1, g2, g3⟩ := e3 s hs
        refine ⟨g1, by simpa using g2, ?_⟩
        rw [← List.map_drop, ← List.map_take, g3, List.filter_map, e2]
        congr 1
        apply List.filter_congr
        intro p hp
        simp only [Function.comp_apply]
        rw [hslot p (by simpa using hp)]
      · simp only
        have h2 : (prep.reverse.map Prod.snd).Perm (prep.map Prod.snd) := (List.reverse_perm _).map _
        have h3 := hperm.map Prod.snd
        rw [List.map_map] at h3
        have h4 : (Prod.snd ∘ fun e : T => (hash e % 2 ^ b, e)) = id := rfl
        rw [h4, List.map_id] at h3
        exact (h2.trans h3).trans (List.reverse_perm _)
      · intro s hs
        obtain ⟨i, hi, rfl⟩ := List.mem_iff_getElem.1 hs
        have := (e3 i hi).2.1
        rw [List.length_reverse] at this
        simp only
        omega
  · intro hcap
    unfold HashTable.new
    have : entries ≠ [] := by rintro rfl; simp at hcap
    rw [if_neg (by simpa using this), if_pos hcap]

theorem scanBucket_spec (eq : T → Bool) (bucket : List T) (n ptr : Nat) (h : ptr + n = bucket.length) :
    scanBucket eq bucket n ptr = .ok (((bucket.drop ptr).findIdx? eq).map (· + ptr)) := by
  induction n generalizing ptr with
  | zero =>
    have : bucket.drop ptr = [] := List.drop_eq_nil_iff.2 (by omega)
    simp [scanBucket, this]
  | succ n ih =>
    have hp : ptr < bucket.length := by omega
    unfold scanBucket getUnchecked
    rw [List.getElem?_eq_getElem hp]
    simp only [bind, Except.bind]
    rw [List.drop_eq_getElem_cons hp, List.findIdx?_cons, ih (ptr + 1) (by omega)]
    split
    · simp
    · simp only [Option.map_map]
      congr 2
      funext x
      simp only [Function.comp_apply]; omega

/-- The entries a lookup of `hashCode` inspects, in order. -/
def HashTable.bucketOf (hash : T → Nat) (t : HashTable T) (hashCode : Nat) : List T :=
  t.entries.filter (fun e => hash e % t.slots.length == hashCode % t.slots.length)

theorem TableOK.slot {hash : T → Nat} {t : HashTable T} (h : TableOK hash t) (hashCode : Nat) :
    ∃ (s : Slot), getUnchecked t.slots (hashCode &&& t.mask) = .ok s ∧ s.minIndex ≤ s.maxIndex ∧
      s.maxIndex ≤ t.entries.length ∧
      getUncheckedRange t.entries s.minIndex s.maxIndex = .ok (t.bucketOf hash hashCode) ∧
      (t.bucketOf hash hashCode).length = s.maxIndex - s.minIndex ∧
      (∀ i e, (t.bucketOf hash hashCode)[i]? = some e → t.entries[s.minIndex + i]? = some e) := by
  obtain ⟨k, hk, hm⟩ := h.pow
  have hidx : hashCode &&& t.mask = hashCode % t.slots.length := by
    rw [hm, hk, Nat.and_two_pow_sub_one_eq_mod]
  have hlt : hashCode % t.slots.length < t.slots.length := Nat.mod_lt _ (by rw [hk]; exact Nat.pow_pos (by omega))
  obtain ⟨h1, h2, h3⟩ := h.bucket _ hlt
  refine ⟨t.slots[hashCode % t.slots.length], ?_, h1, h2, ?_, ?_, ?_⟩
  · unfold getUnchecked
    rw [hidx, List.getElem?_eq_getElem hlt]
  · unfold getUncheckedRange
    rw [if_pos ⟨h1, h2⟩, h3]
    rfl
  · unfold HashTable.bucketOf
    rw [← h3, List.length_take, List.length_drop]
    omega
  · intro i e hi
    unfold HashTable.bucketOf at hi
    rw [← h3] at hi
    rw [List.getElem?_take] at hi
    split at hi
    · rwa [List.getElem?_drop] at hi
    · exact absurd hi (by simp)

theorem find?_of_findIdx? (eq : T → Bool) (l : List T) :
    (l.findIdx? eq = none ∧ l.find? eq = none) ∨
    ∃ i e, l.findIdx? eq = some i ∧ l[i]? = some e ∧ l.find? eq = some e := by
  induction l with
  | nil => simp
  | cons x xs ih =>
    rw [List.findIdx?_cons, List.find?_cons]
    cases hx : eq x with
    | true => exact .inr ⟨0, x, by simp, by simp, by simp⟩
    | false =>
      rcases ih with ⟨h1, h2⟩ | ⟨i, e, h1, h2, h3⟩
      · exact .inl ⟨by simp [h1], by simp [h2]⟩
      · exact .inr ⟨i + 1, e, by simp [h1], by simpa using h2, by simp [h3]⟩

theorem HashTable.find_spec {hash : T → Nat} {t : HashTable T} (h : TableOK hash t) (hashCode : Nat) (eq : T → Bool) :
    t.find hashCode eq = .ok ((t.bucketOf hash hashCode).find? eq) := by
  obtain ⟨s, h1, h2, h3, h4, h5, h6⟩ := h.slot hashCode
  unfold HashTable.find
  simp only [h1, h4, bind, Except.bind]
  rw [scanBucket_spec _ _ _ _ (by rw [h5]; omega)]
  simp only [List.drop_zero]
  rcases find?_of_findIdx? eq (t.bucketOf hash hashCode) with ⟨g1, g2⟩ | ⟨i, e, g1, g2, g3⟩
  · rw [g1, g2]; rfl
  · rw [g1, g3]
    simp only [Option.map_some, Nat.add_zero, getUnchecked, g2]

theorem HashTable.findMut_spec {hash : T → Nat} {t : HashTable T} (h : TableOK hash t) (hashCode : Nat)
    (eq : T → Bool) :
    (t.findMut hashCode eq = .ok none ∧ (t.bucketOf hash hashCode).find? eq = none) ∨
    ∃ i e, t.findMut hashCode eq = .ok (some i) ∧ t.entries[i]? = some e ∧
      (t.bucketOf hash hashCode).find? eq = some e := by
  obtain ⟨s, h1, h2, h3, h4, h5, h6⟩ := h.slot hashCode
  unfold HashTable.findMut
  simp only [h1, h4, bind, Except.bind]
  rw [scanBucket_spec _ _ _ _ (by rw [h5]; omega)]
  simp only [List.drop_zero]
  rcases find?_of_findIdx? eq (t.bucketOf hash hashCode) with ⟨g1, g2⟩ | ⟨i, e, g1, g2, g3⟩
  · rw [g1, g2]; exact .inl ⟨rfl, rfl⟩
  · rw [g1]
    exact .inr ⟨s.minIndex + i, e, rfl, h6 _ _ g2, g3⟩

end Frozen.Model
