import Verif.Model.InlineMaps
import Verif.Lemmas.FzMaps

/-! # Lemmas about the inline maps -/

namespace Frozen.Model

open Frozen Frozen.Spec

variable {T Q K V : Type}

/-! ## Slots of a freshly built table -/

/-- A slot is either untouched or designates at least one entry. -/
def SlotShape (s : Slot) : Prop := s = ⟨0, 0⟩ ∨ s.minIndex < s.maxIndex

theorem fillSlots_shape [Target] (cm : Magnitude) :
    ∀ (n : Nat) (items : List (Nat × T)) (slots : List Slot) (k : Nat) (final : List T) (slots' : List Slot)
      (final' : List T), items.length ≤ n → k + items.length ≤ cm.maxCapacity → (∀ s ∈ slots, SlotShape s) →
      fillSlots cm items slots k final = .ok (slots', final') →
      (∀ s ∈ slots', SlotShape s) ∧ slots'.length = slots.length := by
  intro n
  induction n with
  | zero =>
    intro items slots k final slots' final' hn _ hs h
    have : items = [] := List.length_eq_zero_iff.1 (by omega)
    subst this
    simp [fillSlots] at h
    rw [← h.1]; exact ⟨hs, rfl⟩
  | succ n ih =>
    intro items slots k final slots' final' hn hc hs h
    match items with
    | [] =>
      simp [fillSlots] at h
      rw [← h.1]; exact ⟨hs, rfl⟩
    | item :: items =>
      unfold fillSlots at h
      have hl := drainGroup_length item.1 item.2 items final 0
      have hg := drainGroup_spec item.1 item.2 items final 0
      have htw : (items.takeWhile (fun i => i.1 == item.1)).length + (items.dropWhile (fun i => i.1 == item.1)).length =
          items.length := by
        rw [← List.length_append, List.takeWhile_append_dropWhile]
      simp only [List.length_cons] at hn hc
      rw [hg] at h hl
      simp only at h hl
      generalize (items.takeWhile (fun i => i.1 == item.1)) = tw at *
      generalize (items.dropWhile (fun i => i.1 == item.1)) = dw at *
      unfold setIdx at h
      split at h
      · simp only [bind, Except.bind] at h
        have := ih dw _ _ _ slots' final' (by omega) (by omega) ?_ h
        · rw [List.length_set] at this; exact this
        intro s hs'
        rcases List.mem_or_eq_of_mem_set hs' with h1 | h1
        · exact hs s h1
        · right
          subst h1
          simp only [Magnitude.ofNatOrZero]
          rw [if_pos (by omega), if_pos (by omega)]
          omega
      · simp [bind, Except.bind] at h

theorem HashTable.new_shape [Target] {cm : Magnitude} {sort : Sorter T} (hsort : SorterOk sort) {entries : List T}
    {hash : T → Nat} {t : HashTable T} (h : HashTable.new cm sort entries hash = .ok (.ok t)) :
    (∀ s ∈ t.slots, SlotShape s) ∧
      (entries ≠ [] → entries.length < sizeLimit → t.slots.length < 2 * (growth entries.length * entries.length)) := by
  unfold HashTable.new at h
  split at h
  · rename_i hemp
    simp only [Except.ok.injEq] at h
    subst h
    refine ⟨by simp [HashTable.default, SlotShape], fun hne => absurd (by simpa using hemp) hne⟩
  · split at h
    · simp at h
    · rename_i hcap
      simp only [bind, Except.bind] at h
      split at h
      · cases h
      · rename_i r hr
        split at h
        · cases h
        · rename_i prep hp
          split at h
          · cases h
          · rename_i f hf
            split at h
            · cases h
            · have hplen : prep.length = entries.length := by
                by_cases hz : 0 < r.1
                · rw [prepItems_spec hash r.1 hz] at hp
                  cases hp; simp
                · cases he : entries.reverse with
                  | nil => rw [he] at hp; simp [prepItems] at hp; subst hp; simp at he; simp [he]
                  | cons e es =>
                    rw [he] at hp
                    simp [prepItems, cmod, (by omega : r.1 = 0), bind, Except.bind] at hp
              simp only [Except.ok.injEq] at h
              subst h
              obtain ⟨fs, ff⟩ := f
              have hsh := fillSlots_shape cm _ _ _ _ _ _ _ (Nat.le_refl _) ?_ ?_ hf
              · refine ⟨hsh.1, fun hne hsz => ?_⟩
                have h2 := hsh.2
                rw [List.length_replicate] at h2
                obtain ⟨s, c, minK, maxK, e1, ⟨b, hb1, hb2, hb3, _⟩, _, _, e2, _⟩ :=
                  analyzeHashCodes_spec (entries.map hash) (by simpa using hne) (by simpa using hsz)
                rw [hr] at e1
                simp only [Except.ok.injEq] at e1
                subst e1
                simp only at h2 ⊢
                rw [List.length_map] at e2
                have := Nat.pow_le_pow_right (n := 2) (by omega) hb2
                omega
              · rw [List.length_reverse, (hsort.perm prep).length_eq, hplen]; omega
              · intro s hs
                left
                exact (List.mem_replicate.1 hs).2

theorem hasCollisions_go {ss : List Slot} {r : Bool} (h : HashTable.hasCollisions.go ss = .ok r) :
    r = false → ∀ s ∈ ss, s.minIndex ≤ s.maxIndex ∧ s.maxIndex - s.minIndex ≤ 1 := by
  induction ss with
  | nil => simp
  | cons s ss ih =>
    unfold HashTable.hasCollisions.go at h
    simp only [csub, bind, Except.bind] at h
    split at h
    · cases h
    · rename_i d hd
      split at hd
      · simp only [Except.ok.injEq] at hd
        subst hd
        split at h
        · intro hr; cases h; cases hr
        · intro hr s' hs'
          rw [List.mem_cons] at hs'
          rcases hs' with rfl | hs'
          · omega
          · exact ih h hr s' hs'
      · cases hd

theorem hasCollisions_ok {hash : T → Nat} {t : HashTable T} (h : TableOK hash t) : ∃ r, t.hasCollisions = .ok r := by
  have hall : ∀ s ∈ t.slots, s.minIndex ≤ s.maxIndex := by
    intro s hs
    obtain ⟨i, hi, rfl⟩ := List.mem_iff_getElem.1 hs
    exact (h.bucket i hi).1
  unfold HashTable.hasCollisions
  generalize t.slots = sl at hall
  clear h
  induction sl with
  | nil => exact ⟨false, rfl⟩
  | cons s ss ih =>
    unfold HashTable.hasCollisions.go
    simp only [csub, if_pos (hall s List.mem_cons_self), bind, Except.bind]
    split
    · exact ⟨true, rfl⟩
    · exact ih (fun s hs => hall s (List.mem_cons_of_mem _ hs))

/-! ## Collision-free tables -/

/-- Well-formed collision-free table: a slot names the only entry hashed to it, or none. -/
structure TableNCOK (hash : T → Nat) (t : HashTableNC T) : Prop where
  pow : ∃ k, t.slots.length = 2 ^ k ∧ t.mask = 2 ^ k - 1
  slot : ∀ s (h : s < t.slots.length),
    (t.slots[s] = 0 ∧ ∀ e ∈ t.entries, hash e % t.slots.length ≠ s) ∨
    (∃ i e, t.slots[s] = i + 1 ∧ t.entries[i]? = some e ∧ t.entries.filter (fun e => hash e % t.slots.length == s) = [e])

/-- The slot values of a collision-free table. -/
def ncSlot (s : Slot) : Nat := if s.maxIndex == 0 then 0 else s.minIndex + 1

/-- A table without collisions, converted. -/
theorem TableOK.nc {hash : T → Nat} {t : HashTable T} (h : TableOK hash t) (hshape : ∀ s ∈ t.slots, SlotShape s)
    (hc : t.hasCollisions = .ok false) :
    TableNCOK hash { slots := t.slots.map ncSlot, entries := t.entries, mask := t.mask } := by
  have hone := hasCollisions_go hc rfl
  constructor
  · simpa using h.pow
  · intro s hs
    simp only [List.length_map] at hs ⊢
    obtain ⟨h1, h2, h3⟩ := h.bucket s hs
    have hm : t.slots[s] ∈ t.slots := List.getElem_mem hs
    have hsh := hshape _ hm
    have h11 := hone _ hm
    simp only [List.getElem_map]
    generalize t.slots[s] = sl at *
    rcases hsh with rfl | hlt
    · left
      refine ⟨rfl, ?_⟩
      simp only [Nat.sub_self, List.take_zero] at h3
      intro e he heq
      have : e ∈ t.entries.filter (fun e => hash e % t.slots.length == s) := List.mem_filter.2 ⟨he, by simpa using heq⟩
      rw [← h3] at this
      simp at this
    · right
      have hd : sl.maxIndex - sl.minIndex = 1 := by omega
      have hlt2 : sl.minIndex < t.entries.length := by omega
      refine ⟨sl.minIndex, t.entries[sl.minIndex], ?_, List.getElem?_eq_getElem hlt2, ?_⟩
      · unfold ncSlot
        rw [if_neg (by simp; omega)]
      · rw [← h3, hd, List.drop_eq_getElem_cons hlt2]; rfl

/-- The table of the emitted entries. -/
theorem TableOK.map {T' : Type} {hash : T → Nat} {t : HashTable T} (h : TableOK hash t) (f : T → T') (hash' : T' → Nat)
    (hh : ∀ e ∈ t.entries, hash' (f e) = hash e) :
    TableOK hash' { slots := t.slots, entries := t.entries.map f, mask := t.mask } := by
  constructor
  · exact h.pow
  · intro s hs
    obtain ⟨h1, h2, h3⟩ := h.bucket s hs
    refine ⟨h1, by simpa using h2, ?_⟩
    simp only [← List.map_drop, ← List.map_take]
    simp only [h3, List.filter_map]
    congr 1
    apply List.filter_congr
    intro e he
    simp [hh e he]

theorem TableNCOK.map {T' : Type} {hash : T → Nat} {t : HashTableNC T} (h : TableNCOK hash t) (f : T → T')
    (hash' : T' → Nat) (hh : ∀ e ∈ t.entries, hash' (f e) = hash e) :
    TableNCOK hash' { slots := t.slots, entries := t.entries.map f, mask := t.mask } := by
  constructor
  · exact h.pow
  · intro s hs
    rcases h.slot s hs with ⟨h1, h2⟩ | ⟨i, e, h1, h2, h3⟩
    · left
      refine ⟨h1, ?_⟩
      intro e' he'
      obtain ⟨e, he, rfl⟩ := List.mem_map.1 he'
      rw [hh e he]; exact h2 e he
    · right
      refine ⟨i, f e, h1, by simp [h2], ?_⟩
      simp only [List.filter_map]
      rw [show [f e] = [e].map f from rfl, ← h3]
      congr 1
      apply List.filter_congr
      intro e he
      simp [hh e he]

theorem TableNCOK.getSlot {hash : T → Nat} {t : HashTableNC T} (h : TableNCOK hash t) (hashCode : Nat) :
    (getUnchecked t.slots (hashCode &&& t.mask) = .ok 0 ∧
      ∀ e ∈ t.entries, hash e % t.slots.length ≠ hashCode % t.slots.length) ∨
    (∃ i e, getUnchecked t.slots (hashCode &&& t.mask) = .ok (i + 1) ∧ t.entries[i]? = some e ∧
      t.entries.filter (fun e => hash e % t.slots.length == hashCode % t.slots.length) = [e]) := by
  obtain ⟨k, hk, hm⟩ := h.pow
  have hidx : hashCode &&& t.mask = hashCode % t.slots.length := by
    rw [hm, hk, Nat.and_two_pow_sub_one_eq_mod]
  have hlt : hashCode % t.slots.length < t.slots.length := Nat.mod_lt _ (by rw [hk]; exact Nat.pow_pos (by omega))
  rw [hidx, getUnchecked_ok (List.getElem?_eq_getElem hlt)]
  rcases h.slot _ hlt with ⟨h1, h2⟩ | ⟨i, e, h1, h2, h3⟩
  · exact .inl ⟨by rw [h1], h2⟩
  · exact .inr ⟨i, e, by rw [h1], h2, h3⟩

/-- The keys are distinct and the slots are right for the key hash `hk`. -/
def HashMapNC.Inv (eqK : K → K → Bool) (hk : K → Nat) (m : HashMapNC K V) : Prop :=
  TableNCOK (fun e : K × V => hk e.1) m.table ∧ Distinct (entryEq eqK) m.table.entries

theorem HashMapNC.lawful {eqK : K → K → Bool} {mt : Q → K → Bool} {hk : K → Nat} {hq : Q → Nat} {hQ : Q → Res Nat}
    (hmt : LawfulQuery eqK mt) (hh : LawfulHash eqK mt hk hq) (hQok : ∀ q, hQ q = .ok (hq q)) :
    LawfulMap (HashMapNC.impl (V := V) hQ mt) eqK mt (HashMapNC.Inv eqK hk) := by
  refine LawfulMap.of_pos hmt (fun m hm => hm.2) ?_ (fun m _ => rfl) (fun m _ i v => rfl) ?_
  · rintro m ⟨ht, hd⟩ q
    simp only [HashMapNC.impl, HashMapNC.get, HashMapNC.getMut, HashMapNC.getKeyValue, HashMapNC.containsKey, hQok,
      bind, Except.bind, HashTableNC.find, HashTableNC.findMut]
    rcases ht.getSlot (hq q) with ⟨h1, h2⟩ | ⟨i, e, h1, h2, h3⟩
    · left
      simp only [h1]
      refine ⟨by trivial, by trivial, by trivial, by trivial, ?_⟩
      intro e he
      cases hme : mt q e.1 with
      | false => rfl
      | true => exact absurd (congrArg (· % m.table.slots.length) (hh.query q e.1 hme).symm) (h2 e he)
    · have hp : i + 1 > 0 := by omega
      simp only [h1, if_pos hp, Nat.add_sub_cancel, getUnchecked_ok h2]
      by_cases hme : mt q e.1 = true
      · right
        refine ⟨i, e, h2, hme, ?_⟩
        simp [hme]
      · left
        simp only [hme, Bool.false_eq_true, if_false]
        refine ⟨by trivial, by trivial, by trivial, by trivial, ?_⟩
        intro e' he'
        cases hme' : mt q e'.1 with
        | false => rfl
        | true =>
          have hmem : e' ∈ m.table.entries.filter
              (fun e => hk e.1 % m.table.slots.length == hq q % m.table.slots.length) :=
            List.mem_filter.2 ⟨he', by simp [hh.query q e'.1 hme']⟩
          rw [h3] at hmem
          simp at hmem
          rw [hmem] at hme'
          exact absurd hme' hme
  · rintro m ⟨ht, hd⟩ i v
    refine ⟨?_, distinct_writeAt hd i v⟩
    constructor
    · exact ht.pow
    · intro s hs
      simp only [HashMapNC.impl] at hs ⊢
      rcases ht.slot s hs with ⟨h1, h2⟩ | ⟨j, e, h1, h2, h3⟩
      · left
        refine ⟨h1, ?_⟩
        intro e he
        obtain ⟨e', he', hk'⟩ := writeAt_mem_key he
        rw [← hk']; exact h2 e' he'
      · right
        obtain ⟨e', he', hk'⟩ := writeAt_key' i v h2
        refine ⟨j, e', h1, he', ?_⟩
        have hkeys : ((writeAt m.table.entries i v).filter (fun e => hk e.1 % m.table.slots.length == s)).map Prod.fst =
            [e.1] := by
          have fm : ∀ l : List (K × V), (l.filter (fun e => hk e.1 % m.table.slots.length == s)).map Prod.fst =
              (l.map Prod.fst).filter (fun k => hk k % m.table.slots.length == s) := by
            intro l; rw [List.filter_map]; rfl
          rw [fm, writeAt_map_fst, ← fm, h3]; rfl
        have hmem : e' ∈ (writeAt m.table.entries i v).filter (fun e => hk e.1 % m.table.slots.length == s) := by
          refine List.mem_filter.2 ⟨List.mem_of_getElem? he', ?_⟩
          have : e ∈ m.table.entries.filter (fun e => hk e.1 % m.table.slots.length == s) := by rw [h3]; simp
          simpa [hk'] using (List.mem_filter.1 this).2
        generalize (writeAt m.table.entries i v).filter (fun e => hk e.1 % m.table.slots.length == s) = F at *
        cases F with
        | nil => simp at hmem
        | cons x F =>
          cases F with
          | nil => simp at hmem; rw [hmem]
          | cons y F => simp at hkeys

/-! ## All inline maps -/

/-- The representation is right for the queries described by `t`, key equality `eqK` and matching `mt`; for each
representation this includes the laws of the traits it relies on. -/
def InlineRepr.Inv [Target] (t : QueryTraits Q K) (eqK : K → K → Bool) (mt : Q → K → Bool) : InlineRepr K V → Prop
  | .scan s => t.equivalent = mt ∧ ScanMap.Inv eqK s
  | .eytzinger s => ∃ cmp, LawfulCmp cmp ∧ LawfulQueryCmp cmp t.compare ∧ eqK = (fun a b => cmp a b == .eq) ∧
      mt = (fun q k => t.compare q k == .eq) ∧ EytzingerMap.Inv cmp s
  | .dense s => ∃ cmp index, LawfulScalar cmp index ∧ eqK = (fun a b => cmp a b == .eq) ∧
      mt = scalarMatch index t.index ∧ DenseMap.Inv index s
  | .sparse s => ∃ cmp index, LawfulScalar cmp index ∧ eqK = (fun a b => cmp a b == .eq) ∧
      mt = scalarMatch index t.index ∧ SparseMap.Inv index s
  | .hash h s => t.equivalent = mt ∧ ∃ hk hq, LawfulHash eqK mt hk hq ∧ (∀ q, h.hashOne t q = .ok (hq q)) ∧
      HashMap.Inv eqK hk s
  | .hashNC h s => t.equivalent = mt ∧ ∃ hk hq, LawfulHash eqK mt hk hq ∧ (∀ q, h.hashOne t q = .ok (hq q)) ∧
      HashMapNC.Inv eqK hk s

/-- A well-formed inline map. -/
def InlineMap.Inv [Target] (t : QueryTraits Q K) (eqK : K → K → Bool) (mt : Q → K → Bool) (m : InlineMap K V) : Prop :=
  m.sz = m.entries.length ∧ m.repr.Inv t eqK mt

theorem InlineMap.lawful [Target] (t : QueryTraits Q K) {eqK : K → K → Bool} {mt : Q → K → Bool} (hmt : LawfulQuery eqK mt) :
    LawfulMap (InlineMap.impl (V := V) t) eqK mt (InlineMap.Inv t eqK mt) := by
  have key : ∀ m : InlineMap K V, InlineMap.Inv t eqK mt m →
      ((∀ q, m.get t q = .ok ((m.entries.find? (fun e => mt q e.1)).map (fun e => e.2))) ∧
      (∀ q, m.getMut t q = .ok (m.entries.findIdx? (fun e => mt q e.1))) ∧
      (∀ q, m.getKeyValue t q = .ok (m.entries.find? (fun e => mt q e.1))) ∧
      (∀ q, m.containsKey t q = .ok (m.entries.find? (fun e => mt q e.1)).isSome) ∧
      Distinct (entryEq eqK) m.entries) ∧
      (∀ i v, (m.write i v).entries = writeAt m.entries i v) ∧
      (∀ i v, (m.write i v).repr.Inv t eqK mt) := by
    rintro ⟨sz, r⟩ ⟨hsz, h⟩
    cases r with
    | scan s =>
      obtain ⟨he, h⟩ := h
      subst he
      have L := ScanMap.lawful (V := V) hmt
      exact ⟨⟨L.get s h, L.getMut s h, L.getKeyValue s h, L.containsKey s h, L.distinct s h⟩, L.write_entries s h,
        fun i v => ⟨rfl, L.write_inv s h i v⟩⟩
    | eytzinger s =>
      obtain ⟨cmp, hc, hqc, h1, h2, h⟩ := h
      subst h1; subst h2
      have L := EytzingerMap.lawful (V := V) hc hqc
      exact ⟨⟨L.get s h, L.getMut s h, L.getKeyValue s h, L.containsKey s h, L.distinct s h⟩, L.write_entries s h,
        fun i v => ⟨cmp, hc, hqc, rfl, rfl, L.write_inv s h i v⟩⟩
    | dense s =>
      obtain ⟨cmp, index, hs, h1, h2, h⟩ := h
      subst h1; subst h2
      have L := DenseMap.lawful (V := V) hs t.index
      exact ⟨⟨L.get s h, L.getMut s h, L.getKeyValue s h, L.containsKey s h, L.distinct s h⟩, L.write_entries s h,
        fun i v => ⟨cmp, index, hs, rfl, rfl, L.write_inv s h i v⟩⟩
    | sparse s =>
      obtain ⟨cmp, index, hs, h1, h2, h⟩ := h
      subst h1; subst h2
      have L := SparseMap.lawful (V := V) hs t.index
      exact ⟨⟨L.get s h, L.getMut s h, L.getKeyValue s h, L.containsKey s h, L.distinct s h⟩, L.write_entries s h,
        fun i v => ⟨cmp, index, hs, rfl, rfl, L.write_inv s h i v⟩⟩
    | hash hh s =>
      obtain ⟨he, hk, hq, hl, hok, h⟩ := h
      subst he
      have L := HashMap.lawful (V := V) hmt hl hok
      exact ⟨⟨L.get s h, L.getMut s h, L.getKeyValue s h, L.containsKey s h, L.distinct s h⟩, L.write_entries s h,
        fun i v => ⟨rfl, hk, hq, hl, hok, L.write_inv s h i v⟩⟩
    | hashNC hh s =>
      obtain ⟨he, hk, hq, hl, hok, h⟩ := h
      subst he
      have L := HashMapNC.lawful (V := V) hmt hl hok
      exact ⟨⟨L.get s h, L.getMut s h, L.getKeyValue s h, L.containsKey s h, L.distinct s h⟩, L.write_entries s h,
        fun i v => ⟨rfl, hk, hq, hl, hok, L.write_inv s h i v⟩⟩
  exact {
    get := fun m hm => (key m hm).1.1
    getMut := fun m hm => (key m hm).1.2.1
    getKeyValue := fun m hm => (key m hm).1.2.2.1
    containsKey := fun m hm => (key m hm).1.2.2.2.1
    len := fun m hm => hm.1
    distinct := fun m hm => (key m hm).1.2.2.2.2
    write_entries := fun m hm => (key m hm).2.1
    write_inv := fun m hm i v => by
      refine ⟨?_, (key m hm).2.2 i v⟩
      have := (key m hm).2.1 i v
      show m.sz = (m.write i v).entries.length
      rw [this, writeAt_length]; exact hm.1 }

end Frozen.Model
