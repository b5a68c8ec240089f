import Verif.Model.Magnitudes
import Verif.Props.Maps
import Verif.Props.Safety
import Verif.Lemmas.Calls

/-!
# Property theorems: magnitudes written by users (C87)
-/

namespace Frozen.Props

open Frozen Frozen.Spec Frozen.Model

variable {C T K V Q : Type}

/-- What a magnitude must do: every index up to the capacity can be stored and read back, and `ZERO` is zero. -/
structure LawfulMagnitude (mg : MagImpl C) : Prop where
  zero : mg.into mg.zero = 0
  index : ∀ n, n ≤ mg.maxCapacity → ∃ c, mg.tryFrom n = some c ∧ mg.into c = n

/-- The slot of a table of numbers, stored with the magnitude. -/
private def reslot (mg : MagImpl C) (s : Slot) : SlotOf C :=
  if s.maxIndex = 0 then ⟨mg.zero, mg.zero⟩ else ⟨mg.conv s.minIndex, mg.conv s.maxIndex⟩

/-- The table of numbers, stored with the magnitude. -/
private def retable (mg : MagImpl C) (t : HashTable T) : TableOf C T := ⟨t.slots.map (reslot mg), t.entries, t.mask⟩

private theorem large_id [Target] {n : Nat} (h : n ≤ usizeMax) : Magnitude.ofNatOrZero .large n = n := if_pos h

private theorem setIdx_map {A B : Type} (f : A → B) (l : List A) (i : Nat) (v : A) :
    setIdx (l.map f) i (f v) = (setIdx l i v).map (List.map f) := by
  unfold setIdx
  rw [List.length_map]
  split
  · simp [Except.map, List.map_set]
  · rfl

private theorem getUnchecked_map {A B : Type} (f : A → B) (l : List A) (i : Nat) :
    getUnchecked (l.map f) i = (getUnchecked l i).map f := by
  unfold getUnchecked
  rw [List.getElem?_map]
  cases l[i]? <;> rfl

private theorem fillSlotsOf_eq [Target] (mg : MagImpl C) : ∀ (n : Nat) (items : List (Nat × T)) (slots : List Slot) (ei : Nat) (final : List T),
    items.length ≤ n → ei + items.length ≤ usizeMax →
    fillSlotsOf mg items (slots.map (reslot mg)) ei final =
      (fillSlots .large items slots ei final).map (fun p => (p.1.map (reslot mg), p.2)) := by
  intro n
  induction n with
  | zero =>
    intro items slots ei final hl _
    obtain rfl : items = [] := List.eq_nil_of_length_eq_zero (by omega)
    unfold fillSlotsOf fillSlots
    rfl
  | succ n ih =>
    intro items slots ei final hl hm
    cases items with
    | nil => unfold fillSlotsOf fillSlots; rfl
    | cons item items =>
      rw [List.length_cons] at hl hm
      unfold fillSlotsOf fillSlots
      simp only [drainGroup_spec, Nat.zero_add]
      have hsum : (items.takeWhile (fun i => i.1 == item.1)).length + (items.dropWhile (fun i => i.1 == item.1)).length = items.length := by
        rw [← List.length_append, List.takeWhile_append_dropWhile]
      have hle : (items.takeWhile (fun i => i.1 == item.1)).length ≤ items.length := by omega
      rw [large_id (n := ei) (by omega), large_id (n := ei + (1 + (items.takeWhile (fun i => i.1 == item.1)).length)) (by omega)]
      have hs : (⟨mg.conv ei, mg.conv (ei + (1 + (items.takeWhile (fun i => i.1 == item.1)).length))⟩ : SlotOf C) =
          reslot mg ⟨ei, ei + (1 + (items.takeWhile (fun i => i.1 == item.1)).length)⟩ := by
        unfold reslot
        exact (if_neg (show ¬ ei + (1 + (items.takeWhile (fun i => i.1 == item.1)).length) = 0 by omega)).symm
      rw [hs, setIdx_map]
      cases hset : setIdx slots item.1 ⟨ei, ei + (1 + (items.takeWhile (fun i => i.1 == item.1)).length)⟩ with
      | error e => rfl
      | ok slots' =>
        exact ih _ slots' _ _ (by omega) (by omega)

private theorem prepItems_length (hash : T → Nat) (n : Nat) : ∀ (es : List T) {l : List (Nat × T)}, prepItems hash n es = .ok l →
    l.length = es.length
  | [], l, h => by cases h; rfl
  | e :: es, l, h => by
    unfold prepItems at h
    simp only [bind, Except.bind] at h
    cases h1 : cmod (hash e) n with
    | error x => rw [h1] at h; cases h
    | ok s =>
      rw [h1] at h
      simp only at h
      cases h2 : prepItems hash n es with
      | error x => rw [h2] at h; cases h
      | ok r =>
        rw [h2] at h
        cases h
        simp [prepItems_length hash n es h2]

private theorem new_eq [Target] (mg : MagImpl C) {sort : Sorter T} (hsort : SorterOk sort) (es : List T) (hash : T → Nat)
    (hcap : es.length ≤ mg.maxCapacity) (hmax : es.length ≤ usizeMax) :
    TableOf.new mg sort es hash = (HashTable.new .large sort es hash).map (Except.map (retable mg)) := by
  unfold TableOf.new HashTable.new
  cases hes : es.isEmpty with
  | true => simp [TableOf.default, HashTable.default, Except.map, retable, reslot]
  | false =>
    simp only [Bool.false_eq_true, if_false]
    rw [if_neg (by omega), if_neg (by show ¬ _ > usizeMax; omega)]
    simp only [bind, Except.bind]
    cases h1 : analyzeHashCodes (es.map hash) with
    | error e => rfl
    | ok p =>
      simp only
      cases h2 : prepItems hash p.1 es.reverse with
      | error e => rfl
      | ok prep =>
        simp only
        have hrep : List.replicate p.1 (⟨mg.zero, mg.zero⟩ : SlotOf C) = (List.replicate p.1 (⟨0, 0⟩ : Slot)).map (reslot mg) := by
          rw [List.map_replicate]; rfl
        have hlen := prepItems_length hash p.1 _ h2
        have hperm := (hsort.perm prep).length_eq
        rw [hrep, fillSlotsOf_eq mg _ _ _ _ _ (Nat.le_refl _) (by simp; simp at hlen; omega)]
        cases h3 : fillSlots .large (sort prep).reverse (List.replicate p.1 (⟨0, 0⟩ : Slot)) 0 [] with
        | error e => rfl
        | ok q =>
          simp only [Except.map, List.length_map]
          cases h4 : csub q.1.length 1 with
          | error e => rfl
          | ok k => rfl

private theorem new_too_many [Target] (mg : MagImpl C) (sort : Sorter T) (es : List T) (hash : T → Nat) (hcap : mg.maxCapacity < es.length) :
    TableOf.new mg sort es hash = .ok (.error tooManyEntries) := by
  unfold TableOf.new
  cases es with
  | nil => simp at hcap
  | cons e es => rw [if_neg (by simp), if_pos hcap]

private theorem fromDedupped_eq [Target] (mg : MagImpl C) {sort : Sorter (K × V)} (hsort : SorterOk sort) (hK : K → Res Nat) (es : List (K × V))
    (hcap : es.length ≤ mg.maxCapacity) (hmax : es.length ≤ usizeMax) :
    HashMapOf.fromDedupped mg sort hK es =
      (HashMap.fromDedupped .large sort hK es).map (Except.map (fun m => ⟨retable mg m.table⟩)) := by
  unfold HashMapOf.fromDedupped HashMap.fromDedupped
  simp only [bind, Except.bind]
  cases h1 : hashAll hK es with
  | error e => rfl
  | ok u =>
    simp only
    rw [new_eq mg hsort es _ hcap hmax]
    cases h2 : HashTable.new .large sort es (fun e => hashVal hK e.1) with
    | error e => rfl
    | ok r => cases r <;> rfl

private theorem find_eq {mg : MagImpl C} {t : HashTable T}
    (h : ∀ s ∈ t.slots, mg.into (reslot mg s).minIndex = s.minIndex ∧ mg.into (reslot mg s).maxIndex = s.maxIndex) (hc : Nat) (eq : T → Bool) :
    (retable mg t).find mg hc eq = t.find hc eq ∧ (retable mg t).findMut mg hc eq = t.findMut hc eq := by
  unfold TableOf.find HashTable.find TableOf.findMut HashTable.findMut
  simp only [retable, getUnchecked_map, bind, Except.bind]
  cases hg : getUnchecked t.slots (hc &&& t.mask) with
  | error e => exact ⟨rfl, rfl⟩
  | ok s =>
    have hs : s ∈ t.slots := by
      unfold getUnchecked at hg
      cases hx : t.slots[hc &&& t.mask]? with
      | none => rw [hx] at hg; cases hg
      | some s' => rw [hx] at hg; cases hg; exact List.mem_of_getElem? hx
    obtain ⟨h1, h2⟩ := h s hs
    simp only [Except.map, h1, h2]
    exact ⟨rfl, rfl⟩

private theorem lawful_slot {mg : MagImpl C} (hl : LawfulMagnitude mg) {s : Slot} {n : Nat} (hn : n ≤ mg.maxCapacity) (h1 : s.minIndex ≤ s.maxIndex)
    (h2 : s.maxIndex ≤ n) : mg.into (reslot mg s).minIndex = s.minIndex ∧ mg.into (reslot mg s).maxIndex = s.maxIndex := by
  unfold reslot
  split
  · rw [hl.zero]; omega
  · obtain ⟨c, e1, e2⟩ := hl.index s.minIndex (by omega)
    obtain ⟨d, f1, f2⟩ := hl.index s.maxIndex (by omega)
    simp only [MagImpl.conv, e1, f1, Option.getD_some, e2, f2, and_self]

private theorem tableOK_slots {hash : T → Nat} {t : HashTable T} (h : TableOK hash t) {s : Slot} (hs : s ∈ t.slots) :
    s.minIndex ≤ s.maxIndex ∧ s.maxIndex ≤ t.entries.length := by
  obtain ⟨i, hi, rfl⟩ := List.getElem_of_mem hs
  exact ⟨(h.bucket i hi).1, (h.bucket i hi).2.1⟩

/-- **C87** (lawful magnitudes).  With any magnitude whose conversions work up to its capacity, building a hash map succeeds exactly when there are
no more different keys than the capacity, and the map answers every query according to the last matching entry, without undefined behaviour. -/
theorem c87_lawful_partial [Target] {mg : MagImpl C} (hl : LawfulMagnitude mg) {find : HbFind} (hfind : HbFindOk find) {sort : Sorter (K × V)}
    (hsort : SorterOk sort) {eqK : K → K → Bool} (he : LawfulEq' eqK) {mt : Q → K → Bool} (hq : LawfulQuery eqK mt)
    {hK : K → Nat} {hQ : Q → Nat} (hh : LawfulHash eqK mt hK hQ) (es : List (K × V)) (hn : es.length < sizeLimit) {R : List K}
    (hR : Representatives eqK es R) :
    (R.length ≤ mg.maxCapacity → ∃ m, HashMapOf.withHasher mg find sort eqK (bridgeHash hK) es = .ok (.ok m) ∧
      Lookups (HashMapOf.impl mg (bridgeHash hQ) mt) m mt es ∧ Contents (HashMapOf.impl mg (bridgeHash hQ) mt) m eqK es ∧
      MemSafe (HashMapOf.impl mg (bridgeHash hQ) mt) m) ∧
    (mg.maxCapacity < R.length → HashMapOf.withHasher mg find sort eqK (bridgeHash hK) es =
      .ok (.error "too many entries for the selected collection magnitude")) := by
  have hlen : (survivors eqK es).length = R.length := by
    have h1 := (c05_len (Built.scan (es := es) he he.query)).1 R hR
    obtain ⟨h2, h3, h4⟩ := c06_iteration (Built.scan (es := es) he he.query)
    rw [← h4.length_eq, h3, h1]
  have hle : (survivors eqK es).length ≤ es.length := (keepLast_sublist _ es).length_le
  have htc := target_cases
  have hred : ∀ (C' : Type) (mg' : MagImpl C'), HashMapOf.withHasher mg' find sort eqK (bridgeHash hK) es =
      HashMapOf.fromDedupped mg' sort (bridgeHash hK) (survivors eqK es) := by
    intro C' mg'
    unfold HashMapOf.withHasher
    rw [hashAll_ok (hK := bridgeHash hK) (hk := hK) (fun _ => rfl), hashVal_ok (hK := bridgeHash hK) (hk := hK) (fun _ => rfl),
      usingHash_eq_keepLast hfind (eq := fun x y : K × V => eqK x.1 y.1) he.entry (fun a b hab => hh.key _ _ hab)]
    rfl
  have hred' : HashMap.withHasher .large find sort eqK (bridgeHash hK) es =
      HashMap.fromDedupped .large sort (bridgeHash hK) (survivors eqK es) := by
    unfold HashMap.withHasher
    rw [hashAll_ok (hK := bridgeHash hK) (hk := hK) (fun _ => rfl), hashVal_ok (hK := bridgeHash hK) (hk := hK) (fun _ => rfl),
      usingHash_eq_keepLast hfind (eq := fun x y : K × V => eqK x.1 y.1) he.entry (fun a b hab => hh.key _ _ hab)]
    rfl
  constructor
  · intro hcap
    obtain ⟨m, hm, hinv, hperm⟩ := (HashMap.withHasher_spec .large hfind hsort he (hK := bridgeHash hK) (hk := hK) (fun _ => rfl) hh.key es hn).1
      (by show _ ≤ usizeMax; omega)
    have hb : Built eqK mt es (HashMap.impl (bridgeHash hQ) mt) m := Built.hash hfind hsort he hq hh hn hm
    refine ⟨⟨retable mg m.table⟩, ?_, ?_⟩
    · rw [hred, fromDedupped_eq mg hsort _ _ (by omega) (by omega), ← hred', hm]; rfl
    have hf := fun hc eq => find_eq (mg := mg) (t := m.table) (fun s hs => by
      obtain ⟨h1, h2⟩ := tableOK_slots hinv.1 hs
      exact lawful_slot hl (n := m.table.entries.length) (by rw [hperm.length_eq]; omega) h1 h2) hc eq
    have e1 : ∀ q, (HashMapOf.impl mg (bridgeHash hQ) mt).get ⟨retable mg m.table⟩ q = (HashMap.impl (bridgeHash hQ) mt).get m q := by
      intro q
      simp only [HashMapOf.impl, HashMap.impl, HashMapOf.get, HashMap.get, (hf _ _).1]
    have e2 : ∀ q, (HashMapOf.impl mg (bridgeHash hQ) mt).getKeyValue ⟨retable mg m.table⟩ q = (HashMap.impl (bridgeHash hQ) mt).getKeyValue m q := by
      intro q
      simp only [HashMapOf.impl, HashMap.impl, HashMapOf.getKeyValue, HashMap.getKeyValue, (hf _ _).1]
    have e3 : ∀ q, (HashMapOf.impl mg (bridgeHash hQ) mt).containsKey ⟨retable mg m.table⟩ q = (HashMap.impl (bridgeHash hQ) mt).containsKey m q := by
      intro q
      simp only [HashMapOf.impl, HashMap.impl, HashMapOf.containsKey, HashMap.containsKey, HashMapOf.get, HashMap.get, (hf _ _).1]
    have e4 : ∀ q, (HashMapOf.impl mg (bridgeHash hQ) mt).getMut ⟨retable mg m.table⟩ q = (HashMap.impl (bridgeHash hQ) mt).getMut m q := by
      intro q
      simp only [HashMapOf.impl, HashMap.impl, HashMapOf.getMut, HashMap.getMut, (hf _ _).2]
    obtain ⟨_, F⟩ := hb.facts
    have L := F.lookups
    have hs : MemSafe (HashMap.impl (bridgeHash hQ) mt) m := c50_memory_safe (AnyMap.hash hQ mt hsort
      (Nat.lt_of_le_of_lt hle hn) (hred' ▸ hm)) .refl
    refine ⟨⟨fun q => by rw [e1, L.get], fun q => by rw [e2, L.getKeyValue], fun q => by rw [e3, L.containsKey], fun q => ?_⟩, ?_,
      ⟨fun q => by rw [e1]; exact hs.get q, fun q => by rw [e2]; exact hs.getKeyValue q, fun q => by rw [e3]; exact hs.containsKey q,
        fun q => by rw [e4]; exact hs.getMut q, fun q i h => by rw [e4] at h; exact hs.inside q i h⟩⟩
    · rw [e4]; exact L.getMut q
    · have hc := c06_iteration hb
      exact ⟨hc.1.mem, hc.1.distinct⟩
  · intro hcap
    rw [hred]
    unfold HashMapOf.fromDedupped
    rw [hashAll_ok (hK := bridgeHash hK) (hk := hK) (fun _ => rfl)]
    simp only [bind, Except.bind]
    rw [new_too_many mg sort _ _ (by omega)]
    rfl

/-- A table as the queries see it. -/
private def view (mg : MagImpl C) (t : TableOf C T) : HashTable T :=
  ⟨t.slots.map (fun s => ⟨mg.into s.minIndex, mg.into s.maxIndex⟩), t.entries, t.mask⟩

private theorem find_view (mg : MagImpl C) (t : TableOf C T) (hc : Nat) (eq : T → Bool) :
    t.find mg hc eq = (view mg t).find hc eq ∧ t.findMut mg hc eq = (view mg t).findMut hc eq := by
  unfold TableOf.find HashTable.find TableOf.findMut HashTable.findMut
  simp only [view, getUnchecked_map, bind, Except.bind]
  cases hg : getUnchecked t.slots (hc &&& t.mask) with
  | error e => exact ⟨rfl, rfl⟩
  | ok s => exact ⟨rfl, rfl⟩

private theorem view_safe {mg : MagImpl C} {m : HashMapOf C K V} (h : (view mg m.table).Bounded) {hQ : Q → Res Nat} (hh : ∀ q, NoUb (hQ q))
    (mt : Q → K → Bool) : MemSafe (HashMapOf.impl mg hQ mt) m := by
  have key := fun x eq => h.findMut x eq
  have hv := fun x eq => find_view mg m.table x eq
  refine ⟨fun q => ?_, fun q => ?_, fun q => ?_, fun q => ?_, fun q i hi => ?_⟩
  · exact NoUb.bind (hh q) fun x _ => NoUb.bind ((hv x _).1 ▸ (key x _).1) fun _ _ => NoUb.ok _
  · exact NoUb.bind (hh q) fun x _ => NoUb.bind ((hv x _).1 ▸ (key x _).1) fun _ _ => NoUb.ok _
  · exact NoUb.bind (NoUb.bind (hh q) fun x _ => NoUb.bind ((hv x _).1 ▸ (key x _).1) fun _ _ => NoUb.ok _) fun _ _ => NoUb.ok _
  · exact NoUb.bind (hh q) fun x _ => (hv x _).2 ▸ (key x _).2.1
  · change HashMapOf.getMut mg hQ mt m q = .ok (some i) at hi
    unfold HashMapOf.getMut at hi
    cases hx : hQ q with
    | error e => rw [hx] at hi; cases hi
    | ok x =>
      rw [hx] at hi
      simp only [bind, Except.bind, (hv x _).2] at hi
      exact (key x _).2.2 i hi

private theorem fromDedupped_inv [Target] {mg : MagImpl C} {sort : Sorter (K × V)} (hsort : SorterOk sort) {hK : K → Nat} {es : List (K × V)}
    (hn : es.length < sizeLimit) {m : HashMapOf C K V} (h : HashMapOf.fromDedupped mg sort (bridgeHash hK) es = .ok (.ok m)) :
    ∃ m' : HashMap K V, m.table = retable mg m'.table ∧ TableOK (fun e : K × V => hK e.1) m'.table ∧ m'.table.entries.Perm es ∧
      es.length ≤ mg.maxCapacity := by
  have htc := target_cases
  rcases Nat.lt_or_ge mg.maxCapacity es.length with hc | hc
  · unfold HashMapOf.fromDedupped at h
    rw [hashAll_ok (hK := bridgeHash hK) (hk := hK) (fun _ => rfl)] at h
    simp only [bind, Except.bind] at h
    rw [new_too_many mg sort _ _ hc] at h
    cases h
  · rw [fromDedupped_eq mg hsort _ _ hc (by omega)] at h
    cases hm : HashMap.fromDedupped .large sort (bridgeHash hK) es with
    | error e => rw [hm] at h; cases h
    | ok r =>
      cases r with
      | error e => rw [hm] at h; cases h
      | ok m' =>
        rw [hm] at h
        cases h
        obtain ⟨h1, h2, _⟩ := HashMap.fromDedupped_slots hsort (hK := bridgeHash hK) (hk := hK) (fun _ => rfl) hn hm
        exact ⟨m', rfl, h1, h2, hc⟩

/-- **C87** (memory safety, sufficient).  A magnitude that keeps the order of the indices up to the number of entries, without exceeding that
number, is safe with every implementation of the traits of keys and queries: the values it stores need not be right, only ordered and bounded. -/
theorem c87_ordered_safe [Target] {mg : MagImpl C} {sort : Sorter (K × V)} (hsort : SorterOk sort) {hK : K → Nat} {es : List (K × V)}
    (hn : es.length < sizeLimit) {m : HashMapOf C K V} (h : HashMapOf.fromDedupped mg sort (bridgeHash hK) es = .ok (.ok m))
    (hz : mg.into mg.zero ≤ es.length)
    (ho : ∀ a b, a ≤ b → b ≤ es.length →
      mg.into ((mg.tryFrom a).getD mg.zero) ≤ mg.into ((mg.tryFrom b).getD mg.zero) ∧ mg.into ((mg.tryFrom b).getD mg.zero) ≤ es.length)
    (hQ : Q → Nat) (mt : Q → K → Bool) : MemSafe (HashMapOf.impl mg (bridgeHash hQ) mt) m := by
  obtain ⟨m', h1, h2, h3, _⟩ := fromDedupped_inv hsort hn h
  refine view_safe ?_ (fun q => NoUb.ok _) mt
  rw [h1]
  obtain ⟨k, hk, hmask⟩ := h2.pow
  have hpos := Nat.two_pow_pos k
  refine ⟨by simp only [view, retable, List.length_map, hk, hmask]; omega, fun s hs => ?_⟩
  simp only [view, retable, List.mem_map, exists_exists_and_eq_and] at hs
  obtain ⟨s0, hs0, rfl⟩ := hs
  obtain ⟨g1, g2⟩ := tableOK_slots h2 hs0
  have hlen := h3.length_eq
  simp only [view, retable]
  unfold reslot
  split
  · exact ⟨Nat.le_refl _, by show mg.into mg.zero ≤ _; omega⟩
  · obtain ⟨q1, q2⟩ := ho s0.minIndex s0.maxIndex g1 (by omega)
    exact ⟨q1, by show mg.into (mg.conv s0.maxIndex) ≤ _; unfold MagImpl.conv; omega⟩

/-- **C87** (memory safety, exact).  A hash map is safe for all queries that can be hashed to any number exactly when, for every one of its slots,
the indices read back are ordered and not beyond the entries. -/
theorem c87_safe_iff [Target] {mg : MagImpl C} {sort : Sorter (K × V)} (hsort : SorterOk sort) {hK : K → Nat} {es : List (K × V)}
    (hn : es.length < sizeLimit) {m : HashMapOf C K V} (h : HashMapOf.fromDedupped mg sort (bridgeHash hK) es = .ok (.ok m))
    (mt : Nat → K → Bool) :
    MemSafe (HashMapOf.impl mg (bridgeHash (fun q : Nat => q)) mt) m ↔
      ∀ s ∈ m.table.slots, mg.into s.minIndex ≤ mg.into s.maxIndex ∧ mg.into s.maxIndex ≤ es.length := by
  obtain ⟨m', h1, h2, h3, _⟩ := fromDedupped_inv hsort hn h
  obtain ⟨k, hk, hmask⟩ := h2.pow
  have hpos := Nat.two_pow_pos k
  have hlen : m.table.entries.length = es.length := by rw [h1]; exact h3.length_eq
  have hsl : m.table.slots.length = 2 ^ k := by rw [h1]; simpa [retable] using hk
  have hmk : m.table.mask = 2 ^ k - 1 := by rw [h1]; exact hmask
  constructor
  · intro hs s hm
    obtain ⟨i, hi, rfl⟩ := List.getElem_of_mem hm
    apply Classical.byContradiction
    intro hneg
    have := hs.get i "get_unchecked range out of bounds"
    apply this
    show HashMapOf.get mg _ mt m i = _
    have hidx : i &&& m.table.mask = i := by rw [hmk, Nat.and_two_pow_sub_one_eq_mod, Nat.mod_eq_of_lt (by omega)]
    unfold HashMapOf.get bridgeHash TableOf.find
    simp only [bind, Except.bind, hidx, getUnchecked_lt hi, getUncheckedRange]
    rw [if_neg (by rw [hlen]; exact hneg)]
  · intro hs
    refine view_safe ⟨by simp only [view, List.length_map]; omega, fun s hm => ?_⟩ (fun q => NoUb.ok _) mt
    simp only [view, List.mem_map] at hm
    obtain ⟨s0, hs0, rfl⟩ := hm
    exact ⟨(hs s0 hs0).1, by show _ ≤ m.table.entries.length; rw [hlen]; exact (hs s0 hs0).2⟩

/-- A magnitude for two-bit numbers that says it holds four entries: the index after the last entry, 4, does not fit. -/
private def twoBits : MagImpl (Fin 4) := ⟨4, 0, fun n => if h : n < 4 then some ⟨n, h⟩ else none, fun c => c.val⟩

attribute [local instance] w64 in
/-- **C87** (violated).  A magnitude with `MAX_CAPACITY` set to the number of values of its type, written in safe code, gives undefined behaviour:
the end of the last range of entries does not fit, is replaced by zero, and a query reads the range `3..0`. -/
theorem c87_violated : ∃ (mg : MagImpl (Fin 4)) (m : HashMapOf (Fin 4) Nat String),
    mg.maxCapacity = 4 ∧ (∀ n, n < 4 → ∃ c, mg.tryFrom n = some c ∧ mg.into c = n) ∧ mg.into mg.zero = 0 ∧
    HashMapOf.withHasher mg listFind slotSort natEq (bridgeHash (fun k : Nat => k)) [(0, "a"), (1, "b"), (2, "c"), (3, "d")] = .ok (.ok m) ∧
    (HashMapOf.impl mg (bridgeHash (fun k : Nat => k)) natEq).get m 3 = .ok (some "d") ∧
    (∃ q what, (HashMapOf.impl mg (bridgeHash (fun k : Nat => k)) natEq).get m q = .error (.ub what)) := by
  refine ⟨twoBits, ⟨⟨[⟨3, 0⟩, ⟨2, 3⟩, ⟨1, 2⟩, ⟨0, 1⟩], [(3, "d"), (2, "c"), (1, "b"), (0, "a")], 3⟩⟩, rfl, ?_, rfl, ?_, rfl, 0, _, rfl⟩
  · intro n hn
    exact ⟨⟨n, hn⟩, by simp [twoBits, hn], rfl⟩
  · cbv

/-- The magnitude of the crate for `u8` is lawful, and so is the two-bit magnitude with the capacity 3. -/
theorem u8Mag_lawful : LawfulMagnitude u8Mag := by
  refine ⟨rfl, fun n hn => ⟨UInt8.ofNat n, ?_, ?_⟩⟩
  · have : n ≤ 255 := hn
    show (if n < 256 then some (UInt8.ofNat n) else none) = _
    rw [if_pos (by omega)]
  · have : n ≤ 255 := hn
    show (UInt8.ofNat n).toNat = n
    rw [UInt8.toNat_ofNat']
    omega

example : LawfulMagnitude { twoBits with maxCapacity := 3 } := by
  refine ⟨rfl, fun n hn => ?_⟩
  have : n < 4 := by simp only at hn; omega
  exact ⟨⟨n, this⟩, by simp [twoBits, this], rfl⟩

attribute [local instance] w64 in
example : ∃ m, HashMapOf.withHasher u8Mag listFind slotSort natEq (bridgeHash (fun k : Nat => k)) [(3, "a"), (12, "b"), (3, "c")] = .ok (.ok m) ∧
    (HashMapOf.impl u8Mag (bridgeHash (fun k : Nat => k)) natEq).get m 3 = .ok (some "c") ∧
    MemSafe (HashMapOf.impl u8Mag (bridgeHash (fun k : Nat => k)) natEq) m := by
  obtain ⟨m, h1, h2, -, h3⟩ := (c87_lawful_partial u8Mag_lawful listFind_ok (slotSort_ok (T := Nat × String)) natEq_lawful natEq_lawful.query
    (hK := fun k => k) (hQ := fun k => k) ⟨fun a b h => by simpa [natEq] using h, fun a b h => by simpa [natEq] using h⟩
    [(3, "a"), (12, "b"), (3, "c")] (by simp only [List.length_cons, List.length_nil]; have := target_cases; omega)
    (R := [12, 3]) ⟨by unfold Distinct; decide, by decide, by decide⟩).1 (by decide)
  exact ⟨m, h1, (h2.get 3).trans rfl, h3⟩

end Frozen.Props
