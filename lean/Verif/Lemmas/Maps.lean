import Verif.Model.Maps
import Verif.Lemmas.MapImpl
import Verif.Lemmas.HashTable
import Verif.Lemmas.Eytzinger

/-!
# The five map types are lawful
-/

namespace Frozen.Model

open Frozen.Spec

variable {Q K V : Type}

theorem getUnchecked_ok {α : Type _} {xs : List α} {i : Nat} {x : α} (h : xs[i]? = some x) :
    getUnchecked xs i = .ok x := by
  unfold getUnchecked; rw [h]

theorem idx_ok {α : Type _} {xs : List α} {i : Nat} {x : α} (h : xs[i]? = some x) : idx xs i = .ok x := by
  unfold idx; rw [h]

/-! ## Scan -/

/-- The entries of a scan map have pairwise different keys. -/
def ScanMap.Inv (eqK : K → K → Bool) (m : ScanMap K V) : Prop := Distinct (entryEq eqK) m.entries

theorem foldl_last_match {β : Type} (p : K × V → Bool) (g : K × V → β) (l : List (K × V)) (init : Option β) :
    l.foldl (fun r e => if p e then some (g e) else r) init = ((l.filter p).getLast?.map g).or init := by
  induction l generalizing init with
  | nil => simp
  | cons e l ih =>
    rw [List.foldl_cons, ih]
    by_cases h : p e = true
    · rw [List.filter_cons_of_pos h, if_pos h]
      cases hl : l.filter p with
      | nil => simp
      | cons a as => rw [List.getLast?_cons_cons]; simp [List.getLast?_cons]
    · rw [List.filter_cons_of_neg h, if_neg h]

theorem scanMutLoop_none (eqv : Q → K → Bool) (key : Q) (l : List (K × V)) (i : Nat) (r : Option Nat)
    (h : ∀ e ∈ l, eqv key e.1 = false) : scanMutLoop eqv key l i r = r := by
  induction l generalizing i r with
  | nil => rfl
  | cons e l ih =>
    unfold scanMutLoop
    rw [h e (by simp), ih _ _ (fun e he => h e (by simp [he]))]
    simp

theorem scanMutLoop_some (eqv : Q → K → Bool) (key : Q) (l : List (K × V)) (i : Nat) (r : Option Nat) (j : Nat)
    (e : K × V) (he : l[j]? = some e) (hm : eqv key e.1 = true)
    (hu : ∀ j' e', l[j']? = some e' → eqv key e'.1 = true → j' = j) : scanMutLoop eqv key l i r = some (i + j) := by
  induction l generalizing i r j with
  | nil => simp at he
  | cons x l ih =>
    unfold scanMutLoop
    cases j with
    | zero =>
      simp only [List.getElem?_cons_zero, Option.some.injEq] at he
      subst he
      rw [hm, scanMutLoop_none]
      · simp
      · intro e' he'
        obtain ⟨j', hj'⟩ := List.getElem?_of_mem he'
        cases hc : eqv key e'.1 with
        | false => rfl
        | true => have := hu (j' + 1) e' (by simpa using hj') hc; omega
    | succ j =>
      rw [ih _ _ j (by simpa using he) (fun j' e' h1 h2 => by
        have := hu (j' + 1) e' (by simpa using h1) h2; omega)]
      congr 1; omega

theorem ScanMap.lawful {eqK : K → K → Bool} {mt : Q → K → Bool} (hq : LawfulQuery eqK mt) :
    LawfulMap (ScanMap.impl (V := V) mt) eqK mt (ScanMap.Inv eqK) := by
  refine LawfulMap.of_pos hq (fun m hm => hm) ?_ (fun m _ => rfl) (fun m _ i v => rfl)
    (fun m hm i v => distinct_writeAt hm i v)
  intro m hm q
  have hget : ∀ β (g : K × V → β), m.entries.foldl (fun r e => if mt q e.1 then some (g e) else r) none =
      (m.entries.find? (fun e => mt q e.1)).map g := by
    intro β g
    rw [foldl_last_match (fun e => mt q e.1) g]
    have := Distinct.filter_class_length (hq.entryClass q) hm
    rw [← List.head?_filter]
    generalize m.entries.filter (fun e => mt q e.1) = F at *
    match F with
    | [] => rfl
    | [a] => rfl
    | a :: b :: c => simp at this
  cases hf : m.entries.find? (fun e => mt q e.1) with
  | none =>
    left
    rw [List.find?_eq_none] at hf
    have hn : ∀ e ∈ m.entries, mt q e.1 = false := by simpa using hf
    have hf' := (find_of_none hn).1
    refine ⟨?_, ?_, ?_, ?_, hn⟩
    · simp only [ScanMap.impl, ScanMap.get]; rw [hget _ (fun e => e.2), hf']; rfl
    · simp only [ScanMap.impl, ScanMap.getMut]; rw [scanMutLoop_none _ _ _ _ _ hn]
    · simp only [ScanMap.impl, ScanMap.getKeyValue]; rw [hget _ (fun e => (e.1, e.2)), hf']; rfl
    · simp only [ScanMap.impl, ScanMap.containsKey, ScanMap.get, bind, Except.bind]
      rw [hget _ (fun e => e.2), hf']; rfl
  | some e =>
    right
    have hme : mt q e.1 = true := List.find?_some (p := fun e : K × V => mt q e.1) hf
    obtain ⟨i, hi⟩ := List.getElem?_of_mem (List.mem_of_find?_eq_some hf)
    refine ⟨i, e, hi, hme, ?_, ?_, ?_, ?_⟩
    · simp only [ScanMap.impl, ScanMap.get]; rw [hget _ (fun e => e.2), hf]; rfl
    · simp only [ScanMap.impl, ScanMap.getMut]
      rw [scanMutLoop_some _ _ _ _ _ i e hi hme
        (fun j' e' h1 h2 => Distinct.unique_pos (hq.entryClass q) hm h1 hi h2 hme)]
      simp
    · simp only [ScanMap.impl, ScanMap.getKeyValue]; rw [hget _ (fun e => (e.1, e.2)), hf]; rfl
    · simp only [ScanMap.impl, ScanMap.containsKey, ScanMap.get, bind, Except.bind]
      rw [hget _ (fun e => e.2), hf]; rfl

theorem ScanMap.new_spec {eqK : K → K → Bool} (es : List (K × V)) :
    (ScanMap.new eqK es).entries = survivors eqK es ∧ ScanMap.Inv eqK (ScanMap.new eqK es) := by
  have h : (ScanMap.new eqK es).entries = survivors eqK es := by
    unfold ScanMap.new; rw [usingEq_eq_keepLast]; rfl
  refine ⟨h, ?_⟩
  unfold ScanMap.Inv
  rw [h]
  exact keepLast_distinct _

/-! ## Eytzinger -/

/-- The entries are the Eytzinger layout of a strictly ascending list. -/
def EytzingerMap.Inv [Target] (cmp : K → K → Ordering) (m : EytzingerMap K V) : Prop :=
  ∃ S : List (K × V), eytzingerLayout S = .ok m.entries ∧ S.Pairwise (fun a b => cmp a.1 b.1 = .lt)

theorem eytzingerLayout_writeAt [Target] {S A : List (K × V)} (hA : eytzingerLayout S = .ok A) (i : Nat) (v : V) :
    ∃ S', eytzingerLayout S' = .ok (writeAt A i v) ∧ S'.map Prod.fst = S.map Prod.fst := by
  obtain ⟨A1, h1, hl, hr⟩ := eytzingerLayout_spec S
  rw [hA] at h1; cases h1
  by_cases hi : i < S.length
  · refine ⟨writeAt S (rank S.length i) v, ?_, writeAt_map_fst _ _ _⟩
    obtain ⟨A2, h2, hl2, hr2⟩ := eytzingerLayout_spec (writeAt S (rank S.length i) v)
    rw [writeAt_length] at hl2 hr2
    rw [h2]
    congr 1
    apply List.ext_getElem?
    intro j
    by_cases hj : j < S.length
    · rw [hr2 j hj, writeAt_getElem?, writeAt_getElem?, hr j hj]
      by_cases hij : i = j
      · subst hij; simp
      · rw [if_neg hij, if_neg (fun h => hij (rank_inj hi hj h))]
    · rw [List.getElem?_eq_none (by omega), List.getElem?_eq_none (by rw [writeAt_length]; omega)]
  · refine ⟨S, ?_, rfl⟩
    have : writeAt A i v = A := by
      apply List.ext_getElem?
      intro j
      rw [writeAt_getElem?]
      split
      · rename_i h; subst h
        rw [List.getElem?_eq_none (by omega)]; rfl
      · rfl
    rw [this, hA]

theorem _root_.Frozen.Spec.LawfulQueryCmp.query {cmp : K → K → Ordering} {qcmp : Q → K → Ordering} (h : LawfulQueryCmp cmp qcmp) :
    LawfulQuery (fun a b => cmp a b == .eq) (fun q k => qcmp q k == .eq) where
  congr q a b hqa := by
    have := h.congr q a b (by simpa using hqa)
    simp [this]

theorem Pairwise_lt_distinct {cmp : K → K → Ordering} {S : List (K × V)}
    (h : S.Pairwise (fun a b => cmp a.1 b.1 = .lt)) : Distinct (entryEq (fun a b => cmp a b == .eq)) S := by
  refine h.imp ?_
  intro a b hab
  simp [entryEq, hab]

theorem EytzingerMap.lawful [Target] {cmp : K → K → Ordering} {qcmp : Q → K → Ordering} (hc : LawfulCmp cmp)
    (hqc : LawfulQueryCmp cmp qcmp) :
    LawfulMap (EytzingerMap.impl (V := V) qcmp) (fun a b => cmp a b == .eq) (fun q k => qcmp q k == .eq)
      (EytzingerMap.Inv cmp) := by
  have hdist : ∀ m : EytzingerMap K V, EytzingerMap.Inv cmp m →
      Distinct (entryEq (fun a b => cmp a b == .eq)) m.entries := by
    rintro m ⟨S, hS, hlt⟩
    exact Distinct.perm (LawfulCmp'.eqLawful hc).entry (eytzingerLayout_perm hS).symm (Pairwise_lt_distinct hlt)
  refine LawfulMap.of_pos hqc.query hdist ?_ (fun m _ => rfl) (fun m _ i v => rfl) ?_
  · rintro m ⟨S, hS, hlt⟩ q
    have hspec := eytzingerSearch_spec (f := fun e : K × V => (qcmp q e.1).swap) hS (hlt.imp (by
      intro a b hab
      constructor
      · intro h
        cases hqb : qcmp q b.1 with
        | lt => rw [hqb] at h; simp at h
        | eq =>
          have h1 := hqc.congr q b.1 a.1 hqb
          have h2 := hc.swap b.1 a.1
          rw [hab] at h2
          simp only [h1, h2, Ordering.swap]
        | gt =>
          have h1 := hqc.gt q b.1 a.1 hqb (by rw [hab]; simp)
          simp only [h1, Ordering.swap]
      · intro h
        cases hqa : qcmp q a.1 with
        | lt =>
          have h1 := hqc.lt q a.1 b.1 hqa (by rw [hab]; simp)
          simp only [h1, Ordering.swap]
        | eq =>
          have h1 := hqc.congr q a.1 b.1 hqa
          simp only [h1, hab, Ordering.swap]
        | gt => rw [hqa] at h; simp at h))
    have hbeq : ∀ e : K × V, ((qcmp q e.1).swap == Ordering.eq) = (qcmp q e.1 == .eq) := by
      intro e; cases qcmp q e.1 <;> rfl
    simp only [hbeq] at hspec
    obtain ⟨hfind, hb⟩ := hspec
    cases hs : eytzingerSearchBy m.entries (fun e : K × V => (qcmp q e.1).swap) with
    | none =>
      left
      rw [hs] at hfind
      have hn := List.find?_eq_none.1 hfind.symm
      simp only [EytzingerMap.impl, EytzingerMap.get, EytzingerMap.getMut, EytzingerMap.getKeyValue,
        EytzingerMap.containsKey, hs, bind, Except.bind]
      refine ⟨by trivial, by trivial, by trivial, by trivial, ?_⟩
      intro e he
      have := hn e ((eytzingerLayout_perm hS).mem_iff.1 he)
      simpa using this
    | some i =>
      right
      have hi := hb i hs
      rw [hs] at hfind
      have hg : m.entries[i]? = some m.entries[i] := List.getElem?_eq_getElem hi
      simp only [Option.bind_some, hg] at hfind
      refine ⟨i, m.entries[i], hg, List.find?_some (p := fun e : K × V => qcmp q e.1 == .eq) hfind.symm, ?_⟩
      simp only [EytzingerMap.impl, EytzingerMap.get, EytzingerMap.getMut, EytzingerMap.getKeyValue,
        EytzingerMap.containsKey, hs, bind, Except.bind, getUnchecked_ok hg]
      exact ⟨by trivial, by trivial, by trivial, by trivial⟩
  · rintro m ⟨S, hS, hlt⟩ i v
    obtain ⟨S', h1, h2⟩ := eytzingerLayout_writeAt hS i v
    refine ⟨S', h1, ?_⟩
    rw [← List.pairwise_map (f := Prod.fst) (R := fun a b => cmp a b = .lt)] at hlt ⊢
    rw [h2]; exact hlt

theorem _root_.Frozen.Spec.LawfulCmp.entry {cmp : K → K → Ordering} (h : LawfulCmp cmp) :
    LawfulCmp (fun x y : K × V => cmp x.1 y.1) where
  refl a := h.refl a.1
  swap a b := h.swap a.1 b.1
  trans a b c := h.trans a.1 b.1 c.1

theorem sortedAndDedupped_survivors {cmp : K → K → Ordering} (hc : LawfulCmp cmp) (es : List (K × V)) :
    (sortedAndDedupped es (fun x y => cmp x.1 y.1)).Perm (survivors (fun a b => cmp a b == .eq) es) :=
  sortedAndDedupped_perm hc.entry es

theorem EytzingerMap.new_spec [Target] {cmp : K → K → Ordering} (hc : LawfulCmp cmp) (es : List (K × V)) :
    ∃ m, EytzingerMap.new cmp es = .ok m ∧ EytzingerMap.Inv cmp m ∧
      m.entries.Perm (survivors (fun a b => cmp a b == .eq) es) := by
  unfold EytzingerMap.new EytzingerMap.fromSortedAndDedupped
  obtain ⟨A, hA, _, _⟩ := eytzingerLayout_spec (sortedAndDedupped es (fun x y => cmp x.1 y.1))
  simp only [hA, bind, Except.bind]
  exact ⟨_, rfl, ⟨_, hA, sortedAndDedupped_strict hc.entry es⟩,
    (eytzingerLayout_perm hA).trans (sortedAndDedupped_survivors hc es)⟩

theorem EytzingerMap.default_inv [Target] (cmp : K → K → Ordering) :
    EytzingerMap.Inv cmp (EytzingerMap.default : EytzingerMap K V) := ⟨[], rfl, List.Pairwise.nil⟩

/-! ## Hash -/

theorem window_filter_transfer {α β : Type _} (g : α → β) (p : β → Bool) {l l' : List α} (hg : l'.map g = l.map g)
    (a b : Nat) (h : (l.drop a).take b = l.filter (fun e => p (g e))) :
    (l'.drop a).take b = l'.filter (fun e => p (g e)) := by
  have split : ∀ l : List α, l = l.take a ++ ((l.drop a).take b ++ (l.drop a).drop b) := by
    intro l; rw [List.take_append_drop, List.take_append_drop]
  have all : ∀ e ∈ (l.drop a).take b, p (g e) = true := by
    rw [h]; intro e he; exact (List.mem_filter.1 he).2
  have hfl : ((l.drop a).take b).filter (fun e => p (g e)) = (l.drop a).take b := List.filter_eq_self.2 all
  have hlen : ((l.drop a).take b).length = ((l.take a).filter (fun e => p (g e))).length +
      (((l.drop a).take b).length + (((l.drop a).drop b).filter (fun e => p (g e))).length) := by
    conv => lhs; rw [h, split l]
    rw [List.filter_append, List.filter_append, hfl, List.length_append, List.length_append]
  have h0 : (l.take a).filter (fun e => p (g e)) = [] := List.length_eq_zero_iff.1 (by omega)
  have h1 : ((l.drop a).drop b).filter (fun e => p (g e)) = [] := List.length_eq_zero_iff.1 (by omega)
  -- the same three facts for `l'`
  have fm : ∀ l : List α, (l.filter (fun e => p (g e))).map g = (l.map g).filter p := by
    intro l; rw [List.filter_map]; rfl
  have e0 : (l'.take a).filter (fun e => p (g e)) = [] := by
    rw [← List.map_eq_nil_iff (f := g), fm, List.map_take, hg, ← List.map_take, ← fm, h0]; rfl
  have e1 : ((l'.drop a).drop b).filter (fun e => p (g e)) = [] := by
    rw [← List.map_eq_nil_iff (f := g), fm, List.map_drop, List.map_drop, hg, ← List.map_drop, ← List.map_drop, ← fm, h1]
    rfl
  have e2 : ((l'.drop a).take b).filter (fun e => p (g e)) = (l'.drop a).take b := by
    rw [List.filter_eq_self]
    intro e he
    have : g e ∈ ((l'.drop a).take b).map g := List.mem_map_of_mem he
    rw [List.map_take, List.map_drop, hg, ← List.map_drop, ← List.map_take] at this
    obtain ⟨e', he', hee⟩ := List.mem_map.1 this
    rw [← hee]; exact all e' he'
  conv => rhs; rw [split l']
  rw [List.filter_append, List.filter_append, e0, e1, e2]
  simp

/-- The table buckets are right for the key hash `hk`, and keys are pairwise different. -/
def HashMap.Inv (eqK : K → K → Bool) (hk : K → Nat) (m : HashMap K V) : Prop :=
  TableOK (fun e : K × V => hk e.1) m.table ∧ Distinct (entryEq eqK) m.table.entries

theorem HashMap.lawful {eqK : K → K → Bool} {mt : Q → K → Bool} {hk : K → Nat} {hq : Q → Nat} {hQ : Q → Res Nat}
    (hmt : LawfulQuery eqK mt) (hh : LawfulHash eqK mt hk hq) (hQok : ∀ q, hQ q = .ok (hq q)) :
    LawfulMap (HashMap.impl (V := V) hQ mt) eqK mt (HashMap.Inv eqK hk) := by
  refine LawfulMap.of_pos hmt (fun m hm => hm.2) ?_ (fun m _ => rfl) (fun m _ i v => rfl) ?_
  · rintro m ⟨ht, hd⟩ q
    have hb : (m.table.bucketOf (fun e : K × V => hk e.1) (hq q)).find? (fun e => mt q e.1) =
        m.table.entries.find? (fun e => mt q e.1) := by
      unfold HashTable.bucketOf
      rw [List.find?_filter]
      congr 1
      funext e
      cases hme : mt q e.1 with
      | false => simp
      | true => simp [hh.query q e.1 hme]
    have hf := HashTable.find_spec ht (hq q) (fun e : K × V => mt q e.1)
    have hfm := HashTable.findMut_spec ht (hq q) (fun e : K × V => mt q e.1)
    rw [hb] at hf
    simp only [hb] at hfm
    simp only [HashMap.impl, HashMap.get, HashMap.getMut, HashMap.getKeyValue, HashMap.containsKey, hQok, bind,
      Except.bind, hf]
    rcases hfm with ⟨h1, h2⟩ | ⟨i, e, h1, h2, h3⟩
    · left
      rw [h2]
      refine ⟨rfl, h1, rfl, rfl, ?_⟩
      have := List.find?_eq_none.1 h2
      simpa using this
    · right
      rw [h3]
      exact ⟨i, e, h2, List.find?_some (p := fun e : K × V => mt q e.1) h3, rfl, h1, rfl, rfl⟩
  · rintro m ⟨ht, hd⟩ i v
    refine ⟨?_, distinct_writeAt hd i v⟩
    constructor
    · exact ht.pow
    · intro s hs
      obtain ⟨h1, h2, h3⟩ := ht.bucket s hs
      refine ⟨h1, ?_, ?_⟩
      · simp only [HashMap.impl, writeAt_length]; exact h2
      · exact window_filter_transfer Prod.fst (fun k => hk k % m.table.slots.length == s) (writeAt_map_fst _ _ _) _ _ h3

theorem hashAll_ok {hK : K → Res Nat} {hk : K → Nat} (h : ∀ k, hK k = .ok (hk k)) (es : List (K × V)) :
    hashAll hK es = .ok () := by
  induction es with
  | nil => rfl
  | cons e es ih => simp only [hashAll, h, bind, Except.bind, ih]

theorem hashVal_ok {hK : K → Res Nat} {hk : K → Nat} (h : ∀ k, hK k = .ok (hk k)) : hashVal hK = hk := by
  funext k; unfold hashVal; rw [h]

theorem HashMap.fromDedupped_spec [Target] (cm : Magnitude) {sort : Sorter (K × V)} (hsort : SorterOk sort)
    {eqK : K → K → Bool} (he : LawfulEq' eqK) {hK : K → Res Nat} {hk : K → Nat} (hKok : ∀ k, hK k = .ok (hk k))
    {es : List (K × V)} (hd : Distinct (entryEq eqK) es) (hsz : es.length < sizeLimit) :
    (es.length ≤ cm.maxCapacity → ∃ m, HashMap.fromDedupped cm sort hK es = .ok (.ok m) ∧ HashMap.Inv eqK hk m ∧
      m.table.entries.Perm es) ∧
    (cm.maxCapacity < es.length → HashMap.fromDedupped cm sort hK es = .ok (.error tooManyEntries)) := by
  obtain ⟨h1, h2⟩ := HashTable.new_spec cm hsort es (fun e : K × V => hk e.1) hsz
  unfold HashMap.fromDedupped
  rw [hashAll_ok hKok, hashVal_ok hKok]
  simp only [bind, Except.bind]
  constructor
  · intro hle
    obtain ⟨t, ht, hok, hp, _⟩ := h1 hle
    rw [ht]
    exact ⟨⟨t⟩, rfl, ⟨hok, Distinct.perm he.entry hp.symm hd⟩, hp⟩
  · intro hlt
    rw [h2 hlt]

theorem HashMap.withHasher_spec [Target] (cm : Magnitude) {find : HbFind} (hfind : HbFindOk find) {sort : Sorter (K × V)}
    (hsort : SorterOk sort) {eqK : K → K → Bool} (he : LawfulEq' eqK) {hK : K → Res Nat} {hk : K → Nat}
    (hKok : ∀ k, hK k = .ok (hk k)) (hh : ∀ a b, eqK a b = true → hk a = hk b) (es : List (K × V))
    (hsz : es.length < sizeLimit) :
    ((survivors eqK es).length ≤ cm.maxCapacity → ∃ m, HashMap.withHasher cm find sort eqK hK es = .ok (.ok m) ∧
      HashMap.Inv eqK hk m ∧ m.table.entries.Perm (survivors eqK es)) ∧
    (cm.maxCapacity < (survivors eqK es).length →
      HashMap.withHasher cm find sort eqK hK es = .ok (.error tooManyEntries)) := by
  unfold HashMap.withHasher
  rw [hashAll_ok hKok, hashVal_ok hKok,
    usingHash_eq_keepLast hfind (eq := fun x y : K × V => eqK x.1 y.1) he.entry (fun a b hab => hh _ _ hab)]
  simp only [bind, Except.bind]
  have hlen : (survivors eqK es).length ≤ es.length := (keepLast_sublist _ es).length_le
  exact HashMap.fromDedupped_spec cm hsort he hKok (keepLast_distinct _) (Nat.lt_of_le_of_lt hlen hsz)

theorem HashMap.default_inv (eqK : K → K → Bool) (hk : K → Nat) :
    HashMap.Inv eqK hk (HashMap.default : HashMap K V) :=
  ⟨default_tableOK _, List.Pairwise.nil⟩

/-! ## Scalars -/

theorem _root_.Frozen.Spec.LawfulScalar.eq_iff [Target] {cmp : K → K → Ordering} {index : K → Nat} (h : LawfulScalar cmp index) (a b : K) :
    (cmp a b == .eq) = (index a == index b) := by
  rw [h.cmp, Bool.eq_iff_iff]
  simp

theorem _root_.Frozen.Spec.LawfulScalar.lawfulCmp [Target] {cmp : K → K → Ordering} {index : K → Nat} (h : LawfulScalar cmp index) :
    LawfulCmp cmp where
  refl a := by rw [h.cmp]; simp
  swap a b := by rw [h.cmp, h.cmp, Nat.compare_swap]
  trans a b c h1 h2 := by
    rw [h.cmp] at *
    rw [Ne, Nat.compare_eq_gt] at *
    omega

theorem _root_.Frozen.Spec.LawfulScalar.query [Target] {cmp : K → K → Ordering} {index : K → Nat} (h : LawfulScalar cmp index) (qindex : Q → Nat) :
    LawfulQuery (fun a b => cmp a b == .eq) (scalarMatch index qindex) where
  congr q a b hqa := by
    rw [h.eq_iff]
    simp only [scalarMatch, beq_iff_eq] at *
    rw [hqa]

/-! ## Dense -/

/-- The `i`-th entry has index `min + i`, and the entries fill the range `min..=max`. -/
structure DenseMap.Inv (index : K → Nat) (m : DenseMap K V) : Prop where
  key : ∀ i e, m.entries[i]? = some e → index e.1 = m.min + i
  len : m.entries.length = m.max + 1 - m.min

theorem DenseMap.lawful [Target] {cmp : K → K → Ordering} {index : K → Nat} (h : LawfulScalar cmp index) (qindex : Q → Nat) :
    LawfulMap (DenseMap.impl (V := V) qindex) (fun a b => cmp a b == .eq) (scalarMatch index qindex)
      (DenseMap.Inv index) := by
  refine LawfulMap.of_pos (h.query qindex) ?_ ?_ (fun m _ => rfl) (fun m _ i v => rfl) ?_
  · intro m hm
    unfold Distinct
    rw [List.pairwise_iff_getElem]
    intro i j hi hj hij
    have h1 := hm.key i _ (List.getElem?_eq_getElem hi)
    have h2 := hm.key j _ (List.getElem?_eq_getElem hj)
    simp only [DenseMap.impl] at *
    simp only [entryEq]
    rw [h.eq_iff, h1, h2]
    simp; omega
  · intro m hm q
    simp only [DenseMap.impl, DenseMap.get, DenseMap.getMut, DenseMap.getKeyValue, DenseMap.containsKey]
    by_cases hr : qindex q ≥ m.min ∧ qindex q ≤ m.max
    · right
      have hlt : qindex q - m.min < m.entries.length := by rw [hm.len]; omega
      have hg : m.entries[qindex q - m.min]? = some m.entries[qindex q - m.min] := List.getElem?_eq_getElem hlt
      refine ⟨qindex q - m.min, m.entries[qindex q - m.min], hg, ?_, ?_⟩
      · have := hm.key _ _ hg
        simp only [scalarMatch, this, beq_iff_eq]; omega
      · simp only [if_pos hr, getUnchecked_ok hg, bind, Except.bind]
        exact ⟨by trivial, by trivial, by trivial, by trivial⟩
    · left
      simp only [if_neg hr, bind, Except.bind]
      refine ⟨by trivial, by trivial, by trivial, by trivial, ?_⟩
      intro e he
      obtain ⟨i, hi⟩ := List.getElem?_of_mem he
      have h1 := hm.key i e hi
      have h2 := (List.getElem?_eq_some_iff.1 hi).1
      have h3 := hm.len
      simp only [scalarMatch, beq_eq_false_iff_ne]
      omega
  · intro m hm i v
    constructor
    · intro j e hj
      obtain ⟨e', he', hk⟩ := writeAt_key hj
      rw [← hk]
      exact hm.key j e' he'
    · simpa [DenseMap.impl] using hm.len

theorem DenseMap.default_inv (index : K → Nat) : DenseMap.Inv index (DenseMap.default : DenseMap K V) where
  key := by intro i e h; simp [DenseMap.default] at h
  len := rfl

/-! ### Strictly ascending index lists -/

theorem ascending_ge {l : List Nat} (h : l.Pairwise (· < ·)) (i j : Nat) (hij : i ≤ j) (hj : j < l.length) :
    l[i]'(by omega) + (j - i) ≤ l[j] := by
  induction j with
  | zero =>
    have : i = 0 := by omega
    subst this; simp
  | succ j ih =>
    by_cases hc : i = j + 1
    · subst hc; simp
    · have h1 := ih (by omega) (by omega)
      have h2 := List.pairwise_iff_getElem.1 h j (j + 1) (by omega) hj (by omega)
      omega

theorem index_ascending [Target] {cmp : K → K → Ordering} {index : K → Nat} (h : LawfulScalar cmp index) {S : List (K × V)}
    (hs : S.Pairwise (fun a b => cmp a.1 b.1 = .lt)) : (S.map (fun e => index e.1)).Pairwise (· < ·) := by
  rw [List.pairwise_map]
  refine hs.imp ?_
  intro a b hab
  rw [h.cmp, Nat.compare_eq_lt] at hab
  exact hab

/-- First and last entries of a strictly ascending non-empty list, and the bounds they give. -/
theorem ascending_ends [Target] {cmp : K → K → Ordering} {index : K → Nat} (h : LawfulScalar cmp index) {S : List (K × V)}
    (hs : S.Pairwise (fun a b => cmp a.1 b.1 = .lt)) (hne : S ≠ []) :
    ∃ f l, S[0]? = some f ∧ S[S.length - 1]? = some l ∧ index f.1 + (S.length - 1) ≤ index l.1 ∧
      (∀ i e, S[i]? = some e → index f.1 + i ≤ index e.1 ∧ index e.1 + (S.length - 1 - i) ≤ index l.1) := by
  have hlen : 0 < S.length := List.length_pos_iff.2 hne
  have ha := index_ascending h hs
  refine ⟨S[0], S[S.length - 1], List.getElem?_eq_getElem hlen, List.getElem?_eq_getElem (by omega), ?_, ?_⟩
  · have := ascending_ge ha 0 (S.length - 1) (by omega) (by simp; omega)
    simpa using this
  · intro i e he
    obtain ⟨hi, rfl⟩ := List.getElem?_eq_some_iff.1 he
    have h1 := ascending_ge ha 0 i (by omega) (by simpa using hi)
    have h2 := ascending_ge ha i (S.length - 1) (by omega) (by simp; omega)
    simp only [List.getElem_map] at h1 h2
    omega

end Frozen.Model
