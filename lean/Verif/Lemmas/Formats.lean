import Verif.Lemmas.Serde
import Verif.Props.FormatSpec
import Verif.Props.Scalar
import Verif.Props.Sets

/-! # Lemmas about storing collections in a format -/

namespace Frozen.Model

open Frozen Frozen.Spec Frozen.Props

variable {M Q K V T E A B S O : Type}

/-! ## Serializers -/

theorem feed_ok_iff (z : Serializer S O E A) (s : S) (l : List A) (s' : S) : z.feed s l = .ok s' ↔ Accepts z s l s' := by
  induction l generalizing s with
  | nil =>
    constructor
    · intro h
      cases h
      exact .nil
    · intro h
      cases h
      rfl
  | cons a l ih =>
    rw [Serializer.feed]
    constructor
    · intro h
      rcases h1 : z.item s a with e | s1
      · rw [h1] at h; cases h
      · rw [h1] at h
        exact .cons h1 ((ih s1).1 h)
    · intro h
      cases h with
      | cons h1 t =>
        rw [h1]
        exact (ih _).2 t

theorem feed_error_iff (z : Serializer S O E A) (s : S) (l : List A) (e : E) :
    z.feed s l = .error e ↔ ∃ done a r s', l = done ++ a :: r ∧ Accepts z s done s' ∧ z.item s' a = .error e := by
  induction l generalizing s with
  | nil =>
    constructor
    · intro h; cases h
    · rintro ⟨done, a, r, s', h, -⟩
      simp at h
  | cons a l ih =>
    rw [Serializer.feed]
    constructor
    · intro h
      rcases h1 : z.item s a with e' | s1
      · rw [h1] at h
        cases h
        exact ⟨[], a, l, s, rfl, .nil, h1⟩
      · rw [h1] at h
        obtain ⟨done, x, r, s', rfl, h3, h4⟩ := (ih s1).1 h
        exact ⟨a :: done, x, r, s', rfl, .cons h1 h3, h4⟩
    · rintro ⟨done, x, r, s', h2, h3, h4⟩
      cases h3 with
      | nil =>
        simp only [List.nil_append, List.cons.injEq] at h2
        obtain ⟨rfl, rfl⟩ := h2
        rw [h4]
        rfl
      | cons h5 t =>
        simp only [List.cons_append, List.cons.injEq] at h2
        obtain ⟨rfl, rfl⟩ := h2
        rw [h5]
        exact (ih _).2 ⟨_, x, r, s', rfl, t, h4⟩

/-! ## Decoding the items -/

theorem drainNested_ok (v l : List A) : drainNested (E := E) v (l.map fun a => .ok (.ok a)) = .ok (.ok (v ++ l)) := by
  induction l generalizing v with
  | nil => simp [drainNested]
  | cons a l ih => simp [drainNested, ih]

theorem drainNested_error (v l : List A) (e : E) (r : List (Res (Except E A))) :
    drainNested v (l.map (fun a => .ok (.ok a)) ++ .ok (.error e) :: r) = .ok (.error e) := by
  induction l generalizing v with
  | nil => simp [drainNested]
  | cons a l ih => simp [drainNested, ih]

/-- Items that do not panic: either all are decoded, or there is a first error. -/
theorem split_items (l : List (Res (Except E A))) (h : ∀ x ∈ l, ∃ r, x = .ok r) :
    (∃ as : List A, l = as.map fun a => .ok (.ok a)) ∨
      ∃ (as : List A) (e : E) (r : List (Res (Except E A))), l = as.map (fun a => .ok (.ok a)) ++ .ok (.error e) :: r := by
  induction l with
  | nil => exact .inl ⟨[], rfl⟩
  | cons x l ih =>
    obtain ⟨r, rfl⟩ := h x (by simp)
    cases r with
    | error e => exact .inr ⟨[], e, l, rfl⟩
    | ok a =>
      rcases ih fun y hy => h y (by simp [hy]) with ⟨as, rfl⟩ | ⟨as, e, r, rfl⟩
      · exact .inl ⟨a :: as, rfl⟩
      · exact .inr ⟨a :: as, e, r, rfl⟩

theorem visitNested_ok [Target] {size : Nat} {build : List A → Res M} {hint : Option Nat} {l : List A} {m : M}
    (hh : hint.getD 0 * size < allocLimit) (hm : build l = .ok m) :
    visitNested (E := E) size build hint (l.map fun a => .ok (.ok a)) = .ok (.ok m) := by
  simp only [visitNested, vecWithCapacity, if_pos hh, bind, Except.bind, drainNested_ok, List.nil_append, hm]

theorem visitNested_error [Target] {size : Nat} {build : List A → Res M} {hint : Option Nat} {l : List A} {e : E}
    {r : List (Res (Except E A))} (hh : hint.getD 0 * size < allocLimit) :
    visitNested size build hint (l.map (fun a => .ok (.ok a)) ++ .ok (.error e) :: r) = .ok (.error e) := by
  simp only [visitNested, vecWithCapacity, if_pos hh, bind, Except.bind, drainNested_error]

theorem entry_ok_iff (ck : Codec E K) (cv : Codec E V) (p : Doc × Doc) (k : K) (v : V) :
    ck.entry cv p = .ok (.ok (k, v)) ↔ ck.de p.1 = .ok (.ok k) ∧ cv.de p.2 = .ok (.ok v) := by
  unfold Codec.entry
  rcases h1 : ck.de p.1 with f | (e | k')
  · simp [bind, Except.bind]
  · simp [bind, Except.bind]
  · rcases h2 : cv.de p.2 with f | (e | v') <;> simp [bind, Except.bind, h2]

theorem entry_total {ck : Codec E K} {cv : Codec E V} {p : Doc × Doc} {goodK : K → Prop} {goodV : V → Prop}
    (h1 : ∃ r, ck.de p.1 = .ok r ∧ ∀ a, r = .ok a → goodK a) (h2 : ∃ r, cv.de p.2 = .ok r ∧ ∀ a, r = .ok a → goodV a) :
    ∃ r, ck.entry cv p = .ok r ∧ ∀ a, r = .ok a → goodK a.1 ∧ goodV a.2 := by
  obtain ⟨r1, h1, g1⟩ := h1
  obtain ⟨r2, h2, g2⟩ := h2
  unfold Codec.entry
  rw [h1]
  cases r1 with
  | error e => exact ⟨_, rfl, by intro a h; cases h⟩
  | ok k =>
    simp only [bind, Except.bind, h2]
    cases r2 with
    | error e => exact ⟨_, rfl, by intro a h; cases h⟩
    | ok v => exact ⟨_, rfl, by intro a h; cases h; exact ⟨g1 k rfl, g2 v rfl⟩⟩

theorem element_ok_iff (c : Codec E T) (d : Doc) (x : T) : c.element d = .ok (.ok (x, ())) ↔ c.de d = .ok (.ok x) := by
  unfold Codec.element
  rcases h1 : c.de d with f | (e | k') <;> simp [bind, Except.bind]

theorem element_total {c : Codec E T} {d : Doc} {good : T → Prop} (h : ∃ r, c.de d = .ok r ∧ ∀ a, r = .ok a → good a) :
    ∃ r, c.element d = .ok r ∧ ∀ a, r = .ok a → good a.1 := by
  obtain ⟨r, h, g⟩ := h
  unfold Codec.element
  rw [h]
  cases r with
  | error e => exact ⟨_, rfl, by intro a h; cases h⟩
  | ok x => exact ⟨_, rfl, by intro a h; cases h; exact g x rfl⟩

theorem room [Target] {hint : Nat → Option Nat} (hh : ∀ k, (hint k).getD 0 ≤ k) {n size k : Nat} (hk : k < n)
    (hz : n * size ≤ allocLimit) : (hint k).getD 0 * size < allocLimit := by
  have hpos : 0 < allocLimit := by unfold allocLimit; positivity
  have h1 : (hint k).getD 0 * size ≤ k * size := Nat.mul_le_mul_right _ (hh k)
  rcases Nat.eq_zero_or_pos size with rfl | h0
  · simpa using hpos
  · have h2 : k * size < n * size := Nat.mul_lt_mul_of_pos_right hk h0
    omega

/-! ## Lists related item by item -/

theorem forall₂_find {R : A → B → Prop} {p : A → Bool} {q : B → Bool} (hR : ∀ a b, R a b → p a = q b) {l : List A} {l' : List B}
    (h : List.Forall₂ R l l') : Option.Rel R (l.find? p) (l'.find? q) := by
  induction h with
  | nil => exact .none
  | @cons a b l l' hab _ ih =>
    rw [List.find?_cons, List.find?_cons, ← hR a b hab]
    cases p a with
    | true => exact .some hab
    | false => exact ih

theorem forall₂_any {R : A → B → Prop} {p : A → Bool} {q : B → Bool} (hR : ∀ a b, R a b → p a = q b) {l : List A} {l' : List B}
    (h : List.Forall₂ R l l') : l.any p = l'.any q := by
  induction h with
  | nil => rfl
  | @cons a b l l' hab _ ih => rw [List.any_cons, List.any_cons, hR a b hab, ih]

theorem forall₂_distinct {R : A → B → Prop} {eqA : A → A → Bool} {eqB : B → B → Bool}
    (hR : ∀ a b a' b', R a b → R a' b' → eqA a a' = eqB b b') {l : List A} {l' : List B} (h : List.Forall₂ R l l')
    (hd : Distinct eqA l) : Distinct eqB l' := by
  induction h with
  | nil => exact List.Pairwise.nil
  | @cons a b l l' hab hl ih =>
    unfold Distinct at hd ⊢
    rw [List.pairwise_cons] at hd ⊢
    refine ⟨fun b' hb' => ?_, ih hd.2⟩
    obtain ⟨i, hi, rfl⟩ := List.getElem_of_mem hb'
    have hlen := hl.length_eq
    have := (List.forall₂_iff_get.1 hl).2 i (by omega) hi
    exact (hR a b _ _ hab this).symm.trans (hd.1 _ (List.get_mem _ _))

theorem rel_imp {R R' : A → B → Prop} (h : ∀ a b, R a b → R' a b) {x : Option A} {y : Option B} (hr : Option.Rel R x y) :
    Option.Rel R' x y := by
  cases hr with
  | none => exact .none
  | some h1 => exact .some (h _ _ h1)

/-! ## Serializing into documents and back -/

theorem feed_map {ck : Codec E K} {cv : Codec E V} {goodK : K → Prop} {goodV : V → Prop} {sameK : K → K → Prop}
    {sameV : V → V → Prop} (hk : Keeps goodK sameK ck) (hv : Keeps goodV sameV cv) (l : List (K × V))
    (hg : ∀ e ∈ l, goodK e.1 ∧ goodV e.2) (s : List (Doc × Doc)) :
    ∃ (ds : List (Doc × Doc)) (l' : List (K × V)), (ck.mapSerializer cv).feed s l = .ok (s ++ ds) ∧
      ds.map (ck.entry cv) = l'.map (fun e => .ok (.ok e)) ∧
      List.Forall₂ (fun e e' => sameK e.1 e'.1 ∧ sameV e.2 e'.2) l l' ∧ ∀ e ∈ l', goodK e.1 ∧ goodV e.2 := by
  induction l generalizing s with
  | nil => exact ⟨[], [], by simp [Serializer.feed], rfl, .nil, by simp⟩
  | cons e l ih =>
    obtain ⟨g1, g2⟩ := hg e (by simp)
    obtain ⟨d1, h1, k', h2, g3, s1⟩ := hk e.1 g1
    obtain ⟨d2, h3, v', h4, g4, s2⟩ := hv e.2 g2
    obtain ⟨ds, l', h5, h6, h7, h8⟩ := ih (fun e he => hg e (by simp [he])) (s ++ [(d1, d2)])
    refine ⟨(d1, d2) :: ds, (k', v') :: l', ?_, ?_, .cons ⟨s1, s2⟩ h7, ?_⟩
    · rw [Serializer.feed]
      simp only [Codec.mapSerializer, h1, h3, bind, Except.bind] at h5 ⊢
      rw [h5]
      simp
    · rw [List.map_cons, List.map_cons, h6, (entry_ok_iff ck cv (d1, d2) k' v').2 ⟨h2, h4⟩]
    · intro x hx
      rcases List.mem_cons.1 hx with rfl | hx
      · exact ⟨g3, g4⟩
      · exact h8 x hx

theorem feed_seq {c : Codec E T} {good : T → Prop} {same : T → T → Prop} (hk : Keeps good same c) (l : List T)
    (hg : ∀ x ∈ l, good x) (s : List Doc) :
    ∃ (ds : List Doc) (l' : List T), c.seqSerializer.feed s l = .ok (s ++ ds) ∧
      ds.map c.element = (unitEntries l').map (fun e => .ok (.ok e)) ∧ List.Forall₂ same l l' ∧ ∀ x ∈ l', good x := by
  induction l generalizing s with
  | nil => exact ⟨[], [], by simp [Serializer.feed], rfl, .nil, by simp⟩
  | cons x l ih =>
    obtain ⟨d1, h1, x', h2, g3, s1⟩ := hk x (hg x (by simp))
    obtain ⟨ds, l', h5, h6, h7, h8⟩ := ih (fun e he => hg e (by simp [he])) (s ++ [d1])
    refine ⟨d1 :: ds, x' :: l', ?_, ?_, .cons s1 h7, ?_⟩
    · rw [Serializer.feed]
      simp only [Codec.seqSerializer, h1, bind, Except.bind] at h5 ⊢
      rw [h5]
      simp
    · rw [List.map_cons, h6, (element_ok_iff c d1 x').2 h2]
      rfl
    · intro y hy
      rcases List.mem_cons.1 hy with rfl | hy
      · exact g3
      · exact h8 y hy

theorem eq_congr {eqK : K → K → Bool} (he : LawfulEq' eqK) {a b a' b' : K} (h : eqK a b = true) (h' : eqK a' b' = true) :
    eqK a a' = eqK b b' := by
  rw [Bool.eq_iff_iff]
  constructor
  · intro h1
    exact he.trans _ _ _ (he.symm _ _ h) (he.trans _ _ _ h1 h')
  · intro h1
    exact he.trans _ _ _ h (he.trans _ _ _ h1 (he.symm _ _ h'))

theorem query_congr {eqK : K → K → Bool} {mt : Q → K → Bool} (he : LawfulEq' eqK) (hq : LawfulQuery eqK mt) {a b : K}
    (h : eqK a b = true) (q : Q) : mt q a = mt q b := by
  rw [Bool.eq_iff_iff]
  exact ⟨fun h1 => (hq.congr q a b h1).2 h, fun h1 => (hq.congr q b a h1).2 (he.symm _ _ h)⟩

/-- What is needed of a map type: its constructor succeeds on fewer than `n` good entries. -/
def Builds [Target] (n : Nat) (goodK : K → Prop) (eqK : K → K → Bool) (mt : Q → K → Bool) (I : MapImpl M Q K V)
    (build : List (K × V) → Res M) : Prop :=
  ∀ es, es.length < n → (∀ e ∈ es, goodK e.1) → ∃ m, build es = .ok m ∧ Built eqK mt es I m

/-- What is needed of a set type. -/
def BuildsSet [Target] (n : Nat) (good : T → Prop) (eqT : T → T → Bool) (mt : Q → T → Bool) (I : SetImpl M Q T)
    (build : List (T × Unit) → Res M) : Prop :=
  ∀ xs, xs.length < n → (∀ x ∈ xs, good x) → ∃ m, build (unitEntries xs) = .ok m ∧ BuiltSet eqT mt xs I m

theorem goodMap_of_built [Target] {n : Nat} {goodK : K → Prop} {goodV : V → Prop} {eqK : K → K → Bool} {mt : Q → K → Bool}
    {I : MapImpl M Q K V} {es : List (K × V)} {m : M} (hb : Built eqK mt es I m) (hl : es.length < n)
    (hg : ∀ e ∈ es, goodK e.1 ∧ goodV e.2) : GoodMap n goodK goodV eqK mt I m :=
  ⟨⟨es, hb⟩, Nat.lt_of_le_of_lt hb.entries_length hl, fun e he => hg e (hb.entries_mem he)⟩

theorem goodSet_of_built [Target] {n : Nat} {good : T → Prop} {eqT : T → T → Bool} {mt : Q → T → Bool} {I : SetImpl M Q T}
    {xs : List T} {m : M} (hb : BuiltSet eqT mt xs I m) (hl : xs.length < n) (hg : ∀ x ∈ xs, good x) :
    GoodSet n good eqT mt I m :=
  ⟨⟨xs, hb⟩, Nat.lt_of_le_of_lt hb.items_length hl, fun x hx => hg x (hb.items_mem hx)⟩

theorem keeps_map [Target] {n size : Nat} {hint : Nat → Option Nat} (hh : ∀ k, (hint k).getD 0 ≤ k) {inv : E} {goodK : K → Prop}
    {goodV : V → Prop} {sameV : V → V → Prop} {eqK : K → K → Bool} {mt : Q → K → Bool} {I : MapImpl M Q K V}
    {build : List (K × V) → Res M} {ck : Codec E K} {cv : Codec E V} (hz : n * size ≤ allocLimit)
    (hb : Builds n goodK eqK mt I build) (hk : Keeps goodK (fun a b => eqK a b = true) ck) (hv : Keeps goodV sameV cv) :
    Keeps (GoodMap n goodK goodV eqK mt I) (SameValues sameV I) (mapCodec hint inv size build I ck cv) := by
  intro m ⟨⟨es, hbm⟩, hfew, hgood⟩
  obtain ⟨ds, l', h1, h2, h3, h4⟩ := feed_map hk hv (I.iter m).rest hgood []
  have hlen : l'.length < n := h3.length_eq ▸ hfew
  have hds : ds.length = l'.length := by simpa using congrArg List.length h2
  obtain ⟨m', hm', hbm'⟩ := hb l' hlen fun e he => (h4 e he).1
  refine ⟨.map ds, ?_, m', ?_, goodMap_of_built hbm' hlen h4, ?_⟩
  · simp only [mapCodec, MapImpl.serializeTo]
    rw [show (ck.mapSerializer cv).start (some (I.len m)) = .ok [] from rfl]
    simp only [bind, Except.bind, h1]
    rfl
  · simp only [mapCodec, h2]
    exact visitNested_ok (room hh (by omega) hz) hm'
  · obtain ⟨Inv, F⟩ := hbm.facts
    obtain ⟨Inv', F'⟩ := hbm'.facts
    have hd' : Distinct (entryEq eqK) l' :=
      forall₂_distinct (fun a b a' b' h h' => eq_congr F.eq h.1 h'.1) h3 (F.lawful.distinct m F.inv)
    have hs : survivors eqK l' = l' := keepLast_of_distinct hd'
    constructor
    · rw [F.lawful.len m F.inv, F'.lawful.len m' F'.inv, F'.perm.length_eq, hs]
      exact h3.length_eq
    · intro q
      refine ⟨_, _, F.lawful.get m F.inv q, F'.lawful.get m' F'.inv q, ?_⟩
      rw [find?_of_perm_survivors F'.query F'.perm, lastMatch_of_distinct F'.query hd']
      have := forall₂_find (p := fun e : K × V => mt q e.1) (q := fun e : K × V => mt q e.1)
        (fun a b h => query_congr F.eq F.query h.1 q) h3
      rw [show (I.iter m).rest = I.entries m from rfl] at this
      generalize (I.entries m).find? (fun e => mt q e.1) = x at this
      generalize l'.find? (fun e => mt q e.1) = y at this
      cases this with
      | none => exact .none
      | some h => exact .some h.2

theorem reads_map [Target] {n size : Nat} {hint : Nat → Option Nat} (hh : ∀ k, (hint k).getD 0 ≤ k) {inv : E} {goodK : K → Prop}
    {goodV : V → Prop} {eqK : K → K → Bool} {mt : Q → K → Bool} {I : MapImpl M Q K V}
    {build : List (K × V) → Res M} {ck : Codec E K} {cv : Codec E V} (hz : n * size ≤ allocLimit)
    (hb : Builds n goodK eqK mt I build) (hk : Reads n goodK ck) (hv : Reads n goodV cv) :
    Reads n (GoodMap n goodK goodV eqK mt I) (mapCodec hint inv size build I ck cv) := by
  intro d hd
  cases hd with
  | leaf => exact ⟨_, rfl, by intro a h; cases h⟩
  | seq => exact ⟨_, rfl, by intro a h; cases h⟩
  | @map es hl h1 h2 =>
    have key : ∀ p ∈ es, ∃ r, ck.entry cv p = .ok r ∧ ∀ a, r = .ok a → goodK a.1 ∧ goodV a.2 :=
      fun p hp => entry_total (hk _ (h1 p hp)) (hv _ (h2 p hp))
    have hroom := room hh hl hz
    simp only [mapCodec]
    rcases split_items (es.map (ck.entry cv)) (by
        intro x hx
        obtain ⟨p, hp, rfl⟩ := List.mem_map.1 hx
        obtain ⟨r, hr, -⟩ := key p hp
        exact ⟨r, hr⟩) with ⟨as, has⟩ | ⟨as, e, r, has⟩
    · have hg : ∀ a ∈ as, goodK a.1 ∧ goodV a.2 := by
        intro a ha
        have : (Except.ok (Except.ok a) : Res (Except E (K × V))) ∈ es.map (ck.entry cv) := by
          rw [has]; exact List.mem_map.2 ⟨a, ha, rfl⟩
        obtain ⟨p, hp, h3⟩ := List.mem_map.1 this
        obtain ⟨r, hr, hr'⟩ := key p hp
        rw [hr] at h3
        cases h3
        exact hr' a rfl
      have hlen : as.length < n := by
        have := congrArg List.length has
        simp only [List.length_map] at this
        omega
      obtain ⟨m, hm, hbm⟩ := hb as hlen fun a ha => (hg a ha).1
      rw [has, visitNested_ok hroom hm]
      exact ⟨_, rfl, by intro a h; cases h; exact goodMap_of_built hbm hlen hg⟩
    · rw [has, visitNested_error hroom]
      exact ⟨_, rfl, by intro a h; cases h⟩

theorem builtSet_contains_items [Target] {eqT : T → T → Bool} {mt : Q → T → Bool} {xs : List T} {I : SetImpl M Q T} {m : M}
    (hb : BuiltSet eqT mt xs I m) (q : Q) : I.contains m q = .ok ((I.items m).any (mt q)) := by
  obtain ⟨he, hq, hs⟩ := hb.spec
  rw [hs.contains q]
  congr 1
  rw [Bool.eq_iff_iff, List.any_eq_true, List.any_eq_true]
  constructor
  · rintro ⟨x, hx, hxq⟩
    rcases hl : lastOf mt xs q with _ | y
    · have := List.find?_eq_none.1 hl x (by simpa using hx)
      exact absurd hxq this
    · have hy := List.find?_some hl
      refine ⟨y, (hs.mem y).2 ?_, hy⟩
      rw [← hl]
      unfold lastOf
      congr 1
      funext b
      rw [Bool.eq_iff_iff]
      exact (hq.congr q y b hy).symm
  · rintro ⟨x, hx, hxq⟩
    exact ⟨x, hb.items_mem hx, hxq⟩

theorem keeps_set [Target] {n size : Nat} {hint : Nat → Option Nat} (hh : ∀ k, (hint k).getD 0 ≤ k) {inv : E} {good : T → Prop}
    {eqT : T → T → Bool} {mt : Q → T → Bool} {I : SetImpl M Q T} {build : List (T × Unit) → Res M} {c : Codec E T}
    (hz : n * size ≤ allocLimit) (hb : BuildsSet n good eqT mt I build) (hk : Keeps good (fun a b => eqT a b = true) c) :
    Keeps (GoodSet n good eqT mt I) (SameMembers I) (setCodec hint inv size build I c) := by
  intro m ⟨⟨es, hbm⟩, hfew, hgood⟩
  obtain ⟨ds, l', h1, h2, h3, h4⟩ := feed_seq hk (I.items m) hgood []
  have hlen : l'.length < n := h3.length_eq ▸ hfew
  have hds : ds.length = l'.length := by simpa [unitEntries] using congrArg List.length h2
  obtain ⟨m', hm', hbm'⟩ := hb l' hlen h4
  refine ⟨.seq ds, ?_, m', ?_, goodSet_of_built hbm' hlen h4, ?_⟩
  · simp only [setCodec, SetImpl.serializeTo]
    rw [show c.seqSerializer.start (some (I.len m)) = .ok [] from rfl]
    simp only [bind, Except.bind, h1]
    rfl
  · simp only [setCodec, h2]
    exact visitNested_ok (room hh (by omega) hz) hm'
  · obtain ⟨he, hq, hs⟩ := hbm.spec
    have hd' : Distinct eqT l' :=
      forall₂_distinct (R := fun a b => eqT a b = true) (eqA := eqT) (eqB := eqT) (fun (a b a' b' : T) h h' => eq_congr he h h') h3 hs.distinct
    constructor
    · rw [hs.len, c32_len hbm' hd' (fun x hx => ⟨x, hx, he.refl x⟩) (fun x hx => ⟨x, hx, he.refl x⟩)]
      exact h3.length_eq
    · intro q
      rw [builtSet_contains_items hbm, hbm'.spec.2.2.contains q,
        forall₂_any (R := fun a b => eqT a b = true) (p := mt q) (q := mt q) (fun a b h => query_congr he hq h q) h3]

theorem reads_set [Target] {n size : Nat} {hint : Nat → Option Nat} (hh : ∀ k, (hint k).getD 0 ≤ k) {inv : E} {good : T → Prop}
    {eqT : T → T → Bool} {mt : Q → T → Bool} {I : SetImpl M Q T} {build : List (T × Unit) → Res M} {c : Codec E T}
    (hz : n * size ≤ allocLimit) (hb : BuildsSet n good eqT mt I build) (hk : Reads n good c) :
    Reads n (GoodSet n good eqT mt I) (setCodec hint inv size build I c) := by
  intro d hd
  cases hd with
  | leaf => exact ⟨_, rfl, by intro a h; cases h⟩
  | map => exact ⟨_, rfl, by intro a h; cases h⟩
  | @seq ds hl h1 =>
    have key : ∀ p ∈ ds, ∃ r, c.element p = .ok r ∧ ∀ a, r = .ok a → good a.1 := fun p hp => element_total (hk _ (h1 p hp))
    have hroom := room hh hl hz
    simp only [setCodec]
    rcases split_items (ds.map c.element) (by
        intro x hx
        obtain ⟨p, hp, rfl⟩ := List.mem_map.1 hx
        obtain ⟨r, hr, -⟩ := key p hp
        exact ⟨r, hr⟩) with ⟨as, has⟩ | ⟨as, e, r, has⟩
    · have hg : ∀ a ∈ as, good a.1 := by
        intro a ha
        have : (Except.ok (Except.ok a) : Res (Except E (T × Unit))) ∈ ds.map c.element := by
          rw [has]; exact List.mem_map.2 ⟨a, ha, rfl⟩
        obtain ⟨p, hp, h3⟩ := List.mem_map.1 this
        obtain ⟨r, hr, hr'⟩ := key p hp
        rw [hr] at h3
        cases h3
        exact hr' a rfl
      have hlen : (as.map (fun a => a.1)).length < n := by
        have := congrArg List.length has
        simp only [List.length_map] at this ⊢
        omega
      have hg' : ∀ x ∈ as.map (fun a => a.1), good x := by
        intro x hx
        obtain ⟨a, ha, rfl⟩ := List.mem_map.1 hx
        exact hg a ha
      obtain ⟨m, hm, hbm⟩ := hb _ hlen hg'
      have hu : unitEntries (as.map (fun a => a.1)) = as := by
        rw [unitEntries, List.map_map]
        exact List.map_id as
      rw [hu] at hm
      rw [has, visitNested_ok hroom hm]
      exact ⟨_, rfl, by intro a h; cases h; exact goodSet_of_built hbm hlen hg'⟩
    · rw [has, visitNested_error hroom]
      exact ⟨_, rfl, by intro a h; cases h⟩

end Frozen.Model
