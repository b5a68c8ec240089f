import Verif.Spec
import Mathlib.Data.List.Basic
import Mathlib.Data.List.Pairwise

/-!
# Helper lemmas on the specification functions `keepLast` and `lastMatch`
-/

namespace Frozen.Spec

variable {α K V Q : Type _}

/-- A predicate is a class of `eq` when the elements equal to a member are exactly the members. -/
def IsClass (eq : α → α → Bool) (p : α → Bool) : Prop :=
  ∀ a b, p a = true → (p b = true ↔ eq a b = true)

theorem LawfulEq'.isClass {eq : α → α → Bool} (h : LawfulEq' eq) (a : α) : IsClass eq (eq a) := by
  intro x y hx
  constructor
  · intro hy; exact h.trans _ _ _ (h.symm _ _ hx) hy
  · intro hy; exact h.trans _ _ _ hx hy

theorem keepLast_sublist (eq : α → α → Bool) (l : List α) : (keepLast eq l).Sublist l := by
  induction l with
  | nil => simp [keepLast]
  | cons x xs ih =>
    unfold keepLast
    split
    · exact ih.cons _
    · exact ih.cons_cons _

theorem filter_keepLast {eq : α → α → Bool} {p : α → Bool} (hp : IsClass eq p) (l : List α) :
    (keepLast eq l).filter p = (l.filter p).getLast?.toList := by
  induction l with
  | nil => simp [keepLast]
  | cons x xs ih =>
    unfold keepLast
    by_cases hx : p x = true
    · have hany : xs.any (eq x) = true ↔ xs.filter p ≠ [] := by
        simp only [List.any_eq_true, ne_eq, List.filter_eq_nil_iff, not_forall]
        constructor
        · rintro ⟨y, hy, he⟩
          exact ⟨y, hy, by simp [(hp x y hx).2 he]⟩
        · rintro ⟨y, hy, he⟩
          exact ⟨y, hy, (hp x y hx).1 (by simpa using he)⟩
      split
      · rename_i h
        rw [hany] at h
        rw [ih, List.filter_cons_of_pos hx, List.getLast?_cons_of_ne_nil h]
      · rename_i h
        rw [hany, not_not] at h
        rw [List.filter_cons_of_pos hx, List.filter_cons_of_pos hx, ih, h]
        simp
    · have hx' : ¬ p x = true := hx
      split
      · rw [ih, List.filter_cons_of_neg hx']
      · rw [List.filter_cons_of_neg hx', List.filter_cons_of_neg hx', ih]

theorem keepLast_distinct {eq : α → α → Bool} (l : List α) : Distinct eq (keepLast eq l) := by
  induction l with
  | nil => simp [keepLast, Distinct]
  | cons x xs ih =>
    unfold keepLast
    split
    · exact ih
    · rename_i h
      unfold Distinct at *
      rw [List.pairwise_cons]
      refine ⟨?_, ih⟩
      intro y hy
      have := (keepLast_sublist eq xs).subset hy
      simp only [List.any_eq_true, not_exists, not_and, Bool.not_eq_true] at h
      exact h y this

theorem keepLast_of_distinct {eq : α → α → Bool} {l : List α} (h : Distinct eq l) : keepLast eq l = l := by
  induction l with
  | nil => rfl
  | cons x xs ih =>
    unfold Distinct at h
    rw [List.pairwise_cons] at h
    unfold keepLast
    have : xs.any (eq x) = false := by
      simpa [List.any_eq_false] using h.1
    simp [this, ih h.2]

/-- Every element is represented among the survivors. -/
theorem exists_mem_keepLast {eq : α → α → Bool} (h : LawfulEq' eq) {l : List α} {x : α} (hx : x ∈ l) :
    ∃ y ∈ keepLast eq l, eq x y = true := by
  have h1 := filter_keepLast (h.isClass x) l
  have hne : l.filter (eq x) ≠ [] := by
    intro he
    rw [List.filter_eq_nil_iff] at he
    exact he x hx (h.refl x)
  obtain ⟨y, hy⟩ : ∃ y, (l.filter (eq x)).getLast? = some y := by
    cases hh : (l.filter (eq x)).getLast? with
    | none => rw [List.getLast?_eq_none_iff] at hh; exact absurd hh hne
    | some y => exact ⟨y, rfl⟩
  rw [hy] at h1
  have : y ∈ (keepLast eq l).filter (eq x) := by rw [h1]; simp
  rw [List.mem_filter] at this
  exact ⟨y, this.1, this.2⟩

theorem perm_of_filter_class {eq : α → α → Bool} (h : LawfulEq' eq) {l₁ l₂ : List α}
    (hf : ∀ a, l₁.filter (eq a) = l₂.filter (eq a)) : l₁.Perm l₂ := by
  classical
  rw [List.perm_iff_count]
  intro a
  have key : ∀ l : List α, l.count a = (l.filter (eq a)).count a := by
    intro l
    rw [List.count_filter (h.refl a)]
  rw [key l₁, key l₂, hf]

/-- Distinct lists meet each class at most once. -/
theorem Distinct.filter_class_length {eq : α → α → Bool} {p : α → Bool} (hp : IsClass eq p)
    {l : List α} (hd : Distinct eq l) : (l.filter p).length ≤ 1 := by
  have h1 : Distinct eq (l.filter p) := List.Pairwise.sublist List.filter_sublist hd
  match hh : l.filter p with
  | [] => simp
  | [_] => simp
  | a :: b :: r =>
    exfalso
    rw [hh] at h1
    unfold Distinct at h1
    rw [List.pairwise_cons] at h1
    have hab := h1.1 b (by simp)
    have ha : p a = true := by
      have : a ∈ l.filter p := by rw [hh]; simp
      exact (List.mem_filter.1 this).2
    have hb : p b = true := by
      have : b ∈ l.filter p := by rw [hh]; simp
      exact (List.mem_filter.1 this).2
    rw [(hp a b ha).1 hb] at hab
    exact absurd hab (by simp)

theorem Distinct.perm {eq : α → α → Bool} (h : LawfulEq' eq) {l₁ l₂ : List α} (hp : l₁.Perm l₂)
    (hd : Distinct eq l₁) : Distinct eq l₂ := by
  unfold Distinct at *
  refine hp.pairwise hd ?_
  intro a b hab
  cases hba : eq b a with
  | false => rfl
  | true => rw [h.symm _ _ hba] at hab; exact absurd hab (by simp)

/-- Stable reordering does not change the survivors, up to order. -/
theorem keepLast_perm_of_filter_class {eq : α → α → Bool} (h : LawfulEq' eq) {l₁ l₂ : List α}
    (hf : ∀ a, l₁.filter (eq a) = l₂.filter (eq a)) : (keepLast eq l₁).Perm (keepLast eq l₂) := by
  apply perm_of_filter_class h
  intro a
  rw [filter_keepLast (h.isClass a), filter_keepLast (h.isClass a), hf]

/-! ### `lastMatch` -/

theorem lastMatch_eq_getLast? (m : Q → K → Bool) (es : List (K × V)) (q : Q) :
    lastMatch m es q = (es.filter (fun e => m q e.1)).getLast? := by
  unfold lastMatch
  suffices ∀ acc, es.foldl (fun acc e => if m q e.1 then some e else acc) acc
      = ((es.filter (fun e => m q e.1)).getLast?).or acc by
    rw [this]; simp
  induction es with
  | nil => intro acc; simp
  | cons e es ih =>
    intro acc
    rw [List.foldl_cons, ih]
    by_cases he : m q e.1 = true
    · rw [List.filter_cons_of_pos (by simpa using he)]
      simp only [he, if_true]
      cases hh : (es.filter (fun e => m q e.1)).getLast? with
      | none =>
        rw [List.getLast?_eq_none_iff] at hh
        simp [hh]
      | some y =>
        have : es.filter (fun e => m q e.1) ≠ [] := by
          intro h0; rw [h0] at hh; simp at hh
        rw [List.getLast?_cons_of_ne_nil this, hh]; simp
    · rw [List.filter_cons_of_neg (by simpa using he)]
      simp [he]

theorem lastMatch_mem {m : Q → K → Bool} {es : List (K × V)} {q : Q} {e : K × V}
    (h : lastMatch m es q = some e) : e ∈ es ∧ m q e.1 = true := by
  rw [lastMatch_eq_getLast?] at h
  have := List.mem_of_getLast? h
  rw [List.mem_filter] at this
  exact ⟨this.1, this.2⟩

theorem lastMatch_eq_none_iff {m : Q → K → Bool} {es : List (K × V)} {q : Q} :
    lastMatch m es q = none ↔ ∀ e ∈ es, m q e.1 = false := by
  rw [lastMatch_eq_getLast?, List.getLast?_eq_none_iff, List.filter_eq_nil_iff]
  simp

/-- Key equality lifted to entries. -/
abbrev entryEq (eqK : K → K → Bool) : K × V → K × V → Bool := fun a b => eqK a.1 b.1

theorem LawfulEq'.entry {eqK : K → K → Bool} (h : LawfulEq' eqK) :
    LawfulEq' (entryEq (V := V) eqK) where
  refl a := h.refl a.1
  symm a b := h.symm a.1 b.1
  trans a b c := h.trans a.1 b.1 c.1

theorem LawfulQuery.entryClass {eqK : K → K → Bool} {m : Q → K → Bool} (h : LawfulQuery eqK m) (q : Q) :
    IsClass (entryEq (V := V) eqK) (fun e => m q e.1) := fun a b ha => h.congr q a.1 b.1 ha

/-- In any arrangement `L` of the survivors, the elements matching `q` are exactly the last match of the input. -/
theorem filter_of_perm_survivors {eqK : K → K → Bool} {m : Q → K → Bool}
    (hq : LawfulQuery eqK m) {L es : List (K × V)} (hp : L.Perm (survivors eqK es)) (q : Q) :
    L.filter (fun e => m q e.1) = (lastMatch m es q).toList := by
  have h1 := hp.filter (fun e => m q e.1)
  unfold survivors at h1
  rw [filter_keepLast (hq.entryClass q), ← lastMatch_eq_getLast?] at h1
  cases hl : lastMatch m es q with
  | none => rw [hl] at h1; simpa using h1
  | some e => rw [hl] at h1; simpa using h1

theorem find?_of_perm_survivors {eqK : K → K → Bool} {m : Q → K → Bool}
    (hq : LawfulQuery eqK m) {L es : List (K × V)} (hp : L.Perm (survivors eqK es)) (q : Q) :
    L.find? (fun e => m q e.1) = lastMatch m es q := by
  rw [← List.head?_filter, filter_of_perm_survivors hq hp]
  cases lastMatch m es q <;> simp

theorem lastMatch_of_perm_survivors {eqK : K → K → Bool} {m : Q → K → Bool}
    (hq : LawfulQuery eqK m) {L es : List (K × V)} (hp : L.Perm (survivors eqK es)) (q : Q) :
    lastMatch m L q = lastMatch m es q := by
  rw [lastMatch_eq_getLast?, filter_of_perm_survivors hq hp]
  cases lastMatch m es q <;> simp

/-- Key equality itself is a lawful query. -/
theorem LawfulEq'.query {eqK : K → K → Bool} (h : LawfulEq' eqK) : LawfulQuery eqK eqK where
  congr q a b hqa := (h.isClass q) a b hqa

end Frozen.Spec
