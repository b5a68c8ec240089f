import Verif.Lemmas.EffectBuild
import Verif.Lemmas.EffectBuildSafe
import Verif.Props.Effects
import Verif.Props.Dedup

/-!
# Property theorems: constructors that run user code with effects (C93)

The constructors call `Eq`, `Ord`, `Hash` and `Scalar` of the keys.  Here this is code of the user that may read and write state of
the program, and panic.  The constructors hand such code to two libraries, the stable sort and the hash table of hashbrown, which call it
when they like.
-/

namespace Frozen.Props

open Frozen.Spec Frozen.Model

variable {W A M Q K V : Type}

/-- **C93** (functions that may panic).  If the trait functions answer correctly whenever they do not panic, whatever else they do, then every map that a
constructor returns is the right one; and if the entries fit, a constructor panics or returns a map. -/
theorem c93_map_or_panic [Target] {eqK : K → K → Bool} {mt : Q → K → Bool} {es : List (K × V)} {I : MapImpl M Q K V} {x : Eff W A}
    {good : A → Option M} {fits : Prop} (h : ConstructsWith (fun _ x a => PanicsOr x (.ok a)) eqK mt es I x good fits) (w : W) :
    (∀ a m, (x w).1 = .ok a → good a = some m → Built eqK mt es I m ∧ Lookups I m mt es ∧ Contents I m eqK es) ∧
      (fits → Panics (x w).1 ∨ ∃ a m, (x w).1 = .ok a ∧ good a = some m) := by
  obtain ⟨r, h1, h2, h3⟩ := h.pure (relPanicsOr W)
  refine ⟨fun a m ha hm => ?_, fun hf => ?_⟩
  · have hb : Built eqK mt es I m := by
      rcases h1 w with ⟨msg, hp⟩ | hr
      · rw [ha] at hp; cases hp
      · exact h2 a m (hr.symm.trans ha) hm
    obtain ⟨Inv, F⟩ := hb.facts
    exact ⟨hb, F.lookups, F.contents⟩
  · rcases h1 w with hp | hr
    · exact .inl hp
    · obtain ⟨a, m, ha, hm⟩ := h3 hf
      exact .inr ⟨a, m, hr.trans ha, hm⟩

/-- **C93** (functions that do not panic).  If the trait functions answer correctly, whatever they do to the state of the program, and the entries fit, then
the constructor returns the right map, and the same one in every state of the program. -/
theorem c93_same_map [Target] {eqK : K → K → Bool} {mt : Q → K → Bool} {es : List (K × V)} {I : MapImpl M Q K V} {x : Eff W A}
    {good : A → Option M} {fits : Prop} (h : ConstructsWith (fun _ x a => Always x (.ok a)) eqK mt es I x good fits) (hf : fits) :
    ∃ a m, good a = some m ∧ Built eqK mt es I m ∧ Lookups I m mt es ∧ Contents I m eqK es ∧ ∀ w, (x w).1 = .ok a := by
  obtain ⟨r, h1, h2, h3⟩ := h.pure (relAlways W)
  obtain ⟨a, m, ha, hm⟩ := h3 hf
  have hb := h2 a m ha hm
  obtain ⟨Inv, F⟩ := hb.facts
  exact ⟨a, m, hm, hb, F.lookups, F.contents, fun w => (h1 w).trans ha⟩

/-- **C93** (blame).  If the entries fit, a constructor panics exactly if user code panicked in it: the library adds no panic of its own, and swallows none.  In all other
cases it returns the right map.  (`bad` is a mark that panicking user code leaves in the state of the program.) -/
theorem c93_blame [Target] {eqK : K → K → Bool} {mt : Q → K → Bool} {es : List (K × V)} {I : MapImpl M Q K V} {x : Eff W A}
    {good : A → Option M} {fits : Prop} {bad : W → Prop} (h : ConstructsWith (fun _ x a => Marks bad x (.ok a)) eqK mt es I x good fits)
    (hf : fits) (w : W) (hw : ¬ bad w) :
    (bad (x w).2 ∧ Panics (x w).1) ∨
      (¬ bad (x w).2 ∧ ∃ a m, (x w).1 = .ok a ∧ good a = some m ∧ Built eqK mt es I m ∧ Lookups I m mt es ∧ Contents I m eqK es) := by
  obtain ⟨r, h1, h2, h3⟩ := h.pure (relMarks bad)
  obtain ⟨a, m, ha, hm⟩ := h3 hf
  have hb := h2 a m ha hm
  obtain ⟨Inv, F⟩ := hb.facts
  rcases h1 w hw with h | ⟨h, hr⟩
  · exact .inl h
  · exact .inr ⟨h, a, m, hr.trans ha, hm, hb, F.lookups, F.contents⟩

/-- **C93** (memory safety of the constructors).  Whatever the trait functions answer, changing their answers from call to call, writing to the state of the
program and panicking as they like, and whatever the sort and the hash table make of it: no constructor runs into undefined behaviour. -/
theorem c93_constructors_safe [Target] {I : MapImpl M Q K V} {x : Eff W A} {safe : A → Option M} (h : AnyConstructor I x safe) :
    SafeCode x := h.sure.safe

/-- **C93** (memory safety of the results).  The map that comes out of such a constructor, dense scalar maps apart (these are not safe, see C51), can be used
without undefined behaviour, also after stores through references into it. -/
theorem c93_results_safe [Target] {I : MapImpl M Q K V} {x : Eff W A} {safe : A → Option M} (h : AnyConstructor I x safe) {w : W} {a : A}
    (ha : (x w).1 = .ok a) {m m' : M} (hm : safe a = some m) (hw : Stores I m m') : MemSafe I m' :=
  (h.sure w).2 a ha m hm m' hw

/-- **C93** (the whole life of a map).  Let arbitrary trait functions be called by the constructor and, later, by lookups: a lookup in the map that came out,
after any stores into it, runs into no undefined behaviour, and a reference it hands out points at an entry. -/
theorem c93_life_safe [Target] {x : Eff W A} {safe : A → Option M} {wr : M → Nat → V → M} {entries : M → List (K × V)}
    {S : M → Q → Eff W (Option Nat)} (h : AnyLife x safe wr entries S) {w₀ : W} {a : A} (ha : (x w₀).1 = .ok a) {m m' : M} (hm : safe a = some m)
    (hw : Written wr m m') (q : Q) (w : W) :
    NoUb (S m' q w).1 ∧ ∀ i, (S m' q w).1 = .ok (some i) → i < (entries m').length :=
  h.fine ha hm hw q w

/-! ## Cases -/

variable {T R : Type}

/-- Insertion into a sorted list, with the comparisons as questions. -/
def askInsert (x : T) : List T → List T → (List T → Dialog (T × T) Ordering R) → Dialog (T × T) Ordering R
  | pre, [], k => k (pre ++ [x])
  | pre, y :: l, k => .ask (x, y) (fun o => if o = .gt then askInsert x (pre ++ [y]) l k else k (pre ++ x :: y :: l))

def askInsertAll : List T → (List T → Dialog (T × T) Ordering R) → Dialog (T × T) Ordering R
  | [], k => k []
  | x :: l, k => askInsertAll l (fun l' => askInsert x [] l' k)

/-- A stable sort: insertion sort. -/
def askSort : SortBy T := fun l => askInsertAll l (fun l' => .done (.ok l'))

theorem askInsert_answer {cmp : T → T → Ordering} (x : T) (k : List T → Dialog (T × T) Ordering R) (l₂ : List T) (h2 : ∀ b ∈ l₂, cmp x b ≠ .gt) :
    ∀ (l₁ pre : List T), (∀ b ∈ l₁, cmp x b = .gt) →
      (askInsert x pre (l₁ ++ l₂) k).answer (fun p => cmp p.1 p.2) = (k (pre ++ l₁ ++ x :: l₂)).answer (fun p => cmp p.1 p.2)
  | [], pre, _ => by
    cases l₂ with
    | nil => simp [askInsert]
    | cons y l => simp [askInsert, Dialog.answer, h2 y]
  | y :: l₁, pre, h1 => by
    simp only [List.cons_append, askInsert, Dialog.answer, h1 y (by simp), if_true]
    rw [askInsert_answer x k l₂ h2 l₁ (pre ++ [y]) (fun b hb => h1 b (by simp [hb]))]
    simp

theorem askInsertAll_answer {cmp : T → T → Ordering} (hc : LawfulCmp cmp) : ∀ (l : List T) (k : List T → Dialog (T × T) Ordering R),
    (askInsertAll l k).answer (fun p => cmp p.1 p.2) = (k (l.mergeSort (fun x y => cmp x y != .gt))).answer (fun p => cmp p.1 p.2)
  | [], k => by simp [askInsertAll]
  | x :: l, k => by
    have tr : ∀ a b c : T, (cmp a b != .gt) = true → (cmp b c != .gt) = true → (cmp a c != .gt) = true := by
      intro a b c h1 h2
      have := hc.trans a b c (by simpa using h1) (by simpa using h2)
      simpa using this
    have tot : ∀ a b : T, ((cmp a b != .gt) || (cmp b a != .gt)) = true := by
      intro a b
      rw [hc.swap a b]
      cases cmp b a <;> rfl
    obtain ⟨l₁, l₂, e1, e2, h1⟩ := List.mergeSort_cons (le := fun x y => cmp x y != .gt) tr tot x l
    have hs := List.pairwise_mergeSort (le := fun x y => cmp x y != .gt) tr tot (x :: l)
    rw [e1, List.pairwise_append, List.pairwise_cons] at hs
    rw [askInsertAll, askInsertAll_answer hc l, e1, e2]
    have := askInsert_answer (cmp := cmp) x k l₂ (fun b hb => by simpa using hs.2.1.1 b hb) l₁ [] (fun b hb => by simpa using h1 b hb)
    simpa using this

theorem askSort_ok : SortByOk (askSort : SortBy T) := by
  intro cmp hc l
  unfold askSort
  rw [askInsertAll_answer hc]
  rfl

theorem askInsert_ends {P : R → Prop} (x : T) {k : List T → Dialog (T × T) Ordering R} : ∀ (l pre : List T),
    (∀ l', l'.Perm (x :: (pre ++ l)) → AlwaysEnds P (k l')) → AlwaysEnds P (askInsert x pre l k)
  | [], pre, h => h _ (by simp)
  | y :: l, pre, h => by
    intro o
    show AlwaysEnds P (if o = .gt then _ else _)
    split
    · exact askInsert_ends x l (pre ++ [y]) (fun l' hl => h l' (by simpa using hl))
    · exact h _ List.perm_middle

theorem askInsertAll_ends {P : R → Prop} : ∀ (l : List T) (k : List T → Dialog (T × T) Ordering R),
    (∀ l', l'.Perm l → AlwaysEnds P (k l')) → AlwaysEnds P (askInsertAll l k)
  | [], _, h => h _ (List.Perm.refl _)
  | x :: l, _, h => askInsertAll_ends l _ (fun l' hl => askInsert_ends x l' [] (fun l'' hl' => h l'' (hl'.trans (by simpa using hl))))

theorem askSort_safe : SortBySafe (askSort : SortBy T) := fun l =>
  askInsertAll_ends l _ (fun l' hl => .inr ⟨l', rfl, hl⟩)

/-- A hash table that asks for all the stored positions with the hash code, the oldest first. -/
def askTable : HbFindDialog := fun _ tbl h => go ((tbl.filter (fun e => e.1 == h)).map (fun e => e.2))
where
  go : List Nat → Dialog Nat Bool (Option Nat)
    | [] => .done none
    | v :: l => .ask v (fun b => if b then .done (some v) else go l)

theorem askTable_go (p : Nat → Bool) : ∀ l, (askTable.go l).answer p = l.find? p
  | [] => rfl
  | v :: l => by
    unfold askTable.go
    rw [Dialog.answer, List.find?_cons]
    cases p v with
    | true => rfl
    | false => exact askTable_go p l

theorem askTable_ok : HbFindOk askTable.find where
  hit := by
    intro step tbl h p v hv
    unfold HbFindDialog.find askTable at hv
    rw [askTable_go] at hv
    have h1 := List.mem_of_find?_eq_some hv
    simp only [List.mem_map, List.mem_filter] at h1
    obtain ⟨e, ⟨he, -⟩, rfl⟩ := h1
    exact ⟨⟨e.1, he⟩, List.find?_some hv⟩
  miss := by
    intro step tbl h p hv v hm
    unfold HbFindDialog.find askTable at hv
    rw [askTable_go, List.find?_eq_none] at hv
    have := hv v (List.mem_map.2 ⟨(h, v), List.mem_filter.2 ⟨hm, by simp⟩, rfl⟩)
    simpa using this

/-- `Ord` of a key type that counts its calls, and panics in the call number `n`. -/
def callPanics (n : Nat) (a b : Nat) : Eff Nat Ordering := fun c => (if c = n then .error (.panic "cmp") else .ok (natCmp a b), c + 1)

theorem callPanics_honest (n a b : Nat) : PanicsOr (callPanics n a b) (.ok (natCmp a b)) := by
  intro c
  unfold callPanics
  by_cases h : c = n
  · exact .inl ⟨"cmp", by simp [h]⟩
  · exact .inr (by simp [h])

attribute [local instance] w64 in
/-- An ordered map made with a comparison that panics at the third call: started with the counter at zero, there is no map; started later, the map is the right one, with
the last of the values for a key. -/
example :
    (∀ w a m, ((EytzingerMap.newE askSort (callPanics 2) [(2, 'a'), (1, 'b'), (2, 'c')]) w).1 = .ok a → some a = some m →
      Lookups (EytzingerMap.impl natCmp) m (fun q k => natCmp q k == .eq) [(2, 'a'), (1, 'b'), (2, 'c')]) ∧
    (match (EytzingerMap.newE askSort (callPanics 2) [(2, 'a'), (1, 'b'), (2, 'c')] 0) with
      | (.error (.panic _), n) => n = 3
      | _ => False) ∧
    (match (EytzingerMap.newE askSort (callPanics 2) [(2, 'a'), (1, 'b'), (2, 'c')] 3) with
      | (.ok m, n) => (m.entries, n) = ([(2, 'c'), (1, 'b')], 8)
      | _ => False) := by
  refine ⟨fun w a m h1 h2 => ((c93_map_or_panic (ConstructsWith.ordered askSort_ok natCmp_lawful natCmp_query (callPanics_honest 2)) w).1 a m h1 h2).2.1, ?_, ?_⟩
  · cbv
  · cbv

/-- `Hash` of a key type that counts its calls. -/
def countingHash (k : Nat) : Eff Nat Nat := fun c => (.ok (k % 4), c + 1)

/-- `Eq` of a key type that counts its calls. -/
def countingEq (a b : Nat) : Eff Nat Bool := fun c => (.ok (natEq a b), c + 1)

attribute [local instance] w64 in
/-- A hash map made with functions that count: it is the same whatever the counter says. -/
example : ∃ m, (∀ w, (FzHashMap.withHasherE askTable (fun _ tbl => tbl.map (fun e => e.2)) slotSort countingEq countingHash
      [(1, 'a'), (5, 'b'), (1, 'c'), (2, 'd')] w).1 = .ok m) ∧
    Lookups (FzHashMap.impl (fun k => k % 4) natEq) m natEq [(1, 'a'), (5, 'b'), (1, 'c'), (2, 'd')] := by
  obtain ⟨a, m, hm, -, hl, -, hw⟩ := c93_same_map (W := Nat) (Q := Nat) (es := [(1, 'a'), (5, 'b'), (1, 'c'), (2, 'd')])
    (ConstructsWith.fzHash (find := askTable) (rehash := fun _ tbl => tbl.map (fun e => e.2)) (hQ := fun k => k % 4) askTable_ok slotSort_ok
      natEq_lawful (LawfulEq'.query natEq_lawful)
      ⟨fun a b h => by simp only [natEq, beq_iff_eq] at h; rw [h], fun a b h => by simp only [natEq, beq_iff_eq] at h; rw [h]⟩ (by decide)
      (eqE := countingEq) (hE := countingHash) (fun a b w => rfl) (fun a w => rfl)) trivial
  cases hm
  exact ⟨_, hw, hl⟩

/-- `Ord` with a mark for the panic. -/
def callMarks (n : Nat) (a b : Nat) : Eff (Nat × Bool) Ordering := fun w =>
  (if w.1 = n then .error (.panic "cmp") else .ok (natCmp a b), w.1 + 1, w.2 || w.1 == n)

theorem callMarks_marks (n a b : Nat) : Marks (fun w => w.2 = true) (callMarks n a b) (.ok (natCmp a b)) := by
  intro w hw
  unfold callMarks
  by_cases h : w.1 = n
  · exact .inl ⟨by simp [h], "cmp", by simp [h]⟩
  · exact .inr ⟨by simp [h, hw], by simp [h]⟩

attribute [local instance] w64 in
/-- The constructor of an inline map of two entries panics exactly if `Ord` did. -/
example (n : Nat) (w : Nat × Bool) (hw : w.2 = false) (t : QueryTraits Nat Nat) (ht : t.compare = natCmp) :
    let x := InlineMap.eytzingerNewE 2 askSort (callMarks n) [(2, 'a'), (1, 'b'), (2, 'c')] w
    (x.2.2 = true ∧ Panics x.1) ∨ (x.2.2 = false ∧ ∃ m, x.1 = .ok m) := by
  have := c93_blame (W := Nat × Bool) (bad := fun w : Nat × Bool => w.2 = true)
    (ConstructsWith.inlineOrdered (sz := 2) (es := [(2, 'a'), (1, 'b'), (2, 'c')]) (t := t) askSort_ok natCmp_lawful (by rw [ht]; exact natCmp_query)
      (callMarks_marks n)) (by decide) w (by simp [hw])
  rcases this with h | ⟨h1, a, m, h2, -⟩
  · exact .inl h
  · exact .inr ⟨Bool.eq_false_iff.2 h1, a, h2⟩

/-- `Scalar` that gives another index every time, and `Ord` that contradicts itself. -/
def driftingIndex (_ : Nat) : Eff Nat Nat := fun c => (.ok (if c % 3 = 1 then 6 else 2 + c % 3), c + 1)

def fickleOrd (_ _ : Nat) : Eff Nat Ordering := fun c => (if c % 11 = 10 then .error (.panic "cmp") else .ok (if c % 2 = 0 then .gt else .eq), c + 1)

attribute [local instance] w64 in
/-- A sparse map made with them is wrong but safe. -/
example (w : Nat) (m : SparseMap Nat Char) (qindex : Nat → Nat)
    (h : (SparseMap.newE .release askSort fickleOrd driftingIndex [(2, 'a'), (1, 'b'), (9, 'c')] w).1 = .ok m) :
    MemSafe (SparseMap.impl qindex) m :=
  c93_results_safe (AnyConstructor.sparse qindex askSort_safe
    (fun a b w u hu => by unfold fickleOrd at hu; dsimp only at hu; split at hu <;> cases hu) (fun a w u hu => by cases hu)
    (fun a w n hn => by cases hn; show (if w % 3 = 1 then 6 else 2 + w % 3) ≤ 2 ^ 64 - 1; split <;> omega)) h rfl .refl

attribute [local instance] w64 in
/-- So it is if the queries drift as well, after a store. -/
example (w : Nat) (m : SparseMap Nat Char) (q w' : Nat)
    (h : (SparseMap.newE .release askSort fickleOrd driftingIndex [(2, 'a'), (1, 'b'), (9, 'c')] w).1 = .ok m) :
    NoUb (SparseMap.searchE driftingIndex ((SparseMap.impl (Q := Nat) (fun _ => 0)).write m 1 'x') q w').1 :=
  (c93_life_safe (AnyLife.sparse (Q := Nat) (fun qindex => AnyConstructor.sparse qindex askSort_safe
    (fun a b w u hu => by unfold fickleOrd at hu; dsimp only at hu; split at hu <;> cases hu) (fun a w u hu => by cases hu)
    (fun a w n hn => by cases hn; show (if w % 3 = 1 then 6 else 2 + w % 3) ≤ 2 ^ 64 - 1; split <;> omega))
    (fun a w u hu => by cases hu)) h rfl (.write 1 'x' .refl) q w').1

attribute [local instance] w64 in
/-- Such a map does come about, and a panic as well. -/
example : (match SparseMap.newE .release askSort fickleOrd driftingIndex [(2, 'a'), (1, 'b'), (9, 'c')] 1 with
      | (.ok m, _) => (m.min, m.max, m.lookup, m.entries)
      | _ => (0, 0, [], [])) = (2, 6, [2, 0, 1, 0, 0], [(1, 'b'), (9, 'c')]) ∧
    (match SparseMap.newE .release askSort fickleOrd driftingIndex [(2, 'a'), (1, 'b'), (9, 'c')] 7 with
      | (.ok _, _) => (0, "")
      | (.error (.panic msg), n) => (n, msg)
      | (.error (.ub msg), n) => (n, msg)) = (11, "cmp") := by
  constructor
  · cbv
  · cbv

attribute [local instance] w64 in
/-- The same functions in the constructor of a dense map: no undefined behaviour during construction. -/
example (w : Nat) : NoUb (DenseMap.newE .release askSort fickleOrd driftingIndex [(2, 'a'), (1, 'b'), (9, 'c')] w).1 :=
  c93_constructors_safe (K := Nat) (V := Char) (AnyConstructor.dense (fun q : Nat => q) askSort_safe
    (fun a b w u hu => by unfold fickleOrd at hu; dsimp only at hu; split at hu <;> cases hu) (fun a w u hu => by cases hu)) w

end Frozen.Props
