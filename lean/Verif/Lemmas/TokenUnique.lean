import Verif.Props.ReadSpec
import Verif.Lemmas.WellTyped

/-!
# Lemmas: the tokens of an expansion can be read in only one way
-/

namespace Frozen.Props

open Frozen.Spec Frozen.Model

variable {K V F : Type} {U : List Tk → Prop}

/-! ## Brackets -/

theorem angleScan_append : ∀ (a b : List Tk) (s : Nat × Bool), angleScan s (a ++ b) = (angleScan s a).bind (fun s => angleScan s b)
  | [], _, _ => rfl
  | t :: a, b, s => by
    rw [List.cons_append, angleScan, angleScan]
    cases angleStep s t with
    | none => rfl
    | some s => exact angleScan_append a b s

theorem angleScan_append_some {a b : List Tk} {s s' : Nat × Bool} (h : angleScan s a = some s') : angleScan s (a ++ b) = angleScan s' b := by
  rw [angleScan_append, h]
  rfl

theorem angleStep_shift {d : Nat} {f : Bool} {t : Tk} {s : Nat × Bool} (h : angleStep (d, f) t = some s) (k : Nat) :
    angleStep (d + k, f) t = some (s.1 + k, s.2) := by
  cases t with
  | punct c j =>
    simp only [angleStep] at h ⊢
    split at h
    · rw [if_pos (by assumption)]; cases h; simp; omega
    · rw [if_neg (by assumption)]
      split at h
      · rw [if_pos (by assumption)]
        split at h
        · rw [if_pos (by assumption)]; cases h; rfl
        · rw [if_neg (by assumption)]
          split at h
          · cases h
          · rw [if_neg (by omega)]; cases h; simp; omega
      · rw [if_neg (by assumption)]
        split at h
        · rw [if_pos (by assumption)]; cases h; rfl
        · rw [if_neg (by assumption)]
          split at h
          · cases h
          · rename_i h1
            rw [if_neg (fun h2 => h1 ⟨h2.1, by omega⟩)]; cases h; rfl
  | ident _ => cases h; rfl
  | lit _ => cases h; rfl
  | group _ _ => cases h; rfl

theorem angleScan_shift : ∀ {ts : List Tk} {d : Nat} {f : Bool} {s : Nat × Bool}, angleScan (d, f) ts = some s → ∀ k,
    angleScan (d + k, f) ts = some (s.1 + k, s.2)
  | [], _, _, _, h, _ => by cases h; rfl
  | t :: ts, d, f, s, h, k => by
    rw [angleScan] at h ⊢
    cases hs : angleStep (d, f) t with
    | none => rw [hs] at h; cases h
    | some s' =>
      rw [hs] at h
      rw [angleStep_shift hs k]
      exact angleScan_shift (d := s'.1) (f := s'.2) h k

theorem TypeLike.at {ts : List Tk} (h : TypeLike ts) (k : Nat) : angleScan (k, false) ts = some (k, false) := by
  simpa using angleScan_shift h k

theorem typeLike_append {a b : List Tk} (ha : TypeLike a) (hb : TypeLike b) : TypeLike (a ++ b) := by
  unfold TypeLike
  rw [angleScan_append_some ha]
  exact hb

theorem typeLike_rootPath : ∀ p : List String, TypeLike (rootPath p)
  | [] => rfl
  | _ :: p => typeLike_rootPath p

/-- The code ends here: with nothing behind it, or a character that ends a type. -/
def Stops (ts : List Tk) : Prop := ts = [] ∨ ∃ c j r, (c = ',' ∨ c = '=' ∨ c = ';' ∨ c = '>') ∧ ts = .punct c j :: r

theorem stops_scan {c : Char} (h : c = ',' ∨ c = '=' ∨ c = ';' ∨ c = '>') (j : Bool) (r : List Tk) : angleScan (0, false) (.punct c j :: r) = none := by
  rw [angleScan]
  rcases h with rfl | rfl | rfl | rfl <;> rfl

/-- Where a piece with balanced brackets ends is determined. -/
theorem delimited {a b x y : List Tk} (ha : TypeLike a) (hb : TypeLike b) (hx : Stops x) (hy : Stops y) (h : a ++ x = b ++ y) : a = b ∧ x = y := by
  have key : ∀ {a b x y c : List Tk}, TypeLike a → TypeLike b → Stops x → b = a ++ c → x = c ++ y → c = [] := by
    intro a b x y c ha hb hx h1 h2
    cases c with
    | nil => rfl
    | cons t c =>
      exfalso
      rcases hx with rfl | ⟨ch, j, r, hc, rfl⟩
      · cases h2
      · obtain ⟨rfl, -⟩ := List.cons.inj h2
        unfold TypeLike at hb
        rw [h1, angleScan_append_some ha, stops_scan hc] at hb
        cases hb
  rcases List.append_eq_append_iff.1 h with ⟨c, h1, h2⟩ | ⟨c, h1, h2⟩
  · obtain rfl := key ha hb hx h1 h2
    exact ⟨by simpa using h1.symm, by simpa using h2⟩
  · obtain rfl := key hb ha hy h1 h2
    exact ⟨by simpa using h1, by simpa using h2.symm⟩

/-! ## Types -/

mutual
theorem tyToks_like [Target] (hU : ∀ ts, U ts → TypeLike ts) : ∀ {ts : List Tk} {T : RTy}, TyToks U ts T → TypeLike ts
  | _, _, .user h => hU _ h
  | _, _, .unit => rfl
  | _, _, .pair _ _ => rfl
  | _, _, .alias _ => typeLike_rootPath _
  | _, _, .plain _ => typeLike_rootPath _
  | _, _, .generic (p := p) (a := a) h => by
    unfold TypeLike
    rw [List.append_assoc, List.append_assoc, angleScan_append_some (typeLike_rootPath p)]
    show angleScan (1, false) (a ++ _) = _
    rw [angleScan_append_some (argToks_like hU h 0)]
    rfl
  | _, _, .turbofish (p := p) (a := a) h => by
    unfold TypeLike
    rw [List.append_assoc, List.append_assoc, angleScan_append_some (typeLike_rootPath p)]
    show angleScan (1, false) (a ++ _) = _
    rw [angleScan_append_some (argToks_like hU h 0)]
    rfl
theorem argTok_like [Target] (hU : ∀ ts, U ts → TypeLike ts) : ∀ {ts : List Tk} {T : RTy}, ArgTok U ts T → TypeLike ts
  | _, _, .ty h => tyToks_like hU h
  | _, _, .const _ => rfl
theorem argToks_like [Target] (hU : ∀ ts, U ts → TypeLike ts) : ∀ {ts : List Tk} {A : List RTy}, ArgToks U ts A → ∀ d,
    angleScan (d + 1, false) ts = some (d + 1, false)
  | _, _, .one h, d => (argTok_like hU h).at _
  | _, _, .cons (as := as) h hs, d => by
    rw [angleScan_append_some ((argTok_like hU h).at _)]
    show angleScan (d + 1, false) as = _
    exact argToks_like hU hs d
end

/-- Two lists of arguments of the same tokens consist of the same pieces. -/
theorem argToks_pieces [Target] (hU : ∀ ts, U ts → TypeLike ts) : ∀ {ts ts' : List Tk} {A A' : List RTy}, ArgToks U ts A → ArgToks U ts' A' → ts = ts' →
    List.Forall₂ (fun X Y => ∃ t, ArgTok U t X ∧ ArgTok U t Y) A A'
  | _, _, _, _, .one (a := a) h, .one h', e => by
    subst e
    exact .cons ⟨a, h, h'⟩ .nil
  | _, _, _, _, .one (a := a) h, .cons (a := b) (as := bs) h' _, e => by
    have := (delimited (argTok_like hU h) (argTok_like hU h') (.inl rfl) (.inr ⟨',', false, bs, by simp, rfl⟩) (x := []) (by simpa using e)).2
    cases this
  | _, _, _, _, .cons (a := a) (as := as) h _, .one (a := b) h', e => by
    have := (delimited (argTok_like hU h) (argTok_like hU h') (.inr ⟨',', false, as, by simp, rfl⟩) (.inl rfl) (y := []) (by simpa using e)).2
    cases this
  | _, _, _, _, .cons (a := a) (as := as) h hs, .cons (a := b) (as := bs) h' hs', e => by
    obtain ⟨rfl, e2⟩ := delimited (argTok_like hU h) (argTok_like hU h') (.inr ⟨',', false, as, by simp, rfl⟩)
      (.inr ⟨',', false, bs, by simp, rfl⟩) e
    exact .cons ⟨a, h, h'⟩ (argToks_pieces hU hs hs' (List.cons.inj e2).2)

theorem numLit_unique {ty ty' : String} {max max' : Nat} {t : Tok} {n n' : Nat} (h : NumLit ty max t n) (h' : NumLit ty' max' t n') : n = n' := by
  unfold NumLit at h h'
  obtain ⟨s, h, -⟩ := h
  obtain ⟨s', h', -⟩ := h'
  rw [h] at h'
  exact congrArg Prod.fst (Option.some.inj h')

theorem ofList_inj {a b : List Char} (h : String.ofList a = String.ofList b) : a = b := by
  simpa using congrArg String.toList h

theorem tyToks_not_const [Target] {ts : List Tk} {n : Nat} (h : TyToks U ts (.const n)) : False := by cases h

theorem argTok_const [Target] {ts : List Tk} {n n' : Nat} (h : ArgTok U ts (.const n)) (h' : ArgTok U ts (.const n')) : n = n' := by
  generalize hR : RTy.const n = R at h
  generalize hR' : RTy.const n' = R' at h'
  cases h with
  | ty h => subst hR; exact (tyToks_not_const h).elim
  | @const t m h =>
    generalize hts : [Tk.lit (String.ofList t)] = ts at h'
    cases h' with
    | ty h' => subst hR'; exact (tyToks_not_const h').elim
    | @const t' m' h' =>
      obtain rfl := RTy.const.inj hR
      obtain rfl := RTy.const.inj hR'
      have := ofList_inj (Tk.lit.inj (List.cons.inj hts).1)
      subst this
      exact numLit_unique h h'

theorem rootPath_turbofish_inj : ∀ {p p' : List String} {x x' : List Tk},
    rootPath p ++ (.punct ':' true :: .punct ':' false :: .punct '<' false :: x) =
      rootPath p' ++ (.punct ':' true :: .punct ':' false :: .punct '<' false :: x') → p = p' ∧ x = x'
  | [], [], x, x', h => by simpa [rootPath] using h
  | [], s :: p', x, x', h => by simp [rootPath] at h
  | s :: p, [], x, x', h => by simp [rootPath] at h
  | s :: p, s' :: p', x, x', h => by
    have h' : s = s' ∧ rootPath p ++ (.punct ':' true :: .punct ':' false :: .punct '<' false :: x) =
      rootPath p' ++ (.punct ':' true :: .punct ':' false :: .punct '<' false :: x') := by simpa [rootPath] using h
    obtain ⟨h1, h2⟩ := rootPath_turbofish_inj h'.2
    exact ⟨by rw [h'.1, h1], h2⟩

theorem exprPath_unique [Target] (hU : ∀ ts, U ts → TypeLike ts) {ts : List Tk} {p p' : List String} {A A' : List RTy} (h : ExprPath U ts p A)
    (h' : ExprPath U ts p' A') : p = p' ∧ List.Forall₂ (fun X Y => ∃ t, ArgTok U t X ∧ ArgTok U t Y) A A' := by
  obtain ⟨a, ha, rfl⟩ := h
  obtain ⟨a', ha', e⟩ := h'
  obtain ⟨h1, h2⟩ := rootPath_turbofish_inj (p := p) (p' := p') (x := a ++ [.punct '>' false]) (x' := a' ++ [.punct '>' false])
    (by simpa [List.append_assoc] using e)
  exact ⟨h1, argToks_pieces hU ha ha' (List.append_cancel_right h2)⟩

theorem exprPath_like [Target] (hU : ∀ ts, U ts → TypeLike ts) {ts : List Tk} {p : List String} {A : List RTy} (h : ExprPath U ts p A) : TypeLike ts := by
  obtain ⟨a, ha, rfl⟩ := h
  exact tyToks_like hU (.turbofish ha)

/-- A path with arguments is not a path without. -/
theorem exprPath_ne_rootPath [Target] {ts : List Tk} {p q : List String} {A : List RTy} (h : ExprPath U ts p A) (e : ts = rootPath q) : False := by
  obtain ⟨a, -, rfl⟩ := h
  have : ∀ q : List String, ∀ t : Tk, (rootPath q).getLast? = some t → ∃ s, t = .ident s := by
    intro q
    induction q with
    | nil => intro t h; cases h
    | cons s q ih =>
      intro t h
      cases q with
      | nil => exact ⟨s, by simpa [rootPath] using h.symm⟩
      | cons s' q => exact ih t (by simpa [rootPath, List.getLast?_cons_cons] using h)
  obtain ⟨s, hs⟩ := this q (.punct '>' false) (by rw [← e]; exact List.getLast?_concat)
  cases hs

theorem callToks_inj {p p' : List Tk} {f f' : String} {x x' : List Tk} (h : callToks p f x = callToks p' f' x') : p = p' ∧ f = f' ∧ x = x' := by
  unfold callToks at h
  obtain ⟨h1, h2⟩ := List.append_inj' h rfl
  refine ⟨h1, ?_⟩
  simpa using h2

theorem rootPath_inj : ∀ {p p' : List String}, rootPath p = rootPath p' → p = p'
  | [], [], _ => rfl
  | [], _ :: _, h => by simp [rootPath] at h
  | _ :: _, [], h => by simp [rootPath] at h
  | s :: p, s' :: p', h => by
    have h' : s = s' ∧ rootPath p = rootPath p' := by simpa [rootPath] using h
    rw [h'.1, rootPath_inj h'.2]

/-! ## Lists -/

/-- Lists of items of a fixed number of tokens. -/
theorem items_unique {α : Type} {R R' : List Tk → α → Prop} {m : Nat} (hm : 0 < m) (hl : ∀ t a, R t a → t.length = m)
    (hl' : ∀ t a, R' t a → t.length = m) (hu : ∀ t a a', R t a → R' t a' → a = a') : ∀ {ts ts' : List Tk} {as as' : List α}, Items R ts as →
    Items R' ts' as' → ts = ts' → as = as' := by
  have split : ∀ {t t' x x' : List Tk} {a a' : α}, R t a → R' t' a' → t ++ x = t' ++ x' → t = t' ∧ x = x' := fun h h' e =>
    List.append_inj e ((hl _ _ h).trans (hl' _ _ h').symm)
  intro ts ts' as as' h
  induction h generalizing ts' as' with
  | nil =>
    intro h' e
    cases h' with
    | nil => rfl
    | last h' => subst e; have := hl' _ _ h'; simp at this; omega
    | cons h' _ => simp at e
  | last h =>
    intro h' e
    cases h' with
    | nil => subst e; have := hl _ _ h; simp at this; omega
    | last h' => subst e; rw [hu _ _ _ h h']
    | cons h' _ =>
      have := (split h h' (x := []) (by simpa using e)).2
      cases this
  | cons h _ ih =>
    intro h' e
    cases h' with
    | nil => simp at e
    | last h' =>
      have := (split h h' (x' := []) (by simpa using e)).2
      cases this
    | cons h' hs' =>
      obtain ⟨rfl, e2⟩ := split h h' e
      rw [hu _ _ _ h h', ih hs' (List.cons.inj e2).2]

theorem litOf_unique [Target] {ty ty' : String} {ts : List Tk} {n n' : Nat} (h : LitOf ty ts n) (h' : LitOf ty' ts n') : n = n' := by
  obtain ⟨t, m, rfl, -, h⟩ := h
  obtain ⟨t', m', e, -, h'⟩ := h'
  have := ofList_inj (Tk.lit.inj (List.cons.inj e).1)
  subst this
  exact numLit_unique h h'

theorem litOf_length [Target] {ty : String} {ts : List Tk} {n : Nat} (h : LitOf ty ts n) : ts.length = 1 := by
  obtain ⟨t, m, rfl, -⟩ := h
  rfl

theorem pair_unique {P : Prog K V F} (hP : Readable P) {tk tv tk' tv' : RTy} {ts : List Tk} {e e' : K × V} (h : PairToks P tk tv ts e)
    (h' : PairToks P tk' tv' ts e') : e = e' := by
  obtain ⟨k, v, rfl, h1, h2⟩ := h
  obtain ⟨k', v', he, h1', h2'⟩ := h'
  have hg := (Tk.group.inj (List.cons.inj he).1).2
  have := hP.pairs h1 h2 h1' h2' hg
  subst this
  have := (List.cons.inj (List.append_cancel_left hg)).2
  subst this
  exact Prod.ext (hP.keys h1 h1') (hP.values h2 h2')

theorem pair_length {P : Prog K V F} {tk tv : RTy} (ts : List Tk) (e : K × V) (h : PairToks P tk tv ts e) : ts.length = 1 := by
  obtain ⟨k, v, rfl, -⟩ := h
  rfl

theorem pairs_unique {P : Prog K V F} (hP : Readable P) {tk tv tk' tv' : RTy} {ts : List Tk} {es es' : List (K × V)}
    (h : Items (PairToks P tk tv) ts es) (h' : Items (PairToks P tk' tv') ts es') : es = es' :=
  items_unique (m := 1) (by omega) pair_length pair_length (fun t a a' => pair_unique hP) h h' rfl

theorem lits_unique [Target] {cm cm' : String} {ts : List Tk} {ns ns' : List Nat} (h : Items (LitOf cm) ts ns) (h' : Items (LitOf cm') ts ns') : ns = ns' :=
  items_unique (m := 1) (by omega) (fun _ _ => litOf_length) (fun _ _ => litOf_length) (fun _ _ _ => litOf_unique) h h' rfl

theorem lit_pair_unique [Target] {ty ty' : String} {a b a' b' : List Tk} {n m n' m' : Nat} (ha : LitOf ty a n) (hb : LitOf ty b m) (ha' : LitOf ty' a' n')
    (hb' : LitOf ty' b' m') (h : a ++ .punct ',' false :: b = a' ++ .punct ',' false :: b') : n = n' ∧ m = m' := by
  obtain ⟨rfl, h2⟩ := List.append_inj h ((litOf_length ha).trans (litOf_length ha').symm)
  obtain rfl := (List.cons.inj h2).2
  exact ⟨litOf_unique ha ha', litOf_unique hb hb'⟩

theorem slot_unique [Target] {ty ty' : String} {ts : List Tk} {s s' : Slot} (h : SlotToks ty ts s) (h' : SlotToks ty' ts s') : s = s' := by
  obtain ⟨a, b, rfl, h1, h2⟩ := h
  obtain ⟨a', b', e, h1', h2'⟩ := h'
  obtain ⟨e1, e2⟩ := lit_pair_unique h1 h2 h1' h2' (callToks_inj e).2.2
  cases s; cases s'
  exact congr (congrArg _ e1) e2

theorem slot_length [Target] {ty : String} (ts : List Tk) (s : Slot) (h : SlotToks ty ts s) : ts.length = 13 := by
  obtain ⟨a, b, rfl, -⟩ := h
  rfl

theorem slots_unique [Target] {ty ty' : String} {ts : List Tk} {ss ss' : List Slot} (h : Items (SlotToks ty) ts ss) (h' : Items (SlotToks ty') ts ss') :
    ss = ss' :=
  items_unique (m := 13) (by omega) slot_length slot_length (fun _ _ _ => slot_unique) h h' rfl

theorem seed_unique {ts : List Tk} {n n' : Nat} (h : SeedToks ts n) (h' : SeedToks ts n') : n = n' := by
  obtain ⟨t, rfl, h⟩ := h
  obtain ⟨t', e, h'⟩ := h'
  have := ofList_inj (Tk.lit.inj (List.cons.inj (callToks_inj e).2.2).1)
  subst this
  exact numLit_unique h h'

theorem tableArgs_unique {ts ss es ss' es' : List Tk} (h : TableArgs ts ss es) (h' : TableArgs ts ss' es') : ss = ss' ∧ es = es' := by
  obtain ⟨tl, rfl, -⟩ := h
  obtain ⟨tl', e, -⟩ := h'
  simp at e
  exact ⟨e.1, e.2.1⟩

theorem callToks_last (p : List Tk) (f : String) (x : List Tk) : (callToks p f x).getLast? = some (.group .paren x) := by
  unfold callToks
  simp

theorem hasher_unique [Target] (hU : ∀ ts, U ts → TypeLike ts) {ts ts' : List Tk} {T T' : RTy} {h h' : InlineHasher} (hm : HasherMeans U ts T h)
    (hm' : HasherMeans U ts' T' h') (e : ts = ts') : h = h' := by
  have range : ∀ {ty : List Tk} {p p' : List String} {a b a' b' : Nat}, ExprPath U ty p [.const a, .const b, fixedState] →
      ExprPath U ty p' [.const a', .const b', fixedState] → p = p' ∧ a = a' ∧ b = b' := by
    intro ty p p' a b a' b' h1 h2
    obtain ⟨hp, h⟩ := exprPath_unique hU h1 h2
    cases h with
    | cons ha h =>
      cases h with
      | cons hb _ =>
        obtain ⟨t, x, y⟩ := ha
        obtain ⟨t', x', y'⟩ := hb
        exact ⟨hp, argTok_const x y, argTok_const x' y'⟩
  cases hm with
  | bridge hs =>
    cases hm' with
    | bridge hs' =>
      obtain ⟨-, -, rfl⟩ := callToks_inj e
      rw [seed_unique hs hs']
    | scalar => have := congrArg List.getLast? e; rw [callToks_last] at this; simp at this
    | length => have := congrArg List.getLast? e; rw [callToks_last] at this; simp [rootPath] at this
    | left ht _ => exact (exprPath_ne_rootPath ht (callToks_inj e).1.symm).elim
    | right ht _ => exact (exprPath_ne_rootPath ht (callToks_inj e).1.symm).elim
  | scalar =>
    cases hm' with
    | scalar => rfl
    | length => have := congrArg List.getLast? e; simp [rootPath] at this
    | bridge _ => have := congrArg List.getLast? e; rw [callToks_last] at this; simp at this
    | left _ _ => have := congrArg List.getLast? e; rw [callToks_last] at this; simp at this
    | right _ _ => have := congrArg List.getLast? e; rw [callToks_last] at this; simp at this
  | length =>
    cases hm' with
    | scalar => have := congrArg List.getLast? e; simp [rootPath] at this
    | length => rfl
    | bridge _ => have := congrArg List.getLast? e; rw [callToks_last] at this; simp [rootPath] at this
    | left _ _ => have := congrArg List.getLast? e; rw [callToks_last] at this; simp [rootPath] at this
    | right _ _ => have := congrArg List.getLast? e; rw [callToks_last] at this; simp [rootPath] at this
  | left ht hs =>
    cases hm' with
    | bridge _ => exact (exprPath_ne_rootPath ht (callToks_inj e).1).elim
    | scalar => have := congrArg List.getLast? e; rw [callToks_last] at this; simp at this
    | length => have := congrArg List.getLast? e; rw [callToks_last] at this; simp [rootPath] at this
    | left ht' hs' =>
      obtain ⟨rfl, -, rfl⟩ := callToks_inj e
      obtain ⟨-, rfl, rfl⟩ := range ht ht'
      rw [seed_unique hs hs']
    | right ht' _ =>
      obtain ⟨rfl, -, rfl⟩ := callToks_inj e
      have := (range ht ht').1
      simp at this
  | right ht hs =>
    cases hm' with
    | bridge _ => exact (exprPath_ne_rootPath ht (callToks_inj e).1).elim
    | scalar => have := congrArg List.getLast? e; rw [callToks_last] at this; simp at this
    | length => have := congrArg List.getLast? e; rw [callToks_last] at this; simp [rootPath] at this
    | left ht' _ =>
      obtain ⟨rfl, -, rfl⟩ := callToks_inj e
      have := (range ht ht').1
      simp at this
    | right ht' hs' =>
      obtain ⟨rfl, -, rfl⟩ := callToks_inj e
      obtain ⟨-, rfl, rfl⟩ := range ht ht'
      rw [seed_unique hs hs']

/-! ## Constructor expressions -/

theorem consts₃ [Target] {t : List Tk} {p p' : List String} {A B A' B' : RTy} {n n' : Nat} (hU : ∀ ts, U ts → TypeLike ts)
    (h : ExprPath U t p [A, B, .const n]) (h' : ExprPath U t p' [A', B', .const n']) : n = n' := by
  obtain ⟨-, h⟩ := exprPath_unique hU h h'
  cases h with
  | cons _ h =>
    cases h with
    | cons _ h =>
      cases h with
      | cons h _ =>
        obtain ⟨t, x, y⟩ := h
        exact argTok_const x y

theorem callToks_like {ty : List Tk} (h : TypeLike ty) (f : String) (x : List Tk) : TypeLike (callToks ty f x) :=
  typeLike_append h rfl

theorem mapMeans_unique [Target] {P : Prog K V F} (hP : Readable P) {ts ts' : List Tk} {T T' : RTy} {r r' : Res (InlineMap K V ⊕ F)}
    (h : MapMeans P ts T r) (h' : MapMeans P ts' T' r') (e : ts = ts') : r = r' := by
  have path : ∀ {ty ty' x x' : List Tk} {f f' : String} {p p' : List String} {A A' : List RTy}, ExprPath P.userTy ty p A →
      ExprPath P.userTy ty' p' A' → callToks ty f x = callToks ty' f' x' → (p = p' ∧ f = f') ∧ x = x' := by
    intro ty ty' x x' f f' p p' A A' h1 h2 e
    obtain ⟨rfl, rfl, rfl⟩ := callToks_inj e
    exact ⟨⟨(exprPath_unique hP.types h1 h2).1, rfl⟩, rfl⟩
  have table : ∀ {tty tty' x x' h h' : List Tk} {p p' : List String} {A A' : List RTy}, ExprPath P.userTy tty p A →
      ExprPath P.userTy tty' p' A' → callToks tty "new_raw" x ++ .punct ',' false :: h = callToks tty' "new_raw" x' ++ .punct ',' false :: h' →
      x = x' ∧ h = h' := by
    intro tty tty' x x' h h' p p' A A' h1 h2 e
    obtain ⟨e1, e2⟩ := delimited (callToks_like (exprPath_like hP.types h1) _ _) (callToks_like (exprPath_like hP.types h2) _ _)
      (.inr ⟨',', false, h, by simp, rfl⟩) (.inr ⟨',', false, h', by simp, rfl⟩) e
    exact ⟨(callToks_inj e1).2.2, (List.cons.inj e2).2⟩
  cases h with
  | scanRaw ht he hn =>
    cases h' with
    | scanRaw ht' he' hn' =>
      obtain ⟨-, e⟩ := path ht ht' e
      obtain rfl := (Tk.group.inj (List.cons.inj e).1).2
      obtain rfl := pairs_unique hP he he'
      subst hn hn'; rfl
    | fz _ ht' _ _ => obtain ⟨e, -⟩ := path ht ht' e; simp at e
    | _ ht' => obtain ⟨e, -⟩ := path ht ht' e; simp at e
  | scanNew ht he =>
    cases h' with
    | scanNew ht' he' =>
      obtain ⟨rfl, -, e⟩ := callToks_inj e
      obtain rfl := consts₃ hP.types ht ht'
      simp only [vecToks, List.cons.injEq, Tk.group.injEq, true_and, and_true] at e
      subst e
      rw [pairs_unique hP he he']
    | fz _ ht' _ _ => obtain ⟨e, -⟩ := path ht ht' e; simp at e
    | _ ht' => obtain ⟨e, -⟩ := path ht ht' e; simp at e
  | eytzingerRaw ht he hn =>
    cases h' with
    | eytzingerRaw ht' he' hn' =>
      obtain ⟨-, e⟩ := path ht ht' e
      obtain rfl := (Tk.group.inj (List.cons.inj e).1).2
      obtain rfl := pairs_unique hP he he'
      subst hn hn'; rfl
    | fz _ ht' _ _ => obtain ⟨e, -⟩ := path ht ht' e; simp at e
    | _ ht' => obtain ⟨e, -⟩ := path ht ht' e; simp at e
  | eytzingerNew ht he =>
    cases h' with
    | eytzingerNew ht' he' =>
      obtain ⟨rfl, -, e⟩ := callToks_inj e
      obtain rfl := consts₃ hP.types ht ht'
      simp only [vecToks, List.cons.injEq, Tk.group.injEq, true_and, and_true] at e
      subst e
      rw [pairs_unique hP he he']
    | fz _ ht' _ _ => obtain ⟨e, -⟩ := path ht ht' e; simp at e
    | _ ht' => obtain ⟨e, -⟩ := path ht ht' e; simp at e
  | dense ht he hn ha hb =>
    cases h' with
    | dense ht' he' hn' ha' hb' =>
      obtain ⟨-, e⟩ := path ht ht' e
      simp only [List.cons_append, List.nil_append, List.cons.injEq, Tk.group.injEq, true_and] at e
      obtain ⟨rfl, e2⟩ := e
      obtain ⟨rfl, rfl⟩ := lit_pair_unique ha hb ha' hb' e2
      obtain rfl := pairs_unique hP he he'
      subst hn hn'; rfl
    | fz _ ht' _ _ => obtain ⟨e, -⟩ := path ht ht' e; simp at e
    | _ ht' => obtain ⟨e, -⟩ := path ht ht' e; simp at e
  | sparse ht he hn hl hm ha hb =>
    cases h' with
    | sparse ht' he' hn' hl' hm' ha' hb' =>
      obtain ⟨-, e⟩ := path ht ht' e
      simp only [List.cons_append, List.nil_append, List.cons.injEq, Tk.group.injEq, true_and] at e
      obtain ⟨rfl, rfl, e2⟩ := e
      obtain ⟨rfl, rfl⟩ := lit_pair_unique ha hb ha' hb' e2
      obtain rfl := pairs_unique hP he he'
      obtain rfl := lits_unique hl hl'
      subst hn hn'; rfl
    | fz _ ht' _ _ => obtain ⟨e, -⟩ := path ht ht' e; simp at e
    | _ ht' => obtain ⟨e, -⟩ := path ht ht' e; simp at e
  | hash ht htt hta hs hm he hn hh =>
    cases h' with
    | hash ht' htt' hta' hs' hm' he' hn' hh' =>
      obtain ⟨-, e⟩ := path ht ht' e
      obtain ⟨rfl, e2⟩ := table htt htt' e
      obtain ⟨rfl, rfl⟩ := tableArgs_unique hta hta'
      obtain rfl := hasher_unique hP.types hh hh' e2
      obtain rfl := pairs_unique hP he he'
      obtain rfl := slots_unique hs hs'
      subst hn hn'; rfl
    | fz _ ht' _ _ => obtain ⟨e, -⟩ := path ht ht' e; simp at e
    | _ ht' => obtain ⟨e, -⟩ := path ht ht' e; simp at e
  | hashNC ht htt hta hs hm he hn hh =>
    cases h' with
    | hashNC ht' htt' hta' hs' hm' he' hn' hh' =>
      obtain ⟨-, e⟩ := path ht ht' e
      obtain ⟨rfl, e2⟩ := table htt htt' e
      obtain ⟨rfl, rfl⟩ := tableArgs_unique hta hta'
      obtain rfl := hasher_unique hP.types hh hh' e2
      obtain rfl := pairs_unique hP he he'
      obtain rfl := lits_unique hs hs'
      subst hn hn'; rfl
    | fz _ ht' _ _ => obtain ⟨e, -⟩ := path ht ht' e; simp at e
    | _ ht' => obtain ⟨e, -⟩ := path ht ht' e; simp at e
  | fz hk ht he hr =>
    cases h' with
    | fz hk' ht' he' hr' =>
      obtain ⟨⟨e1, -⟩, e⟩ := path ht ht' e
      simp only [vecToks, List.cons.injEq, Tk.group.injEq, true_and, and_true] at e e1
      subst e e1
      obtain rfl := pairs_unique hP he he'
      have : ∀ {k k' : FzKind} {n : String}, (k, n) ∈ [(FzKind.hash, "FzHashMap"), (.scalar, "FzScalarMap"), (.string, "FzStringMap")] →
          (k', n) ∈ [(FzKind.hash, "FzHashMap"), (.scalar, "FzScalarMap"), (.string, "FzStringMap")] → k = k' := by
        intro k k' n h h'
        simp only [List.mem_cons, Prod.mk.injEq, List.not_mem_nil, or_false] at h h'
        rcases h with ⟨rfl, rfl⟩ | ⟨rfl, rfl⟩ | ⟨rfl, rfl⟩ <;> simp at h' <;> exact h'.symm
      obtain rfl := this hk hk'
      rw [Option.some.inj (hr.symm.trans hr')]
    | _ ht' => obtain ⟨e, -⟩ := path ht ht' e; simp at e

theorem collMeans_unique [Target] {P : Prog K V F} (hP : Readable P) {isMap : Bool} {ts : List Tk} {T T' : RTy} {r r' : Res (InlineMap K V ⊕ F)}
    (h : CollMeans P isMap ts T r) (h' : CollMeans P isMap ts T' r') : r = r' := by
  unfold CollMeans at h h'
  cases isMap with
  | true => exact mapMeans_unique hP h h' rfl
  | false =>
    replace h : SetMeans P ts T r := h
    replace h' : SetMeans P ts T' r' := h'
    cases h with
    | set _ _ hm =>
      generalize hts : callToks _ _ _ = ts' at h'
      cases h' with
      | set _ _ hm' => exact mapMeans_unique hP hm hm' (callToks_inj hts).2.2

/-- Constructor expressions start with `::`. -/
theorem collMeans_head [Target] {P : Prog K V F} {isMap : Bool} {ts : List Tk} {T : RTy} {r : Res (InlineMap K V ⊕ F)} (h : CollMeans P isMap ts T r) :
    ts.head? = some (.punct ':' true) := by
  have path : ∀ {ty x : List Tk} {f : String} {p : List String} {A : List RTy}, ExprPath P.userTy ty p A →
      (callToks ty f x).head? = some (.punct ':' true) := by
    rintro ty x f p A ⟨a, -, rfl⟩
    cases p <;> rfl
  unfold CollMeans at h
  cases isMap with
  | true =>
    replace h : MapMeans P ts T r := h
    cases h with
    | fz _ ht => exact path ht
    | _ ht => exact path ht
  | false =>
    replace h : SetMeans P ts T r := h
    cases h with
    | set _ ht _ => exact path ht

/-! ## Declarations -/

theorem named_like [Target] (hU : ∀ ts, U ts → TypeLike ts) {v pre d : List Tk} {T : RTy} {al : Option String} (h : Named U v al pre d T) : TypeLike d := by
  cases h with
  | direct h => exact tyToks_like hU h
  | «alias» _ => rfl

/-- What comes behind the declaration of the alias, if there is one. -/
theorem named_split [Target] (hU : ∀ ts, U ts → TypeLike ts) {v pre pre' d d' x x' : List Tk} {T T' : RTy} {al al' : Option String} (h : Named U v al pre d T)
    (h' : Named U v al' pre' d' T') (e : pre ++ (v ++ x) = pre' ++ (v ++ x')) (hx : x.head? ≠ some (.ident "type"))
    (hx' : x'.head? ≠ some (.ident "type")) : al = al' ∧ x = x' := by
  cases h with
  | direct h =>
    cases h' with
    | direct h' => exact ⟨rfl, by simpa using e⟩
    | «alias» h' =>
      simp only [List.nil_append, List.append_assoc, List.append_cancel_left_eq] at e
      exact (hx (by rw [e]; rfl)).elim
  | «alias» h =>
    cases h' with
    | direct h' =>
      simp only [List.nil_append, List.append_assoc, List.append_cancel_left_eq] at e
      exact (hx' (by rw [← e]; rfl)).elim
    | «alias» h' =>
      simp only [List.append_assoc, List.append_cancel_left_eq, List.cons_append, List.nil_append, List.cons.injEq, true_and] at e
      have := (delimited (tyToks_like hU h) (tyToks_like hU h') (.inr ⟨';', false, _, by simp, rfl⟩) (.inr ⟨';', false, _, by simp, rfl⟩) e.2).2
      exact ⟨by simpa using e.1, by simpa using this⟩

theorem head_pre {v x : List Tk} {t : Tk} (h : (v ++ x).head? = some t) (hv : v ≠ []) : v.head? = some t := by
  cases v with
  | nil => exact (hv rfl).elim
  | cons a v => exact h

/-- The first token of a declaration with a name. -/
theorem named_head [Target] {v pre d x : List Tk} {T : RTy} {al : Option String} (h : Named U v al pre d T) :
    (pre ++ v ++ x).head? = (match v.head?, pre with | some t, _ => some t | none, [] => x.head? | none, _ :: _ => some (.ident "type")) := by
  cases h with
  | direct h => cases v <;> simp
  | «alias» h => cases v <;> simp

theorem lazy_like {d : List Tk} (h : TypeLike d) : TypeLike (lazyToks ++ .punct '<' false :: (d ++ [.punct '>' false])) := by
  show angleScan (1, false) (d ++ [.punct '>' false]) = some (0, false)
  rw [angleScan_append_some (h.at 1)]
  rfl

/-- The parts of a static: its type and its initializer. -/
theorem static_split {name name' : String} {d d' i i' : List Tk} (hd : TypeLike d) (hd' : TypeLike d')
    (e : [.ident "static", .ident name, .punct ':' false] ++ d ++ .punct '=' false :: i =
      [.ident "static", .ident name', .punct ':' false] ++ d' ++ .punct '=' false :: i') : name = name' ∧ d = d' ∧ i = i' := by
  simp only [List.cons_append, List.nil_append, List.cons.injEq, Tk.ident.injEq, true_and] at e
  obtain ⟨h1, h2⟩ := delimited hd hd' (.inr ⟨'=', false, i, by simp, rfl⟩) (.inr ⟨'=', false, i', by simp, rfl⟩) e.2
  exact ⟨e.1, h1, (List.cons.inj h2).2⟩

theorem declares_unique [Target] {P : Prog K V F} (hP : Readable P) {isMap : Bool} {vis : Vis} {ts ts' : List Tk} {kind kind' : DeclKind}
    {r r' : Res (InlineMap K V ⊕ F)} (h : Declares P isMap vis.tokens ts kind r) (h' : Declares P isMap vis.tokens ts' kind' r') (e : ts = ts') :
    kind = kind' ∧ r = r' := by
  -- the first token of a static is that of the visibility, `type` or `static`
  have hstatic : ∀ {pre d x : List Tk} {T : RTy} {al : Option String}, Named P.userTy vis.tokens al pre d T → ∃ s,
      (pre ++ vis.tokens ++ .ident "static" :: x).head? = some (.ident s) ∧ s ∈ ["pub", "type", "static"] ∧ (s ≠ "pub" → vis.tokens = []) := by
    intro pre d x T al h
    rw [named_head h]
    cases vis with
    | inherited =>
      cases pre with
      | nil => exact ⟨"static", by simp [Vis.tokens]⟩
      | cons t pre => exact ⟨"type", by simp [Vis.tokens]⟩
    | pub => exact ⟨"pub", by simp [Vis.tokens]⟩
    | restricted inner => exact ⟨"pub", by simp [Vis.tokens]⟩
  have hlocal : ∀ {pre d x : List Tk} {T : RTy} {al : Option String}, Named P.userTy [] al pre d T → ∃ s,
      (pre ++ .ident "let" :: x).head? = some (.ident s) ∧ s ∈ ["type", "let"] := by
    intro pre d x T al h
    have := named_head (x := .ident "let" :: x) h
    rw [List.append_nil] at this
    rw [this]
    cases pre with
    | nil => exact ⟨"let", by simp⟩
    | cons t pre => exact ⟨"type", by simp⟩
  have hSL : ∀ {pre pre' d d' x x' : List Tk} {T T' : RTy} {al al' : Option String},
      Named P.userTy vis.tokens al pre d T → Named P.userTy [] al' pre' d' T' →
      pre ++ vis.tokens ++ .ident "static" :: x = pre' ++ .ident "let" :: x' → False := by
    intro pre pre' d d' x x' T T' al al' h1 h2 e
    obtain ⟨s, hs, hm, hv⟩ := hstatic (x := x) h1
    obtain ⟨s', hs', hm'⟩ := hlocal (x := x') h2
    rw [e, hs'] at hs
    obtain rfl : s' = s := by simpa using hs
    have hne : s' ≠ "pub" := by rintro rfl; simp at hm'
    have hv := hv hne
    rw [hv] at h1 e
    have := named_split hP.types h1 h2 (x := .ident "static" :: x) (x' := .ident "let" :: x') (by simpa using e) (by simp) (by simp)
    simp at this
  have hSE : ∀ {pre d x i : List Tk} {T T' : RTy} {r : Res (InlineMap K V ⊕ F)} {al : Option String},
      Named P.userTy vis.tokens al pre d T → CollMeans P isMap i T' r →
      pre ++ vis.tokens ++ .ident "static" :: x = i → False := by
    intro pre d x i T T' r al h1 h2 e
    obtain ⟨s, hs, -⟩ := hstatic (x := x) h1
    rw [e, collMeans_head h2] at hs
    cases hs
  have hLE : ∀ {pre d x i : List Tk} {T T' : RTy} {r : Res (InlineMap K V ⊕ F)} {al : Option String},
      Named P.userTy [] al pre d T → CollMeans P isMap i T' r →
      pre ++ .ident "let" :: x = i → False := by
    intro pre d x i T T' r al h1 h2 e
    obtain ⟨s, hs, -⟩ := hlocal (x := x) h1
    rw [e, collMeans_head h2] at hs
    cases hs
  -- a static with a constant is not a static that is initialised on first use
  have hCL : ∀ {pre pre' d d' i i' : List Tk} {name name' : String} {T T' T'' : RTy} {r : Res (InlineMap K V ⊕ F)} {al al' : Option String},
      Named P.userTy vis.tokens al pre d T → CollMeans P isMap i T'' r → Named P.userTy vis.tokens al' pre' d' T' →
      pre ++ vis.tokens ++ [.ident "static", .ident name, .punct ':' false] ++ d ++ [.punct '=' false] ++ i ++ [.punct ';' false] =
        pre' ++ vis.tokens ++ [.ident "static", .ident name', .punct ':' false] ++ lazyToks ++ [.punct '<' false] ++ d' ++
        [.punct '>' false, .punct '=' false] ++ lazyToks ++ [.punct ':' true, .punct ':' false, .ident "new",
        .group .paren [.punct '|' true, .punct '|' false, .group .brace i'], .punct ';' false] → False := by
    intro pre pre' d d' i i' name name' T T' T'' r al al' h1 hi h2 e
    simp only [List.append_assoc] at e
    have e2 := (named_split hP.types h1 h2 e (by simp) (by simp)).2
    obtain ⟨-, -, e3⟩ := static_split (named_like hP.types h1) (lazy_like (named_like hP.types h2)) (i := i ++ [.punct ';' false])
      (i' := lazyToks ++ [.punct ':' true, .punct ':' false, .ident "new",
        .group .paren [.punct '|' true, .punct '|' false, .group .brace i'], .punct ';' false]) (by simpa only [List.append_assoc, List.cons_append, List.nil_append] using e2)
    have := congrArg List.head? e3
    have hh := collMeans_head hi
    cases i with
    | nil => cases hh
    | cons t i =>
      rw [List.cons_append] at this
      simp only [List.head?_cons, Option.some.injEq] at hh
      subst hh
      simp [lazyToks] at this
  cases h with
  | @constant pre d i name al T r ht hi =>
    cases h' with
    | @constant pre' d' i' name' al' T' r' ht' hi' =>
      simp only [List.append_assoc] at e
      obtain ⟨rfl, e2⟩ := named_split hP.types ht ht' e (by simp) (by simp)
      obtain ⟨rfl, -, e3⟩ := static_split (named_like hP.types ht) (named_like hP.types ht') (i := i ++ [.punct ';' false])
        (i' := i' ++ [.punct ';' false]) (by simpa only [List.append_assoc, List.cons_append, List.nil_append] using e2)
      obtain rfl := List.append_cancel_right e3
      exact ⟨rfl, collMeans_unique hP hi hi'⟩
    | onFirstUse ht' hi' => exact (hCL ht hi ht' e).elim
    | local_ ht' hi' => exact (hSL ht ht' (by simpa only [List.append_assoc, List.cons_append, List.nil_append] using e)).elim
    | expression hi' => exact (hSE ht hi' (by simpa only [List.append_assoc, List.cons_append, List.nil_append] using e)).elim
  | @onFirstUse pre d i name al T r ht hi =>
    cases h' with
    | constant ht' hi' => exact (hCL ht' hi' ht e.symm).elim
    | @onFirstUse pre' d' i' name' al' T' r' ht' hi' =>
      simp only [List.append_assoc] at e
      obtain ⟨rfl, e2⟩ := named_split hP.types ht ht' e (by simp) (by simp)
      obtain ⟨rfl, -, e3⟩ := static_split (lazy_like (named_like hP.types ht)) (lazy_like (named_like hP.types ht'))
        (i := lazyToks ++ [.punct ':' true, .punct ':' false, .ident "new",
        .group .paren [.punct '|' true, .punct '|' false, .group .brace i], .punct ';' false])
        (i' := lazyToks ++ [.punct ':' true, .punct ':' false, .ident "new",
        .group .paren [.punct '|' true, .punct '|' false, .group .brace i'], .punct ';' false])
        (by simpa only [List.append_assoc, List.cons_append, List.nil_append] using e2)
      obtain rfl : i = i' := by simpa using e3
      exact ⟨rfl, collMeans_unique hP hi hi'⟩
    | local_ ht' hi' => exact (hSL ht ht' (by simpa only [List.append_assoc, List.cons_append, List.nil_append] using e)).elim
    | expression hi' => exact (hSE ht hi' (by simpa only [List.append_assoc, List.cons_append, List.nil_append] using e)).elim
  | @local_ pre d i mu name al T r ht hi =>
    cases h' with
    | constant ht' hi' => exact (hSL ht' ht (by simpa only [List.append_assoc, List.cons_append, List.nil_append] using e.symm)).elim
    | onFirstUse ht' hi' => exact (hSL ht' ht (by simpa only [List.append_assoc, List.cons_append, List.nil_append] using e.symm)).elim
    | @local_ pre' d' i' mu' name' al' T' r' ht' hi' =>
      simp only [List.append_assoc] at e
      obtain ⟨rfl, e2⟩ := named_split (v := []) hP.types ht ht' e (by simp) (by simp)
      have e3 : mu = mu' ∧ name = name' ∧ d ++ .punct '=' false :: (i ++ [.punct ';' false]) = d' ++ .punct '=' false :: (i' ++ [.punct ';' false]) := by
        cases mu <;> cases mu' <;> simpa using e2
      obtain ⟨rfl, rfl, e3⟩ := e3
      have e4 := (delimited (named_like hP.types ht) (named_like hP.types ht') (.inr ⟨'=', false, _, by simp, rfl⟩)
        (.inr ⟨'=', false, _, by simp, rfl⟩) e3).2
      obtain rfl := List.append_cancel_right (List.cons.inj e4).2
      exact ⟨rfl, collMeans_unique hP hi hi'⟩
    | expression hi' => exact (hLE ht hi' (by simpa only [List.append_assoc, List.cons_append, List.nil_append] using e)).elim
  | expression hi =>
    cases h' with
    | constant ht' hi' => exact (hSE ht' hi (by simpa only [List.append_assoc, List.cons_append, List.nil_append] using e.symm)).elim
    | onFirstUse ht' hi' => exact (hSE ht' hi (by simpa only [List.append_assoc, List.cons_append, List.nil_append] using e.symm)).elim
    | local_ ht' hi' => exact (hLE ht' hi (by simpa only [List.append_assoc, List.cons_append, List.nil_append] using e.symm)).elim
    | expression hi' =>
      subst e
      exact ⟨rfl, collMeans_unique hP hi hi'⟩

end Frozen.Props
