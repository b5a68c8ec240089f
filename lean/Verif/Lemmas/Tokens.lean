import Verif.Props.TokenSpec
import Verif.Model.Tokens
import Verif.Model.ConstEval
import Verif.Lemmas.WellTyped

/-! # Lemmas about the tokens of the generator's templates -/

namespace Frozen.Props

open Frozen.Spec Frozen.Model

variable {K V F : Type}

/-! ## Names -/

/-- The position after some tokens. -/
def posAfter (p : PathPos) (ts : List Tk) : PathPos := ts.foldl PathPos.next p

theorem posAfter_append (p : PathPos) (a b : List Tk) : posAfter p (a ++ b) = posAfter (posAfter p a) b := List.foldl_append

theorem namesIn_append : ∀ (a : List Tk) (p : PathPos) (b : List Tk), namesIn p (a ++ b) = namesIn p a ++ namesIn (posAfter p a) b
  | [], p, b => by simp [namesIn, posAfter]
  | t :: a, p, b => by
    rw [List.cons_append, namesIn, namesIn, namesIn_append a, List.append_assoc]
    rfl

/-- All names are allowed. -/
def Ok (A : NameUse → Prop) (p : PathPos) (ts : List Tk) : Prop := ∀ u ∈ namesIn p ts, A u

/-- All names are allowed, whatever comes before. -/
def OkAny (A : NameUse → Prop) (ts : List Tk) : Prop := ∀ p, Ok A p ts

variable {A : NameUse → Prop}

theorem ok_append {p : PathPos} {a b : List Tk} : Ok A p (a ++ b) ↔ Ok A p a ∧ Ok A (posAfter p a) b := by
  simp only [Ok, namesIn_append, List.mem_append]
  constructor
  · exact fun h => ⟨fun u hu => h u (.inl hu), fun u hu => h u (.inr hu)⟩
  · rintro ⟨h1, h2⟩ u (hu | hu)
    · exact h1 u hu
    · exact h2 u hu

theorem ok_then {p : PathPos} {a b : List Tk} (ha : Ok A p a) (hb : OkAny A b) : Ok A p (a ++ b) := ok_append.2 ⟨ha, hb _⟩

theorem ok_nil (p : PathPos) : Ok A p [] := fun u hu => by simp [namesIn] at hu

theorem okAny_nil : OkAny A [] := fun p => ok_nil p

theorem ok_punct {p : PathPos} {c : Char} {j : Bool} {ts : List Tk} (h : Ok A (p.next (.punct c j)) ts) : Ok A p (.punct c j :: ts) :=
  fun u hu => h u (by simpa [namesIn, namesTk] using hu)

theorem ok_lit {p : PathPos} {s : String} {ts : List Tk} (h : Ok A .fresh ts) : Ok A p (.lit s :: ts) :=
  fun u hu => h u (by simpa [namesIn, namesTk, PathPos.next] using hu)

theorem ok_group {p : PathPos} {d : Delim} {inner ts : List Tk} (hi : Ok A .fresh inner) (h : Ok A .fresh ts) :
    Ok A p (.group d inner :: ts) := fun u hu => by
  rw [namesIn, namesTk, List.mem_append] at hu
  exact hu.elim (hi u) (h u)

theorem ok_ident {p : PathPos} {s : String} {ts : List Tk} (hs : A (p.use s)) (h : Ok A .segment ts) : Ok A p (.ident s :: ts) := fun u hu => by
  rw [namesIn, namesTk, List.singleton_append, List.mem_cons] at hu
  rcases hu with rfl | hu
  · exact hs
  · exact h u hu

theorem okAny_punct {c : Char} (h1 : c ≠ ':') (h2 : c ≠ '>') {j : Bool} {ts : List Tk} (h : Ok A .fresh ts) : OkAny A (.punct c j :: ts) := by
  intro p
  refine ok_punct ?_
  have : p.next (.punct c j) = .fresh := by cases p <;> simp [PathPos.next, h1, h2]
  rw [this]
  exact h

theorem okAny_gt {j : Bool} {ts : List Tk} (h : Ok A .segment ts) : OkAny A (.punct '>' j :: ts) := by
  intro p
  refine ok_punct ?_
  have : p.next (.punct '>' j) = .segment := by cases p <;> simp [PathPos.next]
  rw [this]
  exact h

/-- What the allowed names have to include. -/
structure Allows (A : NameUse → Prop) : Prop where
  member : ∀ s, A (.member s)
  rooted : A (.rooted "frozen_collections")

theorem ok_members (hA : Allows A) : ∀ (segs : List String) {rest : List Tk}, Ok A .segment rest → Ok A .segment (absPath segs ++ rest)
  | [], _, h => h
  | s :: segs, rest, h => by
    refine ok_punct (ok_punct ?_)
    exact ok_ident (hA.member s) (ok_members hA segs h)

theorem ok_path (hA : Allows A) (segs : List String) {rest : List Tk} (h : Ok A .segment rest) :
    Ok A .fresh (absPath ("frozen_collections" :: segs) ++ rest) :=
  ok_punct (ok_punct (ok_ident hA.rooted (ok_members hA segs h)))

theorem ok_commaSep : ∀ {args : List (List Tk)} {rest : List Tk}, (∀ x ∈ args, Ok A .fresh x) → OkAny A rest →
    Ok A .fresh (commaSep args ++ rest)
  | [], _, _, hr => hr _
  | [x], _, h, hr => ok_then (h x (by simp)) hr
  | x :: y :: xs, rest, h, hr => by
    rw [commaSep, List.append_assoc]
    refine ok_then (h x (by simp)) ?_
    refine okAny_punct (by decide) (by decide) ?_
    exact ok_commaSep (fun z hz => h z (List.mem_cons_of_mem _ hz)) hr

theorem ok_angle {args : List (List Tk)} {rest : List Tk} (h : ∀ x ∈ args, Ok A .fresh x) (hr : Ok A .segment rest) :
    OkAny A (angle args ++ rest) := by
  rw [angle, List.cons_append, List.append_assoc]
  exact okAny_punct (by decide) (by decide) (ok_commaSep h (okAny_gt hr))

theorem ok_commaTerm : ∀ {xs : List (List Tk)}, (∀ x ∈ xs, Ok A .fresh x) → Ok A .fresh (commaTerm xs)
  | [], _ => ok_nil _
  | x :: xs, h => ok_then (h x (by simp)) (okAny_punct (by decide) (by decide) (ok_commaTerm fun z hz => h z (List.mem_cons_of_mem _ hz)))

/-- Tokens of a path, after which `::` continues the path. -/
def OkPath (A : NameUse → Prop) (ts : List Tk) : Prop := ∀ rest, Ok A .segment rest → Ok A .fresh (ts ++ rest)

theorem OkPath.ok {ts : List Tk} (h : OkPath A ts) : Ok A .fresh ts := by
  have := h [] (ok_nil _)
  rwa [List.append_nil] at this

theorem okPath_abs (hA : Allows A) (segs : List String) : OkPath A (absPath ("frozen_collections" :: segs)) := fun _ h => ok_path hA segs h

theorem okPath_sig (hA : Allows A) (segs : List String) {args : List (List Tk)} (h : ∀ x ∈ args, Ok A .fresh x) :
    OkPath A (sigOf ("frozen_collections" :: segs) args) := fun rest hr => by
  rw [sigOf, List.append_assoc, List.append_assoc]
  refine ok_path hA segs (ok_punct (ok_punct ?_))
  exact ok_angle h hr _

theorem ok_call (hA : Allows A) {sig args : List Tk} {f : String} (h : OkPath A sig) (ha : Ok A .fresh args) : Ok A .fresh (callOf sig f args) := by
  rw [callOf, List.append_assoc]
  refine h _ (ok_punct (ok_punct ?_))
  exact ok_ident (hA.member f) (ok_group ha (ok_nil _))

theorem ok_num (p : PathPos) (t : Tok) : Ok A p [numTk t] := ok_lit (ok_nil _)

theorem ok_mag (hA : Allows A) (cm : Magnitude) : Ok A .fresh cm.tokens := by
  cases cm <;> exact (okPath_abs hA _).ok

theorem ok_seed (hA : Allows A) (seed : Tok) : Ok A .fresh (fixedStateCtor seed) := ok_call hA (okPath_abs hA _) (ok_num _ _)

theorem okPath_hasher (hA : Allows A) (h : HasherTok) : OkPath A h.tyTokens := by
  cases h with
  | bridge seed =>
    intro rest hr
    rw [HasherTok.tyTokens, List.append_assoc]
    refine ok_path hA _ (ok_angle (fun x hx => ?_) hr _)
    rw [List.mem_singleton.1 hx]
    exact (okPath_abs hA _).ok
  | scalar => exact okPath_abs hA _
  | length => exact okPath_abs hA _
  | left a b seed =>
    refine okPath_sig hA _ (fun x hx => ?_)
    simp only [List.mem_cons, List.not_mem_nil, or_false] at hx
    rcases hx with rfl | rfl | rfl
    · exact ok_num _ _
    · exact ok_num _ _
    · exact (okPath_abs hA _).ok
  | right a b seed =>
    refine okPath_sig hA _ (fun x hx => ?_)
    simp only [List.mem_cons, List.not_mem_nil, or_false] at hx
    rcases hx with rfl | rfl | rfl
    · exact ok_num _ _
    · exact ok_num _ _
    · exact (okPath_abs hA _).ok

theorem ok_hasher (hA : Allows A) (h : HasherTok) : Ok A .fresh h.ctorTokens := by
  cases h with
  | bridge seed => exact ok_call hA (okPath_abs hA _) (ok_seed hA _)
  | scalar => exact ok_path hA _ (ok_group (ok_nil _) (ok_nil _))
  | length => exact (okPath_abs hA _).ok
  | left a b seed => exact ok_call hA (okPath_hasher hA _) (ok_seed hA _)
  | right a b seed => exact ok_call hA (okPath_hasher hA _) (ok_seed hA _)

theorem ok_slot (hA : Allows A) (s : Tok × Tok) : Ok A .fresh (slotTokens s) :=
  ok_call hA (okPath_abs hA _) (ok_lit (ok_punct (ok_lit (ok_nil _))))

/-- The names in the caller's types are allowed. -/
structure OkTypes (A : NameUse → Prop) (g : GenTypes) : Prop where
  key : Ok A .fresh g.keyType
  value : Ok A .fresh g.value

theorem ok_entries {t : ExprToks K V} {es : List (K × V)} (h : ∀ e ∈ es, Ok A .fresh (t.key e.1) ∧ Ok A .fresh (t.value e.2)) :
    Ok A .fresh (t.entries es) := by
  refine ok_commaTerm (fun x hx => ?_)
  obtain ⟨e, he, rfl⟩ := List.mem_map.1 hx
  exact ok_group (ok_then (h e he).1 (okAny_punct (by decide) (by decide) (h e he).2)) (ok_nil _)

theorem okPath_mapSig (hA : Allows A) {g : GenTypes} (hg : OkTypes A g) (e : Emitted K V) : OkPath A (e.mapSig g) := by
  cases e <;> refine okPath_sig hA _ (fun x hx => ?_) <;> simp only [List.mem_cons, List.not_mem_nil, or_false] at hx
  case hash | hashNC =>
    rcases hx with rfl | rfl | rfl | rfl | rfl | rfl
    · exact hg.key
    · exact hg.value
    · exact ok_num _ _
    · exact ok_num _ _
    · exact ok_mag hA _
    · exact (okPath_hasher hA _).ok
  case sparse =>
    rcases hx with rfl | rfl | rfl | rfl | rfl
    · exact hg.key
    · exact hg.value
    · exact ok_num _ _
    · exact ok_num _ _
    · exact ok_mag hA _
  case fz =>
    rcases hx with rfl | rfl
    · exact hg.key
    · exact hg.value
  all_goals
    rcases hx with rfl | rfl | rfl
    · exact hg.key
    · exact hg.value
    · exact ok_num _ _

theorem okPath_setSig (hA : Allows A) {g : GenTypes} (hg : OkTypes A g) (e : Emitted K V) : OkPath A (e.setSig g) := by
  cases e <;> refine okPath_sig hA _ (fun x hx => ?_) <;> simp only [List.mem_cons, List.not_mem_nil, or_false] at hx
  case hash | hashNC =>
    rcases hx with rfl | rfl | rfl | rfl | rfl
    · exact hg.key
    · exact ok_num _ _
    · exact ok_num _ _
    · exact ok_mag hA _
    · exact (okPath_hasher hA _).ok
  case sparse =>
    rcases hx with rfl | rfl | rfl | rfl
    · exact hg.key
    · exact ok_num _ _
    · exact ok_num _ _
    · exact ok_mag hA _
  case fz =>
    subst hx
    exact hg.key
  all_goals
    rcases hx with rfl | rfl
    · exact hg.key
    · exact ok_num _ _

theorem ok_table (hA : Allows A) {g : GenTypes} (hg : OkTypes A g) {t : ExprToks K V} {es : List (K × V)} (he : Ok A .fresh (t.entries es))
    (name : String) (len numSlots : Tok) (cm : Magnitude) {slots : List (List Tk)} (hs : ∀ x ∈ slots, Ok A .fresh x) :
    Ok A .fresh (tableTokens g t name len numSlots cm slots es) := by
  refine ok_call hA (okPath_sig hA _ fun x hx => ?_) ?_
  · simp only [List.mem_cons, List.not_mem_nil, or_false] at hx
    rcases hx with rfl | rfl | rfl | rfl
    · exact ok_group (ok_then hg.key (okAny_punct (by decide) (by decide) hg.value)) (ok_nil _)
    · exact ok_num _ _
    · exact ok_num _ _
    · exact ok_mag hA _
  · exact ok_group (ok_commaTerm hs) (okAny_punct (by decide) (by decide) (ok_group he (okAny_punct (by decide) (by decide) (ok_nil _) _)) _)

theorem ok_vec {inner : List Tk} (hv : A (.free "vec")) (h : Ok A .fresh inner) : Ok A .fresh (vecMacro inner) :=
  ok_ident hv (okAny_punct (by decide) (by decide) (ok_group h (ok_nil _)) _)

theorem ok_mapCtor (hA : Allows A) {g : GenTypes} (hg : OkTypes A g) {t : ExprToks K V} {e : Emitted K V}
    (he : ∀ x ∈ e.entries, Ok A .fresh (t.key x.1) ∧ Ok A .fresh (t.value x.2)) (hv : UsesVec e → A (.free "vec")) :
    Ok A .fresh (e.mapCtor g t) := by
  have hes := ok_entries he
  cases e with
  | scanRaw len es => exact ok_call hA (okPath_mapSig hA hg _) (ok_group hes (ok_nil _))
  | scanNew len es => exact ok_call hA (okPath_mapSig hA hg _) (ok_vec (hv trivial) hes)
  | eytzingerRaw len es => exact ok_call hA (okPath_mapSig hA hg _) (ok_group hes (ok_nil _))
  | eytzingerNew len es => exact ok_call hA (okPath_mapSig hA hg _) (ok_vec (hv trivial) hes)
  | dense len es min max =>
    exact ok_call hA (okPath_mapSig hA hg _)
      (ok_group hes (okAny_punct (by decide) (by decide) (ok_lit (okAny_punct (by decide) (by decide) (ok_num _ _) _)) _))
  | sparse len numSlots cm es lookup min max =>
    refine ok_call hA (okPath_mapSig hA hg _) (ok_group hes (okAny_punct (by decide) (by decide) (ok_group (ok_commaTerm fun x hx => ?_)
      (okAny_punct (by decide) (by decide) (ok_lit (okAny_punct (by decide) (by decide) (ok_num _ _) _)) _)) _))
    obtain ⟨y, -, rfl⟩ := List.mem_map.1 hx
    exact ok_num _ _
  | hash len numSlots cm slots es hasher =>
    refine ok_call hA (okPath_mapSig hA hg _) (ok_then (ok_table hA hg hes _ _ _ _ fun x hx => ?_) (okAny_punct (by decide) (by decide) (ok_hasher hA _)))
    obtain ⟨y, -, rfl⟩ := List.mem_map.1 hx
    exact ok_slot hA _
  | hashNC len numSlots cm slots es hasher =>
    refine ok_call hA (okPath_mapSig hA hg _) (ok_then (ok_table hA hg hes _ _ _ _ fun x hx => ?_) (okAny_punct (by decide) (by decide) (ok_hasher hA _)))
    obtain ⟨y, -, rfl⟩ := List.mem_map.1 hx
    exact ok_num _ _
  | fz kind es => exact ok_call hA (okPath_mapSig hA hg _) (ok_vec (hv trivial) hes)

theorem ok_sig (hA : Allows A) {g : GenTypes} (hg : OkTypes A g) (e : Emitted K V) : Ok A .fresh (e.sigTokens g) := by
  unfold Emitted.sigTokens
  split
  · exact (okPath_setSig hA hg e).ok
  · exact (okPath_mapSig hA hg e).ok

theorem ok_ctor (hA : Allows A) {g : GenTypes} (hg : OkTypes A g) {t : ExprToks K V} {e : Emitted K V}
    (he : ∀ x ∈ e.entries, Ok A .fresh (t.key x.1) ∧ Ok A .fresh (t.value x.2)) (hv : UsesVec e → A (.free "vec")) :
    Ok A .fresh (e.ctorTokens g t) := by
  unfold Emitted.ctorTokens
  split
  · exact ok_call hA (okPath_setSig hA hg e) (ok_mapCtor hA hg he hv)
  · exact ok_mapCtor hA hg he hv

theorem ok_lazyPath (hA : Allows A) {p : PathPos} (hp : p.use "std" = .free "std") (hs : A (.free "std")) {rest : List Tk} (h : Ok A .segment rest) :
    Ok A p (lazyLockPath ++ rest) :=
  ok_ident (by rw [hp]; exact hs) (ok_punct (ok_punct (ok_ident (hA.member _) (ok_punct (ok_punct (ok_ident (hA.member _) h))))))

theorem ok_decl {α : Type} (hA : Allows A) {vis : Vis} (hvis : Ok A .fresh vis.tokens) {sig : List Tk} (hsig : Ok A .fresh sig) {ctor : α → List Tk}
    {item : Item α} (hctor : Ok A .fresh (ctor item.ctor)) (hk : ∀ s ∈ ["type", "static", "let", "mut"], A (.free s))
    (hd : ∀ s ∈ declaredNames item, A (.free s)) (hl : IsLazy item → A (.free "std")) : Ok A .fresh (declTokens vis sig ctor item) := by
  have hv : posAfter .fresh vis.tokens = .fresh ∨ posAfter .fresh vis.tokens = .segment := by cases vis <;> simp [Vis.tokens, posAfter, PathPos.next]
  have hv' : ∀ s, A (.free s) → A ((posAfter .fresh vis.tokens).use s) := fun s h => by rcases hv with e | e <;> rw [e] <;> exact h
  have hvt : ∀ {s : String} {rest : List Tk}, A (.free s) → Ok A .segment rest → Ok A .fresh (vis.tokens ++ .ident s :: rest) :=
    fun hs h => ok_append.2 ⟨hvis, ok_ident (hv' _ hs) h⟩
  have hend : ∀ {x : List Tk}, Ok A .fresh x → Ok A .fresh (x ++ [.punct ';' false]) :=
    fun h => ok_then h (okAny_punct (by decide) (by decide) (ok_nil _))
  have hcolon : ∀ {ts : List Tk}, Ok A .fresh ts → Ok A .segment (.punct ':' false :: ts) := fun h => ok_punct h
  have heq : ∀ {ts : List Tk}, Ok A .fresh ts → OkAny A (.punct '=' false :: ts) := fun h => okAny_punct (by decide) (by decide) h
  have hlt : ∀ {ts : List Tk}, Ok A .fresh ts → OkAny A (.punct '<' false :: ts) := fun h => okAny_punct (by decide) (by decide) h
  have hsemi : ∀ {ts : List Tk}, Ok A .fresh ts → OkAny A (.punct ';' false :: ts) := fun h => okAny_punct (by decide) (by decide) h
  have hcl : Ok A .fresh [.punct '|' true, .punct '|' false, .group .brace (ctor item.ctor)] :=
    okAny_punct (by decide) (by decide) (okAny_punct (by decide) (by decide) (ok_group hctor (ok_nil _)) _) _
  have hlz : A (.free "std") → Ok A .fresh (lazyLockPath ++ [.punct ':' true, .punct ':' false, .ident "new",
      .group .paren [.punct '|' true, .punct '|' false, .group .brace (ctor item.ctor)], .punct ';' false]) :=
    fun h => ok_lazyPath hA rfl h (ok_punct (ok_punct (ok_ident (hA.member _) (ok_group hcl (hsemi (ok_nil _) _)))))
  cases item with
  | staticConst s a out =>
    cases a with
    | some al =>
      simp only [declTokens, List.append_assoc, List.cons_append, List.nil_append]
      refine hvt (hk _ (by simp)) (ok_ident (hd _ (by simp [declaredNames])) (heq (ok_then hsig (hsemi ?_)) _))
      exact hvt (hk _ (by simp)) (ok_ident (hd _ (by simp [declaredNames])) (hcolon (ok_ident (hd _ (by simp [declaredNames])) (heq (hend hctor) _))))
    | none =>
      simp only [declTokens, List.append_assoc, List.cons_append, List.nil_append]
      exact hvt (hk _ (by simp)) (ok_ident (hd _ (by simp [declaredNames])) (hcolon (ok_then hsig (heq (hend hctor)))))
  | staticLazy s a out =>
    have hs := hl trivial
    cases a with
    | some al =>
      simp only [declTokens, List.append_assoc, List.cons_append, List.nil_append]
      refine hvt (hk _ (by simp)) (ok_ident (hd _ (by simp [declaredNames])) (heq (ok_then hsig (hsemi ?_)) _))
      refine hvt (hk _ (by simp)) (ok_ident (hd _ (by simp [declaredNames])) (hcolon (ok_lazyPath hA rfl hs (hlt ?_ _))))
      exact ok_ident (hd _ (by simp [declaredNames])) (okAny_gt (heq (hlz hs) _) _)
    | none =>
      simp only [declTokens, List.append_assoc, List.cons_append, List.nil_append]
      refine hvt (hk _ (by simp)) (ok_ident (hd _ (by simp [declaredNames])) (hcolon (ok_lazyPath hA rfl hs (hlt ?_ _))))
      exact ok_then hsig (okAny_gt (heq (hlz hs) _))
  | letStmt mu s a out =>
    have hmut : ∀ {rest : List Tk}, Ok A .segment rest → Ok A .segment ((if mu then [.ident "mut"] else []) ++ .ident s :: rest) := by
      intro rest h
      have hs := ok_ident (A := A) (p := .segment) (s := s) (hd _ (by simp [declaredNames])) h
      cases mu
      · exact hs
      · exact ok_ident (hk _ (by simp)) hs
    cases a with
    | some al =>
      simp only [declTokens, List.append_assoc, List.cons_append, List.nil_append]
      refine ok_ident (hk _ (by simp)) (ok_ident (hd _ (by simp [declaredNames])) (heq (ok_then hsig (hsemi ?_)) _))
      exact ok_ident (hk _ (by simp)) (hmut (hcolon (ok_ident (hd _ (by simp [declaredNames])) (heq (hend hctor) _))))
    | none =>
      simp only [declTokens, List.append_assoc, List.cons_append, List.nil_append]
      exact ok_ident (hk _ (by simp)) (hmut (hcolon (ok_then hsig (heq (hend hctor)))))
  | expr out => exact hctor

/-! ## Names that do occur -/

theorem mem_group {d : Delim} {inner : List Tk} {u : NameUse} (hu : u ∈ namesIn .fresh inner) :
    ∀ {ts : List Tk} {p : PathPos}, Tk.group d inner ∈ ts → u ∈ namesIn p ts
  | [], _, h => by cases h
  | t :: ts, p, h => by
    rw [namesIn, List.mem_append]
    rcases List.mem_cons.1 h with rfl | h
    · exact .inl (by rw [namesTk]; exact hu)
    · exact .inr (mem_group hu h)

/-- The call of a function with arguments in which the name occurs. -/
theorem call_group {u : NameUse} {sig args : List Tk} {f : String} (hu : u ∈ namesIn .fresh args) :
    ∃ d inner, Tk.group d inner ∈ callOf sig f args ∧ u ∈ namesIn .fresh inner :=
  ⟨.paren, args, by simp [callOf], hu⟩

theorem vec_mem (inner : List Tk) : NameUse.free "vec" ∈ namesIn .fresh (vecMacro inner) := by
  simp [vecMacro, namesIn, namesTk, PathPos.use]

theorem ctor_vec {g : GenTypes} {t : ExprToks K V} {e : Emitted K V} (h : UsesVec e) :
    ∃ d inner, Tk.group d inner ∈ e.ctorTokens g t ∧ NameUse.free "vec" ∈ namesIn .fresh inner := by
  have hm : ∃ d inner, Tk.group d inner ∈ e.mapCtor g t ∧ NameUse.free "vec" ∈ namesIn .fresh inner := by
    cases e with
    | scanNew => exact call_group (vec_mem _)
    | eytzingerNew => exact call_group (vec_mem _)
    | fz => exact call_group (vec_mem _)
    | _ => exact h.elim
  unfold Emitted.ctorTokens
  split
  · obtain ⟨d, inner, h1, h2⟩ := hm
    exact call_group (mem_group h2 h1)
  · exact hm

theorem decl_group {α : Type} {vis : Vis} {sig : List Tk} {ctor : α → List Tk} {item : Item α} {u : NameUse}
    (h : ∃ d inner, Tk.group d inner ∈ ctor item.ctor ∧ u ∈ namesIn .fresh inner) : u ∈ namesIn .fresh (declTokens vis sig ctor item) := by
  obtain ⟨d, inner, h1, h2⟩ := h
  cases item with
  | staticConst s a out =>
    have h1' : Tk.group d inner ∈ ctor out := h1
    cases a <;> exact mem_group h2 (d := d) (by simp [declTokens, h1'])
  | staticLazy s a out =>
    have h1' : Tk.group d inner ∈ ctor out := h1
    have h3 : u ∈ namesIn .fresh (ctor out) := mem_group h2 h1'
    have h4 : u ∈ namesIn .fresh [Tk.punct '|' true, .punct '|' false, .group .brace (ctor out)] := mem_group h3 (d := .brace) (by simp)
    cases a <;> exact mem_group h4 (d := .paren) (by simp [declTokens])
  | letStmt mu s a out =>
    have h1' : Tk.group d inner ∈ ctor out := h1
    cases a <;> exact mem_group h2 (d := d) (by simp [declTokens, h1'])
  | expr out => exact mem_group h2 h1

theorem decl_std {α : Type} {vis : Vis} {sig : List Tk} {ctor : α → List Tk} {item : Item α} (h : IsLazy item) :
    NameUse.free "std" ∈ namesIn .fresh (declTokens vis sig ctor item) := by
  have key : ∀ (pre post : List Tk) (s : String),
      NameUse.free "std" ∈ namesIn .fresh (pre ++ ([.ident "static", .ident s, .punct ':' false] ++ (lazyLockPath ++ post))) := by
    intro pre post s
    rw [namesIn_append, List.mem_append]
    refine .inr ?_
    rw [namesIn_append, List.mem_append]
    refine .inr ?_
    have : posAfter (posAfter .fresh pre) [.ident "static", .ident s, .punct ':' false] = .fresh := by simp [posAfter, PathPos.next]
    rw [this, lazyLockPath]
    simp [namesIn, namesTk, PathPos.use]
  cases item with
  | staticLazy s a out =>
    cases a with
    | some al =>
      have := key (vis.tokens ++ [.ident "type", .ident al, .punct '=' false] ++ sig ++ [.punct ';' false] ++ vis.tokens)
        ([.punct '<' false, .ident al, .punct '>' false, .punct '=' false] ++ lazyLockPath ++ [.punct ':' true, .punct ':' false, .ident "new",
          .group .paren ([.punct '|' true, .punct '|' false, .group .brace (ctor out)]), .punct ';' false]) s
      simpa [declTokens, List.append_assoc] using this
    | none =>
      have := key vis.tokens ([.punct '<' false] ++ sig ++ [.punct '>' false, .punct '=' false] ++ lazyLockPath ++
        [.punct ':' true, .punct ':' false, .ident "new", .group .paren ([.punct '|' true, .punct '|' false, .group .brace (ctor out)]),
          .punct ';' false]) s
      simpa [declTokens, List.append_assoc] using this
  | _ => exact h.elim

/-! ## Types -/

theorem absPath_eq : ∀ p : List String, absPath p = rootPath p
  | [] => rfl
  | s :: p => by
    have := absPath_eq p
    simp only [rootPath, List.flatMap_cons] at this ⊢
    rw [absPath, this]
    rfl

theorem callOf_eq (sig : List Tk) (f : String) (args : List Tk) : callOf sig f args = callToks sig f args := by
  simp [callOf, callToks, colon2]

variable {U : List Tk → Prop}

theorem argToks_commaSep [Target] : ∀ {args : List (List Tk)} {As : List RTy}, List.Forall₂ (ArgTok U) args As → As ≠ [] →
    ArgToks U (commaSep args) As
  | [], _, h, hne => by cases h; exact (hne rfl).elim
  | [x], _, h, _ => by
    cases h with
    | cons hx h =>
      cases h
      exact .one hx
  | x :: y :: xs, _, h, _ => by
    cases h with
    | cons hx h =>
      refine .cons hx (argToks_commaSep h ?_)
      cases h
      simp

theorem exprPath_sig [Target] {p : List String} {args : List (List Tk)} {As : List RTy} (h : List.Forall₂ (ArgTok U) args As) (hne : As ≠ []) :
    ExprPath U (sigOf p args) p As := by
  refine ⟨commaSep args, argToks_commaSep h hne, ?_⟩
  simp [sigOf, absPath_eq, colon2, angle]

theorem ExprPath.ty [Target] {ts : List Tk} {p : List String} {As : List RTy} (h : ExprPath U ts p As) : TyToks U ts (.adt p As) := by
  obtain ⟨a, ha, rfl⟩ := h
  exact .turbofish ha

theorem items_commaTerm {α : Type} {R : List Tk → α → Prop} : ∀ {xs : List (List Tk)} {as : List α}, List.Forall₂ R xs as →
    Items R (commaTerm xs) as
  | [], _, h => by cases h; exact .nil
  | x :: xs, _, h => by
    cases h with
    | cons hx h => exact .cons hx (items_commaTerm h)

theorem argNum [Target] {t : Tok} {n : Nat} (h : UsizeLit t n) : ArgTok U [numTk t] (.const n) := .const h

theorem mag_alias [Target] (cm : Magnitude) : TyToks U cm.tokens (.prim cm.typeName) := by
  cases cm <;> rw [Magnitude.tokens, absPath_eq] <;> exact .alias (by decide)

theorem mag_max [Target] (cm : Magnitude) : (cm.typeName, cm.maxCapacity) ∈ primMax := by
  cases cm <;> simp [primMax, Magnitude.typeName, Magnitude.maxCapacity]

theorem litOf_mag [Target] {cm : Magnitude} {t : Tok} {n : Nat} (h : MagLit cm t n) : LitOf cm.typeName [numTk t] n := ⟨t, _, rfl, mag_max cm, h⟩

theorem litOf_usize [Target] {t : Tok} {n : Nat} (h : UsizeLit t n) : LitOf "usize" [numTk t] n := ⟨t, _, rfl, mag_max .large, h⟩

theorem fixedState_ty [Target] : TyToks U fixedStatePath fixedState := by
  rw [fixedStatePath, absPath_eq]
  refine .plain ?_
  simp [aliases]

theorem seedToks {t : Tok} {n : Nat} (h : NumLit "u64" (2 ^ 64 - 1) t n) : SeedToks (fixedStateCtor t) n :=
  ⟨t, by rw [fixedStateCtor, callOf_eq, fixedStatePath, absPath_eq]; rfl, h⟩

/-- Hashers: the declared type and the constructor fit, and the value is that of `HasherTok.eval`. -/
theorem hasher_means [Target] {h : HasherTok} (hh : HasherTyped h) :
    ∃ T hv, h.eval = some hv ∧ TyToks U h.tyTokens T ∧ HasherMeans U h.ctorTokens T hv := by
  have h64 : ∀ {t : Tok} {n : Nat}, NumLit "u64" (2 ^ 64 - 1) t n → litU64 t = some n := fun h => numLit_iff.2 h
  have hlu : ∀ {t : Tok} {n : Nat}, UsizeLit t n → litUsize t = some n := fun h => numLit_iff.2 h
  cases h with
  | bridge seed =>
    obtain ⟨n, hn⟩ := hh
    refine ⟨.adt ["frozen_collections", "hashers", "BridgeHasher"] [fixedState], .bridge n, by simp only [HasherTok.eval, h64 hn, Option.map_some], ?_, ?_⟩
    rotate_left
    · rw [HasherTok.ctorTokens, callOf_eq, absPath_eq]
      exact .bridge (seedToks hn)
    · have := TyToks.generic (U := U) (p := ["frozen_collections", "hashers", "BridgeHasher"]) (.one (.ty fixedState_ty))
      simpa [HasherTok.tyTokens, absPath_eq, angle, commaSep] using this
  | scalar =>
    refine ⟨.adt ["frozen_collections", "hashers", "ScalarHasher"] [], _, rfl, ?_, ?_⟩
    rotate_left
    · rw [HasherTok.ctorTokens, absPath_eq]
      exact .scalar
    · rw [HasherTok.tyTokens, absPath_eq]
      exact .plain (by simp [aliases])
  | length =>
    refine ⟨.adt ["frozen_collections", "hashers", "LengthHasher"] [], _, rfl, ?_, ?_⟩
    rotate_left
    · rw [HasherTok.ctorTokens, absPath_eq]
      exact .length
    · rw [HasherTok.tyTokens, absPath_eq]
      exact .plain (by simp [aliases])
  | left a b s =>
    obtain ⟨a', b', n, h1, h2, -, h3⟩ := hh
    have hp : ExprPath U (HasherTok.left a b s).tyTokens ["frozen_collections", "hashers", "InlineLeftRangeHasher"] [.const a', .const b', fixedState] :=
      exprPath_sig (.cons (argNum h1) (.cons (argNum h2) (.cons (.ty fixedState_ty) .nil))) (by simp)
    refine ⟨_, .left a' b' n, by simp only [HasherTok.eval, hlu h1, hlu h2, h64 h3], hp.ty, ?_⟩
    rw [HasherTok.ctorTokens, callOf_eq]
    exact .left hp (seedToks h3)
  | right a b s =>
    obtain ⟨a', b', n, h1, h2, -, h3⟩ := hh
    have hp : ExprPath U (HasherTok.right a b s).tyTokens ["frozen_collections", "hashers", "InlineRightRangeHasher"] [.const a', .const b', fixedState] :=
      exprPath_sig (.cons (argNum h1) (.cons (argNum h2) (.cons (.ty fixedState_ty) .nil))) (by simp)
    refine ⟨_, .right a' b' n, by simp only [HasherTok.eval, hlu h1, hlu h2, h64 h3], hp.ty, ?_⟩
    rw [HasherTok.ctorTokens, callOf_eq]
    exact .right hp (seedToks h3)

theorem mags_means [Target] {cm : Magnitude} : ∀ {ts : List Tok}, (∀ t ∈ ts, ∃ v, MagLit cm t v) →
    ∃ vs, litMags cm ts = some vs ∧ vs.length = ts.length ∧ List.Forall₂ (LitOf cm.typeName) (ts.map (fun x => [numTk x])) vs
  | [], _ => ⟨[], rfl, rfl, .nil⟩
  | t :: ts, h => by
    obtain ⟨v, hv⟩ := h t (by simp)
    obtain ⟨vs, h1, h2, h3⟩ := mags_means (ts := ts) (fun t ht => h t (by simp [ht]))
    have hv' : litMag cm t = some v := numLit_iff.2 hv
    exact ⟨v :: vs, by simp only [litMags, hv', h1], by simp [h2], .cons (litOf_mag hv) h3⟩

theorem slots_means [Target] {cm : Magnitude} : ∀ {ts : List (Tok × Tok)}, (∀ t ∈ ts, ∃ a b, MagLit cm t.1 a ∧ MagLit cm t.2 b) →
    ∃ vs, litSlots cm ts = some vs ∧ vs.length = ts.length ∧ List.Forall₂ (SlotToks cm.typeName) (ts.map slotTokens) vs
  | [], _ => ⟨[], rfl, rfl, .nil⟩
  | t :: ts, h => by
    obtain ⟨a, b, ha, hb⟩ := h t (by simp)
    obtain ⟨vs, h1, h2, h3⟩ := slots_means (ts := ts) (fun t ht => h t (by simp [ht]))
    have ha' : litMag cm t.1 = some a := numLit_iff.2 ha
    have hb' : litMag cm t.2 = some b := numLit_iff.2 hb
    refine ⟨⟨a, b⟩ :: vs, by simp only [litSlots, ha', hb', h1], by simp [h2], .cons ⟨[numTk t.1], [numTk t.2], ?_, litOf_mag ha, litOf_mag hb⟩ h3⟩
    rw [slotTokens, callOf_eq, absPath_eq]
    rfl

variable {P : Prog K V F} {g : GenTypes} {t : ExprToks K V}

theorem entries_means {tk tv : RTy} : ∀ {es : List (K × V)}, (∀ x ∈ es, P.keyExpr (t.key x.1) tk x.1 ∧ P.valExpr (t.value x.2) tv x.2) →
    Items (PairToks P tk tv) (t.entries es) es := by
  intro es h
  refine items_commaTerm ?_
  induction es with
  | nil => exact .nil
  | cons x es ih =>
    refine .cons ⟨t.key x.1, t.value x.2, rfl, (h x (by simp)).1, (h x (by simp)).2⟩ (ih fun y hy => h y (List.mem_cons_of_mem _ hy))

theorem value_ty [Target] (hv : ∀ ts, g.valueType = some ts → U ts) : TyToks U g.value (GenTypes.valueRTy g) := by
  unfold GenTypes.value GenTypes.valueRTy
  cases h : g.valueType with
  | none => exact .unit
  | some ts => exact .user (hv ts h)

/-- The map and its type, with the type that the set has. -/
theorem map_means [Target] {e : Emitted K V} (hw : WellTyped e) (hc : CallerOk P g t e) (hfz : ∀ kind es, e = .fz kind es → (P.fz kind es).isSome) :
    ∃ p q f args r, e.compile P.eqK P.cmp P.fz = some r ∧ (q, f, p) ∈ setCtors ∧ f = e.setFn ∧
      ExprPath P.userTy (e.mapSig g) p (.user g.keyType :: GenTypes.valueRTy g :: args) ∧
      ExprPath P.userTy (e.setSig g) q (.user g.keyType :: args) ∧
      MapMeans P (e.mapCtor g t) (.adt p (.user g.keyType :: GenTypes.valueRTy g :: args)) r := by
  have hlen : ∀ {α : Type} {t : Tok} {xs : List α}, UsizeLit t xs.length → arrayLen t xs = some xs.length :=
    fun h => arrayLen_of (numLit_iff.2 h) rfl
  have hlu : ∀ {t : Tok} {n : Nat}, UsizeLit t n → litUsize t = some n := fun h => numLit_iff.2 h
  have hk : ArgTok P.userTy g.keyType (.user g.keyType) := .ty (.user hc.keyTy)
  have hv : ArgTok P.userTy g.value (GenTypes.valueRTy g) := .ty (value_ty hc.valTy)
  have he := entries_means (P := P) (t := t) hc.exprs
  have hm : ∀ cm : Magnitude, ArgTok P.userTy cm.tokens (.prim cm.typeName) := fun cm => .ty (mag_alias cm)
  cases e with
  | scanRaw len es =>
    have h1 := argNum (U := P.userTy) hw
    have hp : ExprPath P.userTy ((Emitted.scanRaw len es).mapSig g) (mapPath "InlineScanMap") _ := exprPath_sig (.cons hk (.cons hv (.cons h1 .nil))) (by simp)
    refine ⟨_, _, "new", _, _, by simp only [Emitted.compile, hlen hw, Option.map_some]; rfl, by decide, rfl, hp,
      exprPath_sig (.cons hk (.cons h1 .nil)) (by simp), ?_⟩
    rw [Emitted.mapCtor, callOf_eq]
    exact .scanRaw hp he rfl
  | scanNew len es =>
    have h1 := argNum (U := P.userTy) hw
    have hp : ExprPath P.userTy ((Emitted.scanNew len es).mapSig g) (mapPath "InlineScanMap") _ := exprPath_sig (.cons hk (.cons hv (.cons h1 .nil))) (by simp)
    refine ⟨_, _, "new", _, _, by simp only [Emitted.compile, hlu hw, Option.map_some]; rfl, by decide, rfl, hp,
      exprPath_sig (.cons hk (.cons h1 .nil)) (by simp), ?_⟩
    rw [Emitted.mapCtor, callOf_eq]
    exact .scanNew hp he
  | eytzingerRaw len es =>
    have h1 := argNum (U := P.userTy) hw
    have hp : ExprPath P.userTy ((Emitted.eytzingerRaw len es).mapSig g) (mapPath "InlineEytzingerSearchMap") _ :=
      exprPath_sig (.cons hk (.cons hv (.cons h1 .nil))) (by simp)
    refine ⟨_, _, "new", _, _, by simp only [Emitted.compile, hlen hw, Option.map_some]; rfl, by decide, rfl, hp,
      exprPath_sig (.cons hk (.cons h1 .nil)) (by simp), ?_⟩
    rw [Emitted.mapCtor, callOf_eq]
    exact .eytzingerRaw hp he rfl
  | eytzingerNew len es =>
    have h1 := argNum (U := P.userTy) hw
    have hp : ExprPath P.userTy ((Emitted.eytzingerNew len es).mapSig g) (mapPath "InlineEytzingerSearchMap") _ :=
      exprPath_sig (.cons hk (.cons hv (.cons h1 .nil))) (by simp)
    refine ⟨_, _, "new", _, _, by simp only [Emitted.compile, hlu hw, Option.map_some]; rfl, by decide, rfl, hp,
      exprPath_sig (.cons hk (.cons h1 .nil)) (by simp), ?_⟩
    rw [Emitted.mapCtor, callOf_eq]
    exact .eytzingerNew hp he
  | dense len es mn mx =>
    obtain ⟨hw, a, b, h2, h3, -⟩ := hw
    have h1 := argNum (U := P.userTy) hw
    have hp : ExprPath P.userTy ((Emitted.dense len es mn mx).mapSig g) (mapPath "InlineDenseScalarLookupMap") _ :=
      exprPath_sig (.cons hk (.cons hv (.cons h1 .nil))) (by simp)
    refine ⟨_, _, "new", _, _, by simp only [Emitted.compile, hlen hw, hlu h2, hlu h3]; rfl, by decide, rfl, hp,
      exprPath_sig (.cons hk (.cons h1 .nil)) (by simp), ?_⟩
    rw [Emitted.mapCtor, callOf_eq]
    exact .dense hp he rfl (litOf_usize h2) (litOf_usize h3)
  | sparse len ns cm es lookup mn mx =>
    obtain ⟨hw, h2, h3, a, b, h4, h5, -⟩ := hw
    obtain ⟨vs, hvs, hvl, hvm⟩ := mags_means (fun t ht => (h3 t ht).imp fun v h => h.1)
    have h1 := argNum (U := P.userTy) hw
    have h2' := argNum (U := P.userTy) h2
    have hp : ExprPath P.userTy ((Emitted.sparse len ns cm es lookup mn mx).mapSig g) (mapPath "InlineSparseScalarLookupMap") _ :=
      exprPath_sig (.cons hk (.cons hv (.cons h1 (.cons h2' (.cons (hm cm) .nil))))) (by simp)
    refine ⟨_, _, "new", _, _, by simp only [Emitted.compile, hlen hw, hlen h2, hvs, hlu h4, hlu h5]; rfl, by decide, rfl, hp,
      exprPath_sig (.cons hk (.cons h1 (.cons h2' (.cons (hm cm) .nil)))) (by simp), ?_⟩
    rw [Emitted.mapCtor, callOf_eq]
    exact .sparse hp he rfl (items_commaTerm hvm) hvl (litOf_usize h4) (litOf_usize h5)
  | hash len ns cm slots es hasher =>
    obtain ⟨hw, h2, -, h3, h4⟩ := hw
    obtain ⟨vs, hvs, hvl, hvm⟩ := slots_means (fun t ht => by obtain ⟨a, b, ha, hb, -⟩ := h3 t ht; exact ⟨a, b, ha, hb⟩)
    obtain ⟨th, hv', hh1, hh2, hh3⟩ := hasher_means (U := P.userTy) h4
    have h1 := argNum (U := P.userTy) hw
    have h2' := argNum (U := P.userTy) h2
    have hp : ExprPath P.userTy ((Emitted.hash len ns cm slots es hasher).mapSig g) (mapPath "InlineHashMap") _ :=
      exprPath_sig (.cons hk (.cons hv (.cons h1 (.cons h2' (.cons (hm cm) (.cons (.ty hh2) .nil)))))) (by simp)
    refine ⟨_, _, "new", _, _, by simp only [Emitted.compile, hlen hw, hlen h2, hvs, hh1]; rfl, by decide, rfl, hp,
      exprPath_sig (.cons hk (.cons h1 (.cons h2' (.cons (hm cm) (.cons (.ty hh2) .nil))))) (by simp), ?_⟩
    rw [Emitted.mapCtor, callOf_eq, tableTokens, callOf_eq]
    refine .hash hp (exprPath_sig (.cons (.ty (.pair (.user hc.keyTy) (value_ty hc.valTy))) (.cons h1 (.cons h2' (.cons (hm cm) .nil)))) (by simp))
      ⟨[.punct ',' false], rfl, .inr rfl⟩ (items_commaTerm hvm) hvl he rfl hh3
  | hashNC len ns cm slots es hasher =>
    obtain ⟨hw, h2, -, h3, h4⟩ := hw
    obtain ⟨vs, hvs, hvl, hvm⟩ := mags_means (fun t ht => (h3 t ht).imp fun v h => h.1)
    obtain ⟨th, hv', hh1, hh2, hh3⟩ := hasher_means (U := P.userTy) h4
    have h1 := argNum (U := P.userTy) hw
    have h2' := argNum (U := P.userTy) h2
    have hp : ExprPath P.userTy ((Emitted.hashNC len ns cm slots es hasher).mapSig g) (mapPath "InlineHashMapNoCollisions") _ :=
      exprPath_sig (.cons hk (.cons hv (.cons h1 (.cons h2' (.cons (hm cm) (.cons (.ty hh2) .nil)))))) (by simp)
    refine ⟨_, _, "new", _, _, by simp only [Emitted.compile, hlen hw, hlen h2, hvs, hh1]; rfl, by decide, rfl, hp,
      exprPath_sig (.cons hk (.cons h1 (.cons h2' (.cons (hm cm) (.cons (.ty hh2) .nil))))) (by simp), ?_⟩
    rw [Emitted.mapCtor, callOf_eq, tableTokens, callOf_eq]
    refine .hashNC hp (exprPath_sig (.cons (.ty (.pair (.user hc.keyTy) (value_ty hc.valTy))) (.cons h1 (.cons h2' (.cons (hm cm) .nil)))) (by simp))
      ⟨[.punct ',' false], rfl, .inr rfl⟩ (items_commaTerm hvm) hvl he rfl hh3
  | fz kind es =>
    obtain ⟨r, hr⟩ := Option.isSome_iff_exists.1 (hfz kind es rfl)
    have hp : ExprPath P.userTy ((Emitted.fz kind es).mapSig g) ["frozen_collections", kind.mapName] [.user g.keyType, GenTypes.valueRTy g] :=
      exprPath_sig (.cons hk (.cons hv .nil)) (by simp)
    have hq : ExprPath P.userTy ((Emitted.fz kind es).setSig g) ["frozen_collections", kind.setName] [.user g.keyType] :=
      exprPath_sig (.cons hk .nil) (by simp)
    refine ⟨_, _, "from", _, _, by simp only [Emitted.compile, hr, Option.map_some]; rfl, ?_, rfl, hp, hq, ?_⟩
    · cases kind <;> decide
    · rw [Emitted.mapCtor, callOf_eq]
      exact .fz (by cases kind <;> decide) hp he hr

end Frozen.Props
