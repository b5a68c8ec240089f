import Mathlib.Tactic.Tauto
import Verif.Props.BorrowSpec
import Verif.Lemmas.Calls

/-! # Lemmas: references created by `get_disjoint_mut` -/

namespace Frozen.Model

open Frozen Frozen.Spec Frozen.Props

variable {M Q K V T : Type}

/-! ## Abstract runs -/

/-- The part of a chain from tag `p` down. -/
def cut (p : Nat) (c : List (Nat × Bool)) : List (Nat × Bool) := c.dropWhile (fun x => x.1 != p)

/-- A chain of tags (top first, with whether they may write) that are certainly on the borrow stack, and a bound on all
tags. -/
def chStep (l : Loc) (s : List (Nat × Bool) × Nat) : MemOp → Option (List (Nat × Bool) × Nat)
  | .retag p n k fp =>
    if fp l then
      if n < s.2 then none else
      match cut p s.1 with
      | [] => none
      | (q, f) :: r =>
        match k, f with
        | .shr, f => some ((n, false) :: (q, f) :: r, n + 1)
        | .mut, true => some ((n, true) :: (q, true) :: r, n + 1)
        | .raw, true => some ((n, true) :: (q, true) :: r, n + 1)
        | _, false => none
    else some s
  | .read p fp =>
    if fp l then
      match cut p s.1 with
      | [] => none
      | x :: r => some (x :: r, s.2)
    else some s
  | .write p fp =>
    if fp l then
      match cut p s.1 with
      | (q, true) :: r => some ((q, true) :: r, s.2)
      | _ => none
    else some s

def chRun (l : Loc) : List (Nat × Bool) × Nat → List MemOp → Option (List (Nat × Bool) × Nat)
  | s, [] => some s
  | s, op :: ops => (chStep l s op).bind (fun s' => chRun l s' ops)

/-- The tags known at a location, with whether they are derived by mutable references only, and a bound on all tags. -/
def envStep (l : Loc) (s : (Nat → Option Bool) × Nat) : MemOp → Option ((Nat → Option Bool) × Nat)
  | .retag p n k fp =>
    if fp l then
      if n < s.2 then none else
      (s.1 p).map (fun b => (fun c => if c = n then some (if k = .shr then false else b) else s.1 c, n + 1))
    else some s
  | .read p fp => if fp l then (s.1 p).map (fun _ => s) else some s
  | .write _ _ => none

def envRun (l : Loc) : (Nat → Option Bool) × Nat → List MemOp → Option ((Nat → Option Bool) × Nat)
  | s, [] => some s
  | s, op :: ops => (envStep l s op).bind (fun s' => envRun l s' ops)

theorem chRun_append (l : Loc) (s : List (Nat × Bool) × Nat) (a b : List MemOp) :
    chRun l s (a ++ b) = (chRun l s a).bind (fun s' => chRun l s' b) := by
  induction a generalizing s with
  | nil => rfl
  | cons x a ih =>
    simp only [List.cons_append, chRun]
    cases chStep l s x with
    | none => rfl
    | some s' => exact ih s'

theorem envRun_append (l : Loc) (s : (Nat → Option Bool) × Nat) (a b : List MemOp) :
    envRun l s (a ++ b) = (envRun l s a).bind (fun s' => envRun l s' b) := by
  induction a generalizing s with
  | nil => rfl
  | cons x a ih =>
    simp only [List.cons_append, envRun]
    cases envStep l s x with
    | none => rfl
    | some s' => exact ih s'

theorem sbRun_append (l : Loc) (s : SbStack) (a b : List MemOp) :
    sbRun l s (a ++ b) = (sbRun l s a).bind (fun s' => sbRun l s' b) := by
  induction a generalizing s with
  | nil => rfl
  | cons x a ih =>
    simp only [List.cons_append, sbRun]
    cases sbStep l s x with
    | none => rfl
    | some s' => exact ih s'

theorem tbRun_append (l : Loc) (s : List TbNode) (a b : List MemOp) :
    tbRun l s (a ++ b) = (tbRun l s a).bind (fun s' => tbRun l s' b) := by
  induction a generalizing s with
  | nil => rfl
  | cons x a ih =>
    simp only [List.cons_append, tbRun]
    cases tbStep l s x with
    | none => rfl
    | some s' => exact ih s'

theorem cut_append {b : Nat} {f : Bool} {L R : List (Nat × Bool)} (h : ∀ x ∈ L, x.1 ≠ b) :
    cut b (L ++ (b, f) :: R) = (b, f) :: R := by
  induction L with
  | nil => simp [cut]
  | cons x L ih =>
    have := h x (by simp)
    unfold cut at *
    rw [List.cons_append, List.dropWhile_cons, if_pos (by simpa using this)]
    exact ih (fun y hy => h y (by simp [hy]))

theorem cut_head {b : Nat} {f : Bool} {R : List (Nat × Bool)} : cut b ((b, f) :: R) = (b, f) :: R := by
  simp [cut]

theorem cut_cons_ne {a b : Nat} {f : Bool} {R : List (Nat × Bool)} (h : a ≠ b) :
    cut b ((a, f) :: R) = cut b R := by
  unfold cut
  rw [List.dropWhile_cons, if_pos (by simpa using h)]

/-! ## Soundness for Stacked Borrows -/

/-- Every tag of the chain is on the stack, in order, with a suitable permission. -/
inductive OnStack : List (Nat × Bool) → SbStack → Prop
  | nil (st) : OnStack [] st
  | skip {c st} (x) : OnStack c st → OnStack c (x :: st)
  | keep {c st t} {f : Bool} {perm : SbPerm} (h1 : f = true → perm.writes = true) (h2 : perm ≠ .disabled) :
      OnStack c st → OnStack ((t, f) :: c) ((t, perm) :: st)

theorem OnStack.tags {c : List (Nat × Bool)} {st : SbStack} (h : OnStack c st) :
    ∀ x ∈ c, x.1 ∈ st.map Prod.fst := by
  induction h with
  | nil => intro x hx; cases hx
  | skip x _ ih => intro y hy; exact List.mem_cons_of_mem _ (ih y hy)
  | keep h1 h2 _ ih =>
    intro y hy
    rcases List.mem_cons.1 hy with rfl | hy
    · simp
    · exact List.mem_cons_of_mem _ (ih y hy)

theorem OnStack.append {c : List (Nat × Bool)} {st : SbStack} (h : OnStack c st) (a : SbStack) : OnStack c (a ++ st) := by
  induction a with
  | nil => exact h
  | cons x a ih => exact .skip x ih

theorem cut_mem {p : Nat} {c r : List (Nat × Bool)} {x : Nat × Bool} (h : cut p c = x :: r) : x ∈ c ∧ x.1 = p := by
  have h1 : x ∈ cut p c := by rw [h]; simp
  refine ⟨(List.dropWhile_sublist _).mem h1, ?_⟩
  have := List.head?_dropWhile_not (fun x : Nat × Bool => x.1 != p) c
  unfold cut at h
  rw [h] at this
  simpa using this

theorem sbWrite_sound {p : Nat} {c r : List (Nat × Bool)} {q : Nat} {st : SbStack} (ho : OnStack c st)
    (hn : (st.map Prod.fst).Nodup) (hc : cut p c = (q, true) :: r) (block : SbStack) :
    ∃ s', sbWrite p block st = some s' ∧ OnStack ((q, true) :: r) s' ∧ s'.Sublist (block ++ st) := by
  induction ho generalizing block with
  | nil st => cases hc
  | skip x ho ih =>
    rename_i c st
    have hx : ¬ (x.1 = p ∧ x.2.writes = true) := by
      rintro ⟨hx, -⟩
      obtain ⟨hm, hq⟩ := cut_mem hc
      have := ho.tags _ hm
      rw [hq, ← hx] at this
      rw [List.map_cons] at hn
      exact (List.nodup_cons.1 hn).1 this
    rw [List.map_cons] at hn
    obtain ⟨s', h1, h2, h3⟩ := ih (List.nodup_cons.1 hn).2 hc (if x.2 = .sharedRW then block ++ [x] else [])
    refine ⟨s', ?_, h2, h3.trans ?_⟩
    · unfold sbWrite
      rw [if_neg hx]
      exact h1
    · split
      · simp
      · exact (List.nil_append _).symm ▸ (List.sublist_cons_self _ _).trans (List.sublist_append_right _ _)
  | keep g1 g2 ho ih =>
    rename_i c st t f perm
    by_cases ht : t = p
    · subst ht
      rw [cut_head] at hc
      cases hc
      refine ⟨(if perm = .sharedRW then block else []) ++ (q, perm) :: st, ?_, ?_, ?_⟩
      · unfold sbWrite
        rw [if_pos ⟨rfl, g1 rfl⟩]
      · exact (OnStack.keep g1 g2 ho).append _
      · split
        · exact List.Sublist.refl _
        · exact List.sublist_append_right _ _
    · rw [cut_cons_ne ht] at hc
      rw [List.map_cons] at hn
      obtain ⟨s', h1, h2, h3⟩ := ih (List.nodup_cons.1 hn).2 hc (if perm = .sharedRW then block ++ [(t, perm)] else [])
      refine ⟨s', ?_, h2, h3.trans ?_⟩
      · unfold sbWrite
        rw [if_neg (fun h => ht h.1)]
        exact h1
      · split
        · simp
        · exact (List.nil_append _).symm ▸ (List.sublist_cons_self _ _).trans (List.sublist_append_right _ _)

theorem sbRead_sound {p : Nat} {c r : List (Nat × Bool)} {x : Nat × Bool} {st : SbStack} (ho : OnStack c st)
    (hn : (st.map Prod.fst).Nodup) (hc : cut p c = x :: r) :
    ∃ s', sbRead p st = some s' ∧ OnStack (x :: r) s' ∧ s'.map Prod.fst = st.map Prod.fst := by
  induction ho with
  | nil st => cases hc
  | skip y ho ih =>
    rename_i c st
    have hx : y.1 ≠ p := by
      intro hx
      obtain ⟨hm, hq⟩ := cut_mem hc
      have := ho.tags _ hm
      rw [hq, ← hx] at this
      rw [List.map_cons] at hn
      exact (List.nodup_cons.1 hn).1 this
    rw [List.map_cons] at hn
    obtain ⟨s', h1, h2, h3⟩ := ih (List.nodup_cons.1 hn).2 hc
    refine ⟨(if y.2 = .unique then (y.1, .disabled) else y) :: s', ?_, .skip _ h2, ?_⟩
    · unfold sbRead
      rw [if_neg (fun h => hx h.1), h1]
      rfl
    · rw [List.map_cons, List.map_cons, h3]
      split <;> rfl
  | keep g1 g2 ho ih =>
    rename_i c st t f perm
    by_cases ht : t = p
    · subst ht
      rw [cut_head] at hc
      cases hc
      refine ⟨(t, perm) :: st, ?_, .keep g1 g2 ho, rfl⟩
      unfold sbRead
      rw [if_pos ⟨rfl, g2⟩]
    · rw [cut_cons_ne ht] at hc
      rw [List.map_cons] at hn
      obtain ⟨s', h1, h2, h3⟩ := ih (List.nodup_cons.1 hn).2 hc
      refine ⟨(if perm = .unique then (t, .disabled) else (t, perm)) :: s', ?_, .skip _ h2, ?_⟩
      · unfold sbRead
        rw [if_neg (fun h => ht h.1), h1]
        rfl
      · rw [List.map_cons, List.map_cons, h3]
        split <;> rfl

theorem sbRaw_sound {p n : Nat} {c r : List (Nat × Bool)} {q : Nat} {st : SbStack} (ho : OnStack c st)
    (hn : (st.map Prod.fst).Nodup) (hc : cut p c = (q, true) :: r) (above block : SbStack) :
    ∃ s', sbRaw p n above block st = some s' ∧ OnStack ((n, true) :: (q, true) :: r) s' ∧
      s'.Perm ((n, .sharedRW) :: (above ++ block ++ st)) := by
  induction ho generalizing above block with
  | nil st => cases hc
  | skip x ho ih =>
    rename_i c st
    have hx : ¬ (x.1 = p ∧ x.2.writes = true) := by
      rintro ⟨hx, -⟩
      obtain ⟨hm, hq⟩ := cut_mem hc
      have := ho.tags _ hm
      rw [hq, ← hx] at this
      rw [List.map_cons] at hn
      exact (List.nodup_cons.1 hn).1 this
    rw [List.map_cons] at hn
    unfold sbRaw
    rw [if_neg hx]
    split
    · obtain ⟨s', h1, h2, h3⟩ := ih (List.nodup_cons.1 hn).2 hc above (block ++ [x])
      exact ⟨s', h1, h2, by simpa using h3⟩
    · obtain ⟨s', h1, h2, h3⟩ := ih (List.nodup_cons.1 hn).2 hc (above ++ block ++ [x]) []
      exact ⟨s', h1, h2, by simpa using h3⟩
  | keep g1 g2 ho ih =>
    rename_i c st t f perm
    unfold sbRaw
    by_cases ht : t = p
    · subst ht
      rw [cut_head] at hc
      cases hc
      rw [if_pos ⟨rfl, g1 rfl⟩]
      refine ⟨_, rfl, ?_, ?_⟩
      · exact (OnStack.keep (fun _ => rfl) (by decide) ((OnStack.keep g1 g2 ho).append _)).append _
      · rw [List.append_assoc]
        exact List.perm_middle
    · rw [cut_cons_ne ht] at hc
      rw [List.map_cons] at hn
      rw [if_neg (fun h => ht h.1)]
      split
      · obtain ⟨s', h1, h2, h3⟩ := ih (List.nodup_cons.1 hn).2 hc above (block ++ [(t, perm)])
        exact ⟨s', h1, h2, by simpa using h3⟩
      · obtain ⟨s', h1, h2, h3⟩ := ih (List.nodup_cons.1 hn).2 hc (above ++ block ++ [(t, perm)]) []
        exact ⟨s', h1, h2, by simpa using h3⟩

/-- What a chain says about a borrow stack. -/
structure ChainOf (s : List (Nat × Bool) × Nat) (st : SbStack) : Prop where
  on : OnStack s.1 st
  nodup : (st.map Prod.fst).Nodup
  bound : ∀ x ∈ st.map Prod.fst, x < s.2

theorem chStep_sound {l : Loc} {s s' : List (Nat × Bool) × Nat} {op : MemOp} (h : chStep l s op = some s')
    {st : SbStack} (hs : ChainOf s st) : ∃ st', sbStep l st op = some st' ∧ ChainOf s' st' := by
  obtain ⟨c, b⟩ := s
  cases op with
  | retag p n k fp =>
    simp only [chStep] at h
    split at h
    · rename_i hl
      split at h
      · cases h
      · rename_i hb
        have hfresh : n ∉ st.map Prod.fst := fun hm => by have := hs.bound n hm; simp only at this; omega
        cases hc : cut p c with
        | nil => rw [hc] at h; cases h
        | cons x r =>
          obtain ⟨q, f⟩ := x
          rw [hc] at h
          have hmut : f = true → ∃ st', (sbWrite p [] st).map (fun s => (n, SbPerm.unique) :: s) = some st' ∧
              ChainOf ((n, true) :: (q, true) :: r, n + 1) st' := by
            rintro rfl
            obtain ⟨s1, h1, h2, h3⟩ := sbWrite_sound hs.on hs.nodup hc []
            rw [List.nil_append] at h3
            refine ⟨_, by rw [h1]; rfl, .keep (fun _ => rfl) (by decide) h2, ?_, ?_⟩
            · rw [List.map_cons]
              exact List.nodup_cons.2 ⟨fun hm => hfresh ((h3.map Prod.fst).mem hm), hs.nodup.sublist (h3.map Prod.fst)⟩
            · intro x hx
              rw [List.map_cons] at hx
              rcases List.mem_cons.1 hx with rfl | hx
              · simp
              · have := hs.bound x ((h3.map Prod.fst).mem hx)
                simp only at this ⊢
                omega
          cases k with
          | «mut» =>
            simp only at h
            cases f with
            | false => cases h
            | true =>
              cases h
              obtain ⟨st', h1, h2⟩ := hmut rfl
              exact ⟨st', by simp only [sbStep]; rw [if_pos hl]; exact h1, h2⟩
          | raw =>
            simp only at h
            cases f with
            | false => cases h
            | true =>
              cases h
              obtain ⟨s1, h1, h2, h3⟩ := sbRaw_sound (n := n) hs.on hs.nodup hc [] []
              simp only [List.nil_append] at h3
              have h4 := h3.map Prod.fst
              rw [List.map_cons] at h4
              refine ⟨s1, by simp only [sbStep]; rw [if_pos hl]; exact h1, h2, ?_, ?_⟩
              · exact h4.nodup_iff.2 (List.nodup_cons.2 ⟨hfresh, hs.nodup⟩)
              · intro x hx
                rcases List.mem_cons.1 (h4.mem_iff.1 hx) with rfl | hx
                · simp
                · have := hs.bound x hx
                  simp only at this ⊢
                  omega
          | shr =>
            simp only at h
            cases h
            obtain ⟨s1, h1, h2, h3⟩ := sbRead_sound hs.on hs.nodup hc
            refine ⟨(n, .sharedRO) :: s1, by simp only [sbStep]; rw [if_pos hl, h1]; rfl,
              .keep (fun h => by cases h) (by decide) h2, ?_, ?_⟩
            · rw [List.map_cons, h3]
              exact List.nodup_cons.2 ⟨hfresh, hs.nodup⟩
            · intro x hx
              rw [List.map_cons, h3] at hx
              rcases List.mem_cons.1 hx with rfl | hx
              · simp
              · have := hs.bound x hx
                simp only at this ⊢
                omega
    · rename_i hl
      cases h
      refine ⟨st, ?_, hs⟩
      cases k <;> simp only [sbStep] <;> rw [if_neg hl]
  | read p fp =>
    simp only [chStep] at h
    split at h
    · rename_i hl
      cases hc : cut p c with
      | nil => rw [hc] at h; cases h
      | cons x r =>
        rw [hc] at h
        cases h
        obtain ⟨s1, h1, h2, h3⟩ := sbRead_sound hs.on hs.nodup hc
        exact ⟨s1, by simp only [sbStep]; rw [if_pos hl]; exact h1, h2, h3 ▸ hs.nodup, fun x hx => hs.bound x (h3 ▸ hx)⟩
    · rename_i hl
      cases h
      exact ⟨st, by simp only [sbStep]; rw [if_neg hl], hs⟩
  | write p fp =>
    simp only [chStep] at h
    split at h
    · rename_i hl
      cases hc : cut p c with
      | nil => rw [hc] at h; cases h
      | cons x r =>
        obtain ⟨q, f⟩ := x
        rw [hc] at h
        cases f with
        | false => cases h
        | true =>
          cases h
          obtain ⟨s1, h1, h2, h3⟩ := sbWrite_sound hs.on hs.nodup hc []
          rw [List.nil_append] at h3
          exact ⟨s1, by simp only [sbStep]; rw [if_pos hl]; exact h1, h2, hs.nodup.sublist (h3.map Prod.fst),
            fun x hx => hs.bound x ((h3.map Prod.fst).mem hx)⟩
    · rename_i hl
      cases h
      exact ⟨st, by simp only [sbStep]; rw [if_neg hl], hs⟩

theorem chRun_sound {l : Loc} {ops : List MemOp} {s s' : List (Nat × Bool) × Nat} (h : chRun l s ops = some s')
    {st : SbStack} (hs : ChainOf s st) : ∃ st', sbRun l st ops = some st' ∧ ChainOf s' st' := by
  induction ops generalizing s st with
  | nil => cases h; exact ⟨st, rfl, hs⟩
  | cons op ops ih =>
    unfold chRun at h
    cases h1 : chStep l s op with
    | none => rw [h1] at h; cases h
    | some s1 =>
      rw [h1] at h
      obtain ⟨st1, g1, g2⟩ := chStep_sound h1 hs
      obtain ⟨st2, g3, g4⟩ := ih h g2
      exact ⟨st2, by unfold sbRun; rw [g1]; exact g3, g4⟩

/-! ## Soundness for Tree Borrows -/

/-- What the environment says about a borrow tree nothing has been written through. -/
structure TreeOf (s : (Nat → Option Bool) × Nat) (st : List TbNode) : Prop where
  active : ∀ x ∈ st, x.perm = .active → x.tag = 0
  enabled : ∀ x ∈ st, x.perm ≠ .disabled
  bound : ∀ x ∈ st, x.tag < s.2 ∧ ∀ y ∈ x.path, y < s.2
  known : ∀ c b, s.1 c = some b → ∃ path, tbPath c st = some path ∧ 0 ∈ path ∧
    (b = true → ∀ x ∈ st, x.tag ∈ path → x.perm = .reserved ∨ x.perm = .active)

theorem tbRead_id {st : List TbNode} {path : List Nat} (h1 : ∀ x ∈ st, x.perm = .active → x.tag = 0)
    (h2 : ∀ x ∈ st, x.perm ≠ .disabled) (h0 : 0 ∈ path) : tbAccess tbReadPerm path st = some st := by
  induction st with
  | nil => rfl
  | cons x st ih =>
    have hx : tbReadPerm (path.contains x.tag) x.perm = some x.perm := by
      have a1 := h1 x (by simp)
      have a2 := h2 x (by simp)
      cases hp : x.perm with
      | reserved => rfl
      | frozen => rfl
      | disabled => exact absurd hp a2
      | active =>
        have : path.contains x.tag = true := by rw [a1 hp]; simpa using h0
        unfold tbReadPerm
        rw [this]
        rfl
    unfold tbAccess
    rw [hx, ih (fun y hy => h1 y (by simp [hy])) (fun y hy => h2 y (by simp [hy]))]
    rfl

theorem tbPath_mem {c : Nat} {st : List TbNode} {path : List Nat} (h : tbPath c st = some path) :
    ∃ x ∈ st, x.tag = c ∧ x.path = path := by
  unfold tbPath at h
  obtain ⟨x, hx, rfl⟩ := Option.map_eq_some_iff.1 h
  exact ⟨x, List.mem_of_find?_eq_some hx, by simpa using List.find?_some hx, rfl⟩

theorem tbPath_cons_ne {c : Nat} {x : TbNode} {st : List TbNode} (h : x.tag ≠ c) :
    tbPath c (x :: st) = tbPath c st := by
  unfold tbPath
  rw [List.find?_cons_of_neg (by simpa using h)]

theorem tbPath_head {x : TbNode} {st : List TbNode} : tbPath x.tag (x :: st) = some x.path := by
  unfold tbPath
  rw [List.find?_cons_of_pos (by simp)]
  rfl

theorem TreeOf.grow {E : Nat → Option Bool} {b n p : Nat} {st : List TbNode} (hs : TreeOf (E, b) st) (hb : ¬ n < b)
    {f g : Bool} (hp : E p = some f) {path : List Nat} (hpath : tbPath p st = some path) {x : TbNode} (hx : x.tag = n)
    (hxp : x.path = n :: path ∨ x.path = path) (hperm : x.perm = .reserved ∨ x.perm = .frozen)
    (hg : g = true → f = true ∧ (x.path = n :: path → x.perm = .reserved)) :
    TreeOf (fun c => if c = n then some g else E c, n + 1) (x :: st) := by
  have hpm := tbPath_mem hpath
  have hpb : ∀ y ∈ path, y < b := by
    obtain ⟨z, hz, -, rfl⟩ := hpm
    exact (hs.bound z hz).2
  refine ⟨?_, ?_, ?_, ?_⟩
  · intro y hy ha
    rcases List.mem_cons.1 hy with rfl | hy
    · rcases hperm with h | h <;> rw [h] at ha <;> cases ha
    · exact hs.active y hy ha
  · intro y hy
    rcases List.mem_cons.1 hy with rfl | hy
    · rcases hperm with h | h <;> rw [h] <;> decide
    · exact hs.enabled y hy
  · intro y hy
    rcases List.mem_cons.1 hy with rfl | hy
    · refine ⟨by simp only; omega, fun z hz => ?_⟩
      rcases hxp with h | h
      · rw [h] at hz
        rcases List.mem_cons.1 hz with rfl | hz
        · simp
        · have := hpb z hz; simp only; omega
      · rw [h] at hz
        have := hpb z hz; simp only; omega
    · obtain ⟨a1, a2⟩ := hs.bound y hy
      simp only at a1 a2 ⊢
      exact ⟨by omega, fun z hz => by have := a2 z hz; omega⟩
  · intro c d hcd
    simp only at hcd
    by_cases hc : c = n
    · subst hc
      rw [if_pos rfl] at hcd
      cases hcd
      obtain ⟨path', k1, k2, k3⟩ := hs.known p f hp
      rw [hpath] at k1
      cases k1
      refine ⟨x.path, by rw [← hx]; exact tbPath_head, ?_, ?_⟩
      · rcases hxp with h | h <;> rw [h]
        · exact List.mem_cons_of_mem _ k2
        · exact k2
      · intro hgt y hy hyp
        obtain ⟨g1, g2⟩ := hg hgt
        rcases List.mem_cons.1 hy with rfl | hy
        · rcases hxp with h | h
          · exact .inl (g2 h)
          · rw [h, hx] at hyp
            have := hpb _ hyp
            omega
        · rcases hxp with h | h
          · rw [h] at hyp
            rcases List.mem_cons.1 hyp with h' | hyp
            · have := (hs.bound y hy).1
              simp only at this
              omega
            · exact k3 g1 y hy hyp
          · rw [h] at hyp
            exact k3 g1 y hy hyp
    · rw [if_neg hc] at hcd
      obtain ⟨path', k1, k2, k3⟩ := hs.known c d hcd
      refine ⟨path', by rw [tbPath_cons_ne (by rw [hx]; exact fun h => hc h.symm)]; exact k1, k2, ?_⟩
      intro hd y hy hyp
      rcases List.mem_cons.1 hy with rfl | hy
      · obtain ⟨z, hz, -, rfl⟩ := tbPath_mem k1
        have := (hs.bound z hz).2 _ hyp
        simp only at this
        omega
      · exact k3 hd y hy hyp

theorem envStep_sound {l : Loc} {s s' : (Nat → Option Bool) × Nat} {op : MemOp} (h : envStep l s op = some s')
    {st : List TbNode} (hs : TreeOf s st) : ∃ st', tbStep l st op = some st' ∧ TreeOf s' st' := by
  obtain ⟨E, b⟩ := s
  cases op with
  | retag p n k fp =>
    simp only [envStep] at h
    split at h
    · rename_i hl
      split at h
      · cases h
      · rename_i hb
        obtain ⟨f, hf, rfl⟩ := Option.map_eq_some_iff.1 h
        obtain ⟨path, k1, k2, k3⟩ := hs.known p f hf
        have id : ∀ {x : TbNode} {g : Bool}, x.path = n :: path →
            TreeOf (fun c => if c = n then some g else E c, n + 1) (x :: st) →
            tbAccess tbReadPerm (n :: path) (x :: st) = some (x :: st) := by
          intro x g _ hT
          exact tbRead_id hT.active hT.enabled (List.mem_cons_of_mem _ k2)
        cases k with
        | «mut» =>
          have hT := hs.grow hb (g := f) hf k1 (x := ⟨n, n :: path, .reserved⟩) rfl (.inl rfl) (.inl rfl)
            (fun h => ⟨h, fun _ => rfl⟩)
          refine ⟨_, ?_, hT⟩
          simp only [tbStep]
          rw [if_pos hl, k1]
          exact id rfl hT
        | shr =>
          have hT := hs.grow hb (g := false) hf k1 (x := ⟨n, n :: path, .frozen⟩) rfl (.inl rfl) (.inr rfl)
            (fun h => by cases h)
          refine ⟨_, ?_, hT⟩
          simp only [tbStep]
          rw [if_pos hl, k1]
          exact id rfl hT
        | raw =>
          have hT := hs.grow hb (g := f) hf k1 (x := ⟨n, path, .frozen⟩) rfl (.inr rfl) (.inr rfl)
            (fun h => ⟨h, fun h' => by
              have : path.length = (n :: path).length := congrArg List.length h'
              simp at this⟩)
          refine ⟨_, ?_, hT⟩
          simp only [tbStep]
          rw [if_pos hl, k1]
          rfl
    · rename_i hl
      cases h
      refine ⟨st, ?_, hs⟩
      cases k <;> simp only [tbStep] <;> rw [if_neg hl]
  | read p fp =>
    simp only [envStep] at h
    split at h
    · rename_i hl
      obtain ⟨f, hf, rfl⟩ := Option.map_eq_some_iff.1 h
      obtain ⟨path, k1, k2, k3⟩ := hs.known p f hf
      refine ⟨st, ?_, hs⟩
      simp only [tbStep]
      rw [if_pos hl, k1]
      exact tbRead_id hs.active hs.enabled k2
    · rename_i hl
      cases h
      exact ⟨st, by simp only [tbStep]; rw [if_neg hl], hs⟩
  | write p fp => cases h

theorem envRun_sound {l : Loc} {ops : List MemOp} {s s' : (Nat → Option Bool) × Nat} (h : envRun l s ops = some s')
    {st : List TbNode} (hs : TreeOf s st) : ∃ st', tbRun l st ops = some st' ∧ TreeOf s' st' := by
  induction ops generalizing s st with
  | nil => cases h; exact ⟨st, rfl, hs⟩
  | cons op ops ih =>
    unfold envRun at h
    cases h1 : envStep l s op with
    | none => rw [h1] at h; cases h
    | some s1 =>
      rw [h1] at h
      obtain ⟨st1, g1, g2⟩ := envStep_sound h1 hs
      obtain ⟨st2, g3, g4⟩ := ih h g2
      exact ⟨st2, by unfold tbRun; rw [g1]; exact g3, g4⟩

/-! ## Lookups -/

/-- The locations an operation is about. -/
def MemOp.fp : MemOp → Footprint
  | .retag _ _ _ fp => fp
  | .read _ fp => fp
  | .write _ fp => fp

theorem chRun_skip {l : Loc} {ops : List MemOp} (h : ∀ op ∈ ops, op.fp l = false) (s : List (Nat × Bool) × Nat) :
    chRun l s ops = some s := by
  induction ops with
  | nil => rfl
  | cons op ops ih =>
    have h1 := h op (by simp)
    have h2 : chStep l s op = some s := by
      cases op <;> simp only [MemOp.fp] at h1 <;> simp [chStep, h1]
    unfold chRun
    rw [h2]
    exact ih (fun o ho => h o (by simp [ho]))

theorem envRun_skip {l : Loc} {ops : List MemOp} (h : ∀ op ∈ ops, op.fp l = false ∧ ∀ t fp, op ≠ .write t fp)
    (s : (Nat → Option Bool) × Nat) : envRun l s ops = some s := by
  induction ops with
  | nil => rfl
  | cons op ops ih =>
    obtain ⟨h1, h1'⟩ := h op (by simp)
    have h2 : envStep l s op = some s := by
      cases op <;> simp only [MemOp.fp] at h1
      · simp [envStep, h1]
      · simp [envStep, h1]
      · exact absurd rfl (h1' _ _)
    unfold envRun
    rw [h2]
    exact ih (fun o ho => h o (by simp [ho]))

/-- What is true of the operations of a lookup, at location `l`, that goes through `base` and makes its tags from `t` on.
`prev` is the result found before. -/
structure GoodAt (l : Loc) (base t : Nat) (prev : Option (Nat × Nat)) (tr : Trace) : Prop where
  tb : ∀ (E : Nat → Option Bool) (n : Nat), n ≤ t → E base = some true →
    ∃ (E' : Nat → Option Bool) (n' : Nat), envRun l (E, n) tr.ops = some (E', n') ∧ n' ≤ tr.next ∧
      (∀ c, c < t → E' c = E c) ∧
      ∀ p v, tr.found = some (p, v) → prev = some (p, v) ∨ (l = .value p → E' v = some true)
  sb : ∀ (L R : List (Nat × Bool)) (n : Nat), n ≤ t → (∀ x ∈ L, x.1 ≠ base) →
    ∃ (L' : List (Nat × Bool)) (n' : Nat), chRun l (L ++ (base, true) :: R, n) tr.ops =
      some (L' ++ (base, true) :: R, n') ∧ n' ≤ tr.next ∧ (∀ x ∈ L', x ∈ L ∨ t ≤ x.1) ∧
      ∀ p v, tr.found = some (p, v) → prev = some (p, v) ∨ (l = .value p → ∃ L2, L' = (v, true) :: L2)

/-- The same, and the tags made. -/
structure GoodOps (base t : Nat) (tr : Trace) : Prop where
  le : t ≤ tr.next
  tags : ∀ p c k fp, MemOp.retag p c k fp ∈ tr.ops → t ≤ c ∧ c < tr.next
  found : ∀ p v, tr.found = some (p, v) → t ≤ v ∧ v < tr.next
  at' : ∀ l, GoodAt l base t none tr

theorem goodAt_skip {l : Loc} {base t : Nat} {prev : Option (Nat × Nat)} {tr : Trace} (hle : t ≤ tr.next)
    (h : ∀ op ∈ tr.ops, op.fp l = false ∧ ∀ t fp, op ≠ .write t fp)
    (hf : ∀ p v, tr.found = some (p, v) → prev = some (p, v) ∨ l ≠ .value p) : GoodAt l base t prev tr := by
  refine ⟨?_, ?_⟩
  · intro E n hn hb
    exact ⟨E, n, envRun_skip h _, by omega, fun _ _ => rfl,
      fun p v hp => (hf p v hp).imp id (fun hne h' => absurd h' hne)⟩
  · intro L R n hn hL
    exact ⟨L, n, chRun_skip (fun o ho => (h o ho).1) _, by omega, fun x hx => .inl hx,
      fun p v hp => (hf p v hp).imp id (fun hne h' => absurd h' hne)⟩

/-- Nothing happens. -/
theorem goodOps_nil (base t : Nat) : GoodOps base t ⟨[], none, t⟩ := by
  refine ⟨Nat.le_refl _, fun _ _ _ _ h => (by cases h), fun _ _ h => (by cases h), fun l => ?_⟩
  exact goodAt_skip (Nat.le_refl _) (fun _ h => by cases h) (fun _ _ h => by cases h)

/-- A mutable reborrow first. -/
theorem GoodAt.mut {l : Loc} {base t : Nat} {prev : Option (Nat × Nat)} {tr : Trace} (h : GoodAt l t (t + 1) prev tr)
    (hb : base < t) {fp : Footprint} (hfp : fp l = true) :
    GoodAt l base t prev ⟨.retag base t .mut fp :: tr.ops, tr.found, tr.next⟩ := by
  refine ⟨?_, ?_⟩
  · intro E n hn hE
    obtain ⟨E', n', h1, h2, h3, h4⟩ := h.tb (fun c => if c = t then some true else E c) (t + 1) (Nat.le_refl _) (by simp)
    refine ⟨E', n', ?_, h2, ?_, h4⟩
    · have hnt : ¬ t < n := by omega
      simpa [envRun, envStep, hfp, hnt, hE] using h1
    · intro c hc
      rw [h3 c (by omega), if_neg (by omega)]
  · intro L R n hn hL
    obtain ⟨L', n', h1, h2, h3, h4⟩ := h.sb [] ((base, true) :: R) (t + 1) (Nat.le_refl _) (by simp)
    have hnt : ¬ t < n := by omega
    refine ⟨L' ++ [(t, true)], n', ?_, h2, ?_, ?_⟩
    · simpa [chRun, chStep, hfp, hnt, cut_append hL] using h1
    · intro x hx
      rcases List.mem_append.1 hx with hx | hx
      · rcases h3 x hx with hx | hx
        · cases hx
        · exact .inr (by omega)
      · simp only [List.mem_singleton] at hx
        subst hx
        exact .inr (Nat.le_refl _)
    · intro p v hp
      exact (h4 p v hp).imp id (fun hh h' => by obtain ⟨L2, rfl⟩ := hh h'; exact ⟨L2 ++ [(t, true)], rfl⟩)

/-- A raw pointer first. -/
theorem GoodAt.raw {l : Loc} {base t : Nat} {prev : Option (Nat × Nat)} {tr : Trace} (h : GoodAt l t (t + 1) prev tr)
    {fp : Footprint} (hfp : fp l = true) :
    GoodAt l base t prev ⟨.retag base t .raw fp :: tr.ops, tr.found, tr.next⟩ := by
  refine ⟨?_, ?_⟩
  · intro E n hn hE
    obtain ⟨E', n', h1, h2, h3, h4⟩ := h.tb (fun c => if c = t then some true else E c) (t + 1) (Nat.le_refl _) (by simp)
    refine ⟨E', n', ?_, h2, ?_, h4⟩
    · have hnt : ¬ t < n := by omega
      simpa [envRun, envStep, hfp, hnt, hE] using h1
    · intro c hc
      rw [h3 c (by omega), if_neg (by omega)]
  · intro L R n hn hL
    obtain ⟨L', n', h1, h2, h3, h4⟩ := h.sb [] ((base, true) :: R) (t + 1) (Nat.le_refl _) (by simp)
    have hnt : ¬ t < n := by omega
    refine ⟨L' ++ [(t, true)], n', ?_, h2, ?_, ?_⟩
    · simpa [chRun, chStep, hfp, hnt, cut_append hL] using h1
    · intro x hx
      rcases List.mem_append.1 hx with hx | hx
      · rcases h3 x hx with hx | hx
        · cases hx
        · exact .inr (by omega)
      · simp only [List.mem_singleton] at hx
        subst hx
        exact .inr (Nat.le_refl _)
    · intro p v hp
      exact (h4 p v hp).imp id (fun hh h' => by obtain ⟨L2, rfl⟩ := hh h'; exact ⟨L2 ++ [(t, true)], rfl⟩)

/-- An operation on other locations first. -/
theorem GoodAt.other {l : Loc} {base t t' : Nat} {prev : Option (Nat × Nat)} {tr : Trace} (h : GoodAt l base t' prev tr)
    (ht : t ≤ t') {op : MemOp} (hfp : op.fp l = false) (hw : ∀ t fp, op ≠ .write t fp) :
    GoodAt l base t prev ⟨op :: tr.ops, tr.found, tr.next⟩ := by
  refine ⟨?_, ?_⟩
  · intro E n hn hE
    obtain ⟨E', n', h1, h2, h3, h4⟩ := h.tb E n (by omega) hE
    refine ⟨E', n', ?_, h2, fun c hc => h3 c (by omega), h4⟩
    have : envRun l (E, n) [op] = some (E, n) := envRun_skip (by simpa using ⟨hfp, hw⟩) _
    rw [← List.singleton_append, envRun_append, this]
    exact h1
  · intro L R n hn hL
    obtain ⟨L', n', h1, h2, h3, h4⟩ := h.sb L R n (by omega) hL
    refine ⟨L', n', ?_, h2, fun x hx => (h3 x hx).imp id (fun h => by omega), h4⟩
    have : chRun l (L ++ (base, true) :: R, n) [op] = some (L ++ (base, true) :: R, n) := chRun_skip (by simpa using hfp) _
    show chRun l _ ([op] ++ tr.ops) = _
    rw [chRun_append, this]
    exact h1

/-- A reborrow and a read of (part of) it first. -/
theorem GoodAt.peek {l : Loc} {base t : Nat} {prev : Option (Nat × Nat)} {tr : Trace} (h : GoodAt l base (t + 1) prev tr)
    (hb : base < t) (k : RefKind) (fp fp' : Footprint) (hsub : fp' l = true → fp l = true) :
    GoodAt l base t prev ⟨.retag base t k fp :: .read t fp' :: tr.ops, tr.found, tr.next⟩ := by
  cases hl : fp l with
  | false =>
    have hl' : fp' l = false := by
      cases h' : fp' l with
      | false => rfl
      | true => rw [hsub h'] at hl; cases hl
    exact (h.other (t := t + 1) (Nat.le_refl _) (op := .read t fp') hl' (by simp)).other (Nat.le_succ t) hl (by simp)
  | true =>
    refine ⟨?_, ?_⟩
    · intro E n hn hE
      have hnt : ¬ t < n := by omega
      obtain ⟨E', n', h1, h2, h3, h4⟩ := h.tb (fun c => if c = t then some (if k = .shr then false else true) else E c)
        (t + 1) (Nat.le_refl _) (by rw [if_neg (by omega)]; exact hE)
      refine ⟨E', n', ?_, h2, ?_, h4⟩
      · cases hl' : fp' l <;> simpa [envRun, envStep, hl, hl', hnt, hE] using h1
      · intro c hc
        rw [h3 c (by omega), if_neg (by omega)]
    · intro L R n hn hL
      have hnt : ¬ t < n := by omega
      obtain ⟨L', n', h1, h2, h3, h4⟩ := h.sb [(t, if k = .shr then false else true)] R (t + 1) (Nat.le_refl _)
        (by simp only [List.mem_singleton, forall_eq]; omega)
      refine ⟨L', n', ?_, h2, ?_, h4⟩
      · cases k <;> cases hl' : fp' l <;> simpa [chRun, chStep, hl, hl', hnt, cut_append hL, cut_head] using h1
      · intro x hx
        rcases h3 x hx with hx | hx
        · simp only [List.mem_singleton] at hx
          subst hx
          exact .inr (Nat.le_refl _)
        · exact .inr (by omega)

/-- Operations on other locations afterwards. -/
theorem GoodAt.after {l : Loc} {base t : Nat} {prev : Option (Nat × Nat)} {tr : Trace} (h : GoodAt l base t prev tr)
    {ops : List MemOp} (hops : ∀ op ∈ ops, op.fp l = false ∧ ∀ t fp, op ≠ .write t fp) {found : Option (Nat × Nat)}
    {next : Nat} (hn : tr.next ≤ next)
    (hf : ∀ p v, found = some (p, v) → tr.found = some (p, v) ∨ prev = some (p, v) ∨ l ≠ .value p) :
    GoodAt l base t prev ⟨tr.ops ++ ops, found, next⟩ := by
  refine ⟨?_, ?_⟩
  · intro E n hn hE
    obtain ⟨E', n', h1, h2, h3, h4⟩ := h.tb E n hn hE
    refine ⟨E', n', ?_, by simp only; omega, h3, ?_⟩
    · simp only
      rw [envRun_append, h1]
      exact envRun_skip hops _
    · intro p v hp
      rcases hf p v hp with h | h | h
      · exact h4 p v h
      · exact .inl h
      · exact .inr (fun h' => absurd h' h)
  · intro L R n hn hL
    obtain ⟨L', n', h1, h2, h3, h4⟩ := h.sb L R n hn hL
    refine ⟨L', n', ?_, by simp only; omega, h3, ?_⟩
    · simp only
      rw [chRun_append, h1]
      exact chRun_skip (fun o ho => (hops o ho).1) _
    · intro p v hp
      rcases hf p v hp with h | h | h
      · exact h4 p v h
      · exact .inl h
      · exact .inr (fun h' => absurd h' h)

theorem GoodAt.prev {l : Loc} {base t : Nat} {prev prev' : Option (Nat × Nat)} {tr : Trace} (h : GoodAt l base t prev tr)
    (hf : ∀ p v, prev = some (p, v) → prev' = some (p, v) ∨ l ≠ .value p) : GoodAt l base t prev' tr := by
  refine ⟨?_, ?_⟩
  · intro E n hn hE
    obtain ⟨E', n', h1, h2, h3, h4⟩ := h.tb E n hn hE
    exact ⟨E', n', h1, h2, h3, fun p v hp => (h4 p v hp).elim
      (fun h => (hf p v h).imp id (fun hne h' => absurd h' hne)) .inr⟩
  · intro L R n hn hL
    obtain ⟨L', n', h1, h2, h3, h4⟩ := h.sb L R n hn hL
    exact ⟨L', n', h1, h2, h3, fun p v hp => (h4 p v hp).elim
      (fun h => (hf p v h).imp id (fun hne h' => absurd h' hne)) .inr⟩

/-- A read through the base first. -/
theorem GoodAt.readBase {l : Loc} {base t : Nat} {prev : Option (Nat × Nat)} {tr : Trace} (h : GoodAt l base t prev tr)
    (fp : Footprint) : GoodAt l base t prev ⟨.read base fp :: tr.ops, tr.found, tr.next⟩ := by
  cases hl : fp l with
  | false => exact h.other (Nat.le_refl _) hl (by simp)
  | true =>
    refine ⟨?_, ?_⟩
    · intro E n hn hE
      obtain ⟨E', n', h1, h2, h3, h4⟩ := h.tb E n hn hE
      exact ⟨E', n', by simpa [envRun, envStep, hl, hE] using h1, h2, h3, h4⟩
    · intro L R n hn hL
      obtain ⟨L', n', h1, h2, h3, h4⟩ := h.sb [] R n hn (by simp)
      refine ⟨L', n', by simpa [chRun, chStep, hl, cut_append hL] using h1, h2, ?_, h4⟩
      intro x hx
      exact (h3 x hx).elim (fun h => by cases h) .inr

/-- The reference in the end. -/
theorem goodAt_found (l : Loc) (base t i : Nat) (prev : Option (Nat × Nat)) :
    GoodAt l base t prev ⟨[.retag base t .mut (valueFp i)], some (i, t), t + 1⟩ := by
  by_cases hl : l = .value i
  · subst hl
    have hfp : valueFp i (.value i) = true := by simp [valueFp]
    refine ⟨?_, ?_⟩
    · intro E n hn hE
      have hnt : ¬ t < n := by omega
      refine ⟨fun c => if c = t then some true else E c, t + 1, by simp [envRun, envStep, hfp, hnt, hE], Nat.le_refl _, ?_, ?_⟩
      · intro c hc
        show (if c = t then some true else E c) = E c
        rw [if_neg (by omega)]
      · intro p v h
        cases h
        exact .inr (fun _ => by simp)
    · intro L R n hn hL
      have hnt : ¬ t < n := by omega
      refine ⟨[(t, true)], t + 1, by simp [chRun, chStep, hfp, hnt, cut_append hL], Nat.le_refl _, by simp, ?_⟩
      intro p v h
      cases h
      exact .inr (fun _ => ⟨[], rfl⟩)
  · refine goodAt_skip (Nat.le_succ t) ?_ ?_
    · simp only [List.mem_singleton, forall_eq]
      refine ⟨?_, by simp⟩
      cases l with
      | key j => rfl
      | value j => simpa [MemOp.fp, valueFp] using hl
    · intro p v h
      cases h
      exact .inr hl

theorem goodAt_nil (l : Loc) (base t : Nat) (prev : Option (Nat × Nat)) : GoodAt l base t prev ⟨[], prev, t⟩ :=
  goodAt_skip (Nat.le_refl _) (fun _ h => by cases h) (fun _ _ h => .inl h)

theorem entryFp_of_valueFp {i : Nat} {l : Loc} (h : entryFp i l = false) : valueFp i l = false := by
  cases l <;> simp_all [entryFp, valueFp]

theorem entryFp_of_keyFp {i : Nat} {l : Loc} (h : keyFp i l = true) : entryFp i l = true := by
  cases l <;> simp_all [entryFp, keyFp]

theorem ne_value_of_entryFp {i : Nat} {l : Loc} (h : entryFp i l = false) : l ≠ .value i := by
  rintro rfl
  simp [entryFp] at h

/-- `&mut entries[i]`, then `&mut entry.1`. -/
theorem goodAt_entry (l : Loc) (base t i : Nat) (hb : base < t) (prev : Option (Nat × Nat)) :
    GoodAt l base t prev ⟨[.retag base t .mut (entryFp i), .retag t (t + 1) .mut (valueFp i)], some (i, t + 1), t + 2⟩ := by
  cases hl : entryFp i l with
  | true => exact (goodAt_found l t (t + 1) i prev).mut hb hl
  | false =>
    refine goodAt_skip (by simp) ?_ ?_
    · simp [MemOp.fp, hl, entryFp_of_valueFp hl]
    · intro p v h
      cases h
      exact .inr (ne_value_of_entryFp hl)

theorem goodOps_entryMut {base t : Nat} (hb : base < t) (i : Nat) :
    GoodOps base t ⟨entryMutB base t i, some (i, t + 2), t + 3⟩ := by
  refine ⟨by simp, ?_, ?_, ?_⟩
  · intro p c k fp h
    simp only [entryMutB, List.mem_cons, List.not_mem_nil, MemOp.retag.injEq, or_false] at h
    simp only
    omega
  · intro p v h
    cases h
    simp
  · intro l
    exact (goodAt_entry l t (t + 1) i (by omega) none).mut hb rfl

theorem scanMutLoopB_le (eqv : Q → K → Bool) (key : Q) (raw : Nat) (es : List (K × V)) (i t : Nat)
    (prev : Option (Nat × Nat)) :
    t ≤ (scanMutLoopB eqv key raw es i prev t).next ∧
    (∀ p c k fp, MemOp.retag p c k fp ∈ (scanMutLoopB eqv key raw es i prev t).ops →
      t ≤ c ∧ c < (scanMutLoopB eqv key raw es i prev t).next) ∧
    (∀ p v, (scanMutLoopB eqv key raw es i prev t).found = some (p, v) → prev = some (p, v) ∨
      (t ≤ v ∧ v < (scanMutLoopB eqv key raw es i prev t).next ∧ i ≤ p)) ∧
    ∀ op ∈ (scanMutLoopB eqv key raw es i prev t).ops, (∀ t fp, op ≠ .write t fp) ∧
      ∀ l, op.fp l = true → ∃ j, i ≤ j ∧ entryFp j l = true := by
  induction es generalizing i t prev with
  | nil => exact ⟨Nat.le_refl _, fun _ _ _ _ h => (by cases h), fun _ _ h => .inl h, fun _ h => by cases h⟩
  | cons e es ih =>
    unfold scanMutLoopB
    split
    · obtain ⟨h1, h2, h3, h4⟩ := ih (i + 1) (t + 2) (some (i, t + 1))
      simp only
      generalize scanMutLoopB eqv key raw es (i + 1) (some (i, t + 1)) (t + 2) = r at *
      refine ⟨by omega, ?_, ?_, ?_⟩
      · intro p c k fp h
        simp only [List.mem_cons, MemOp.retag.injEq, reduceCtorEq, false_or] at h
        rcases h with h | h | h
        · omega
        · omega
        · have := h2 p c k fp h
          omega
      · intro p v h
        rcases h3 p v h with h | h
        · cases h
          exact .inr (by omega)
        · exact .inr (by omega)
      · intro op h
        simp only [List.mem_cons] at h
        rcases h with rfl | rfl | rfl | h
        · exact ⟨by simp, fun l hl => ⟨i, Nat.le_refl _, hl⟩⟩
        · exact ⟨by simp, fun l hl => ⟨i, Nat.le_refl _, entryFp_of_keyFp hl⟩⟩
        · refine ⟨by simp, fun l hl => ⟨i, Nat.le_refl _, ?_⟩⟩
          cases l <;> simp_all [MemOp.fp, valueFp, entryFp]
        · obtain ⟨a, b⟩ := h4 op h
          exact ⟨a, fun l hl => (b l hl).imp (fun j hj => ⟨by omega, hj.2⟩)⟩
    · obtain ⟨h1, h2, h3, h4⟩ := ih (i + 1) (t + 1) prev
      simp only
      generalize scanMutLoopB eqv key raw es (i + 1) prev (t + 1) = r at *
      refine ⟨by omega, ?_, ?_, ?_⟩
      · intro p c k fp h
        simp only [List.mem_cons, MemOp.retag.injEq, reduceCtorEq, false_or] at h
        rcases h with h | h
        · omega
        · have := h2 p c k fp h
          omega
      · intro p v h
        rcases h3 p v h with h | h
        · exact .inl h
        · exact .inr (by omega)
      · intro op h
        simp only [List.mem_cons] at h
        rcases h with rfl | rfl | h
        · exact ⟨by simp, fun l hl => ⟨i, Nat.le_refl _, hl⟩⟩
        · exact ⟨by simp, fun l hl => ⟨i, Nat.le_refl _, entryFp_of_keyFp hl⟩⟩
        · obtain ⟨a, b⟩ := h4 op h
          exact ⟨a, fun l hl => (b l hl).imp (fun j hj => ⟨by omega, hj.2⟩)⟩

theorem entryFp_unique {i j : Nat} {l : Loc} (hi : entryFp i l = true) (hj : entryFp j l = true) : i = j := by
  cases l <;> simp [entryFp] at hi hj <;> omega

theorem goodAt_scanLoop (eqv : Q → K → Bool) (key : Q) {raw t : Nat} (hb : raw < t) (es : List (K × V)) (i : Nat)
    (prev : Option (Nat × Nat)) (l : Loc) : GoodAt l raw t prev (scanMutLoopB eqv key raw es i prev t) := by
  induction es generalizing i t prev with
  | nil => exact goodAt_nil l raw t prev
  | cons e es ih =>
    unfold scanMutLoopB
    split
    · obtain ⟨h1, h2, h3, h4⟩ := scanMutLoopB_le eqv key raw es (i + 1) (t + 2) (some (i, t + 1))
      have ih := ih (t := t + 2) (by omega) (i + 1) (some (i, t + 1))
      simp only
      generalize scanMutLoopB eqv key raw es (i + 1) (some (i, t + 1)) (t + 2) = r at *
      cases hl : entryFp i l with
      | true =>
        have hrest : ∀ op ∈ r.ops, op.fp l = false ∧ ∀ t fp, op ≠ .write t fp := by
          intro op hop
          refine ⟨?_, (h4 op hop).1⟩
          cases ho : op.fp l with
          | false => rfl
          | true =>
            obtain ⟨j, hj1, hj2⟩ := (h4 op hop).2 l ho
            have := entryFp_unique hl hj2
            omega
        have hfirst : GoodAt l raw t prev ⟨[.retag raw t .mut (entryFp i), .read t (keyFp i),
            .retag t (t + 1) .mut (valueFp i)], some (i, t + 1), t + 2⟩ :=
          ((goodAt_found l t (t + 1) i prev).readBase (keyFp i)).mut hb hl
        exact hfirst.after hrest h1 (fun p v hp => (h3 p v hp).elim .inl (fun h => .inr (.inr (by
          rintro rfl
          have : entryFp p (.value p) = true := by simp [entryFp]
          have := entryFp_unique hl this
          omega))))
      | false =>
        have hk : keyFp i l = false := by
          cases hk : keyFp i l with
          | false => rfl
          | true => rw [entryFp_of_keyFp hk] at hl; cases hl
        have ih' : GoodAt l raw (t + 2) prev r := ih.prev (fun p v h => by
          cases h
          exact .inr (ne_value_of_entryFp hl))
        exact ((ih'.other (t := t) (by omega) (op := .retag t (t + 1) .mut (valueFp i)) (entryFp_of_valueFp hl)
          (by simp)).other (Nat.le_refl _) (op := .read t (keyFp i)) hk (by simp)).other (Nat.le_refl _)
          (op := .retag raw t .mut (entryFp i)) hl (by simp)
    · exact (ih (t := t + 1) (by omega) (i + 1) prev).peek hb .mut (entryFp i) (keyFp i) entryFp_of_keyFp

theorem goodOps_scan (eqv : Q → K → Bool) (m : ScanMap K V) (q : Q) {base t : Nat} (hb : base < t) {tr : Trace}
    (h : m.getMutB eqv q base t = .ok tr) : GoodOps base t tr := by
  unfold ScanMap.getMutB at h
  cases h
  obtain ⟨h1, h2, h3, h4⟩ := scanMutLoopB_le eqv q (t + 1) m.entries 0 (t + 2) none
  refine ⟨by simp only; omega, ?_, ?_, ?_⟩
  · intro p c k fp h
    simp only [List.mem_cons, MemOp.retag.injEq] at h
    rcases h with h | h | h
    · simp only; omega
    · simp only; omega
    · have := h2 p c k fp h
      simp only; omega
  · intro p v h
    rcases h3 p v h with h | h
    · cases h
    · simp only; omega
  · intro l
    exact ((goodAt_scanLoop eqv q (by omega) m.entries 0 none l).raw (base := t) (t := t + 1) rfl).mut hb rfl

theorem goodOps_eytzinger (qcmp : Q → K → Ordering) (m : EytzingerMap K V) (q : Q) {base t : Nat} (hb : base < t)
    {tr : Trace} (h : m.getMutB qcmp q base t = .ok tr) : GoodOps base t tr := by
  unfold EytzingerMap.getMutB at h
  cases hs : eytzingerSearchBy m.entries (fun entry => (qcmp q entry.1).swap) with
  | none =>
    simp only [hs] at h
    cases h
    refine ⟨by simp, ?_, fun p v h => (by cases h), ?_⟩
    · intro p c k fp h
      simp only [List.mem_cons, MemOp.retag.injEq, reduceCtorEq, List.not_mem_nil, or_false] at h
      simp only; omega
    · intro l
      exact (goodAt_nil l base (t + 1) none).peek hb .shr wholeFp keysFp (fun _ => rfl)
  | some i =>
    simp only [hs, bind, Except.bind] at h
    cases hg : getUnchecked m.entries i with
    | error e => simp only [hg] at h; cases h
    | ok e =>
      simp only [hg] at h
      cases h
      have hg := goodOps_entryMut (base := base) (t := t + 1) (by omega) i
      refine ⟨by simp, ?_, ?_, ?_⟩
      · intro p c k fp h
        simp only [List.mem_cons, MemOp.retag.injEq, reduceCtorEq, false_or] at h
        rcases h with h | h
        · simp only; omega
        · have := hg.tags p c k fp h
          simp only at this ⊢
          omega
      · intro p v h
        cases h
        simp
      · intro l
        exact (hg.at' l).peek hb .shr wholeFp keysFp (fun _ => rfl)

theorem goodOps_dense (qindex : Q → Nat) (m : DenseMap K V) (q : Q) {base t : Nat} (hb : base < t)
    {tr : Trace} (h : m.getMutB qindex q base t = .ok tr) : GoodOps base t tr := by
  unfold DenseMap.getMutB at h
  split at h
  · simp only [bind, Except.bind] at h
    cases hg : getUnchecked m.entries (qindex q - m.min) with
    | error e => simp only [hg] at h; cases h
    | ok e =>
      simp only [hg] at h
      cases h
      exact goodOps_entryMut hb _
  · cases h
    exact goodOps_nil base t

theorem goodOps_sparse (qindex : Q → Nat) (m : SparseMap K V) (q : Q) {base t : Nat} (hb : base < t)
    {tr : Trace} (h : m.getMutB qindex q base t = .ok tr) : GoodOps base t tr := by
  unfold SparseMap.getMutB at h
  split at h
  · simp only [bind, Except.bind] at h
    cases hg : getUnchecked m.lookup (qindex q - m.min) with
    | error e => simp only [hg] at h; cases h
    | ok ix =>
      simp only [hg] at h
      split at h
      · cases hg' : getUnchecked m.entries (ix - 1) with
        | error e => simp only [hg'] at h; cases h
        | ok e =>
          simp only [hg'] at h
          cases h
          exact goodOps_entryMut hb _
      · cases h
        exact goodOps_nil base t
  · cases h
    exact goodOps_nil base t

theorem goodOps_bucket (eq : T → Bool) (bucket : List T) (lo : Nat) {raw : Nat} (n ptr : Nat) {t : Nat} (hb : raw < t)
    {tr : Trace} (h : scanBucketB eq bucket raw lo n ptr t = .ok tr) :
    GoodOps raw t tr ∧ (∀ p v, tr.found = some (p, v) → lo + ptr ≤ p ∧ p < lo + ptr + n) ∧
    ∀ op ∈ tr.ops, (∀ t fp, op ≠ .write t fp) ∧
      ∀ l, op.fp l = true → rangeFp (lo + ptr) (lo + ptr + n) l = true := by
  induction n generalizing ptr t tr with
  | zero =>
    unfold scanBucketB at h
    cases h
    exact ⟨goodOps_nil raw t, fun _ _ h => (by cases h), fun _ h => by cases h⟩
  | succ n ih =>
    have hr : ∀ l, entryFp (lo + ptr) l = true → rangeFp (lo + ptr) (lo + ptr + (n + 1)) l = true := by
      intro l hl
      cases l <;> simp [entryFp, rangeFp] at hl ⊢ <;> omega
    unfold scanBucketB at h
    simp only [bind, Except.bind] at h
    cases hg : getUnchecked bucket ptr with
    | error e => simp only [hg] at h; cases h
    | ok e =>
      simp only [hg] at h
      by_cases he : eq e = true
      · rw [if_pos he] at h
        cases h
        refine ⟨⟨by simp, ?_, ?_, ?_⟩, fun p v h => (by cases h; omega), ?_⟩
        · intro p c k fp h
          simp only [List.mem_cons, MemOp.retag.injEq, reduceCtorEq, false_or, List.not_mem_nil, or_false] at h
          simp only; omega
        · intro p v h
          cases h
          simp
        · intro l
          exact (goodAt_entry l raw (t + 1) (lo + ptr) (by omega) none).peek hb .shr (entryFp (lo + ptr))
            (keyFp (lo + ptr)) entryFp_of_keyFp
        · intro op h
          simp only [List.mem_cons, List.not_mem_nil, or_false] at h
          rcases h with rfl | rfl | rfl | rfl
          · exact ⟨by simp, fun l hl => hr l hl⟩
          · exact ⟨by simp, fun l hl => hr l (entryFp_of_keyFp hl)⟩
          · exact ⟨by simp, fun l hl => hr l hl⟩
          · refine ⟨by simp, fun l hl => hr l ?_⟩
            cases l <;> simp_all [MemOp.fp, valueFp, entryFp]
      · rw [if_neg he] at h
        cases hs : scanBucketB eq bucket raw lo n (ptr + 1) (t + 1) with
        | error e => simp only [hs] at h; cases h
        | ok r =>
          simp only [hs] at h
          cases h
          obtain ⟨g, gp, gf⟩ := ih (ptr + 1) (t := t + 1) (by omega) hs
          refine ⟨⟨by have := g.le; simp only; omega, ?_, ?_, ?_⟩, fun p v h => (by have := gp p v h; omega), ?_⟩
          · intro p c k fp h
            simp only [List.mem_cons, MemOp.retag.injEq, reduceCtorEq, false_or] at h
            have := g.le
            rcases h with h | h
            · simp only; omega
            · have := g.tags p c k fp h
              simp only; omega
          · intro p v h
            have := g.found p v h
            simp only; omega
          · intro l
            exact (g.at' l).peek hb .shr (entryFp (lo + ptr)) (keyFp (lo + ptr)) entryFp_of_keyFp
          · intro op h
            simp only [List.mem_cons] at h
            rcases h with rfl | rfl | h
            · exact ⟨by simp, fun l hl => hr l hl⟩
            · exact ⟨by simp, fun l hl => hr l (entryFp_of_keyFp hl)⟩
            · refine ⟨(gf op h).1, fun l hl => ?_⟩
              have := (gf op h).2 l hl
              cases l <;> simp [rangeFp] at this ⊢ <;> omega

theorem goodOps_hashTable (tab : HashTable T) (hc : Nat) (eq : T → Bool) {base t : Nat} (hb : base < t) {tr : Trace}
    (h : tab.findMutB hc eq base t = .ok tr) : GoodOps base t tr := by
  unfold HashTable.findMutB at h
  simp only [bind, Except.bind] at h
  cases h1 : getUnchecked tab.slots (hc &&& tab.mask) with
  | error e => simp only [h1] at h; cases h
  | ok slot =>
    simp only [h1] at h
    cases h2 : getUncheckedRange tab.entries slot.minIndex slot.maxIndex with
    | error e => simp only [h2] at h; cases h
    | ok bucket =>
      simp only [h2] at h
      cases h3 : scanBucketB eq bucket (t + 2) slot.minIndex (slot.maxIndex - slot.minIndex) 0 (t + 3) with
      | error e => simp only [h3] at h; cases h
      | ok r =>
        simp only [h3] at h
        cases h
        obtain ⟨g, gp, gf⟩ := goodOps_bucket eq bucket slot.minIndex _ 0 (by omega) h3
        have hle := g.le
        refine ⟨by simp only; omega, ?_, ?_, ?_⟩
        · intro p c k fp h
          simp only [List.mem_cons, MemOp.retag.injEq] at h
          rcases h with h | h | h | h
          · simp only; omega
          · simp only; omega
          · simp only; omega
          · have := g.tags p c k fp h
            simp only; omega
        · intro p v h
          have := g.found p v h
          simp only; omega
        · intro l
          cases hl : rangeFp slot.minIndex slot.maxIndex l with
          | true => exact (((g.at' l).raw (base := t + 1) hl).mut (base := t) (by omega) hl).mut hb rfl
          | false =>
            have hskip : GoodAt l t (t + 1) none ⟨.retag t (t + 1) .mut (rangeFp slot.minIndex slot.maxIndex) ::
                .retag (t + 1) (t + 2) .raw (rangeFp slot.minIndex slot.maxIndex) :: r.ops, r.found, r.next⟩ := by
              refine goodAt_skip (by simp only; omega) ?_ ?_
              · intro op hop
                simp only [List.mem_cons] at hop
                rcases hop with rfl | rfl | hop
                · exact ⟨hl, by simp⟩
                · exact ⟨hl, by simp⟩
                · refine ⟨?_, (gf op hop).1⟩
                  cases ho : op.fp l with
                  | false => rfl
                  | true =>
                    have := (gf op hop).2 l ho
                    cases l <;> simp [rangeFp] at this hl <;> omega
              · intro p v h
                refine .inr ?_
                rintro rfl
                have := gp p v h
                simp [rangeFp] at hl
                omega
            exact hskip.mut hb rfl

theorem goodOps_hashTableNC (tab : HashTableNC T) (hc : Nat) (eq : T → Bool) {base t : Nat} (hb : base < t) {tr : Trace}
    (h : tab.findMutB hc eq base t = .ok tr) : GoodOps base t tr := by
  unfold HashTableNC.findMutB at h
  simp only [bind, Except.bind] at h
  cases h1 : getUnchecked tab.slots (hc &&& tab.mask) with
  | error e => simp only [h1] at h; cases h
  | ok ix =>
    simp only [h1] at h
    by_cases hix : ix > 0
    · rw [if_pos hix] at h
      cases h2 : getUnchecked tab.entries (ix - 1) with
      | error e => simp only [h2] at h; cases h
      | ok e =>
        simp only [h2] at h
        by_cases he : eq e = true
        · rw [if_pos he] at h
          cases h
          refine ⟨by simp, ?_, ?_, ?_⟩
          · intro p c k fp h
            simp only [List.mem_cons, MemOp.retag.injEq, reduceCtorEq, false_or, List.not_mem_nil, or_false] at h
            simp only; omega
          · intro p v h
            cases h
            simp
          · intro l
            cases hl : entryFp (ix - 1) l with
            | true =>
              exact (((goodAt_found l (t + 1) (t + 3) (ix - 1) none).peek (t := t + 2) (by omega) .shr (entryFp (ix - 1))
                (keyFp (ix - 1)) entryFp_of_keyFp).mut (base := t) (by omega) hl).mut hb rfl
            | false =>
              have hk : keyFp (ix - 1) l = false := by
                cases hk : keyFp (ix - 1) l with
                | false => rfl
                | true => rw [entryFp_of_keyFp hk] at hl; cases hl
              have hskip : GoodAt l t (t + 1) none ⟨[.retag t (t + 1) .mut (entryFp (ix - 1)),
                  .retag (t + 1) (t + 2) .shr (entryFp (ix - 1)), .read (t + 2) (keyFp (ix - 1)),
                  .retag (t + 1) (t + 3) .mut (valueFp (ix - 1))], some (ix - 1, t + 3), t + 4⟩ := by
                refine goodAt_skip (by simp) ?_ ?_
                · simp [MemOp.fp, hl, hk, entryFp_of_valueFp hl]
                · intro p v h
                  cases h
                  exact .inr (ne_value_of_entryFp hl)
              exact hskip.mut hb rfl
        · rw [if_neg he] at h
          cases h
          refine ⟨by simp, ?_, fun p v h => (by cases h), ?_⟩
          · intro p c k fp h
            simp only [List.mem_cons, MemOp.retag.injEq, reduceCtorEq, List.not_mem_nil, or_false] at h
            simp only; omega
          · intro l
            cases hl : entryFp (ix - 1) l with
            | true =>
              exact (((goodAt_nil l (t + 1) (t + 3) none).peek (t := t + 2) (by omega) .shr (entryFp (ix - 1))
                (keyFp (ix - 1)) entryFp_of_keyFp).mut (base := t) (by omega) hl).mut hb rfl
            | false =>
              have hk : keyFp (ix - 1) l = false := by
                cases hk : keyFp (ix - 1) l with
                | false => rfl
                | true => rw [entryFp_of_keyFp hk] at hl; cases hl
              have hskip : GoodAt l t (t + 1) none ⟨[.retag t (t + 1) .mut (entryFp (ix - 1)),
                  .retag (t + 1) (t + 2) .shr (entryFp (ix - 1)), .read (t + 2) (keyFp (ix - 1))], none, t + 3⟩ := by
                refine goodAt_skip (by simp) ?_ (fun p v h => by cases h)
                simp [MemOp.fp, hl, hk]
              exact hskip.mut hb rfl
    · rw [if_neg hix] at h
      cases h
      exact goodOps_nil base t

theorem goodOps_hash (hQ : Q → Res Nat) (eqv : Q → K → Bool) (m : HashMap K V) (q : Q) {base t : Nat} (hb : base < t)
    {tr : Trace} (h : m.getMutB hQ eqv q base t = .ok tr) : GoodOps base t tr := by
  unfold HashMap.getMutB at h
  simp only [bind, Except.bind] at h
  cases h1 : hQ q with
  | error e => simp only [h1] at h; cases h
  | ok hc =>
    simp only [h1] at h
    exact goodOps_hashTable _ _ _ hb h

theorem goodOps_hashNC (hQ : Q → Res Nat) (eqv : Q → K → Bool) (m : HashMapNC K V) (q : Q) {base t : Nat} (hb : base < t)
    {tr : Trace} (h : m.getMutB hQ eqv q base t = .ok tr) : GoodOps base t tr := by
  unfold HashMapNC.getMutB at h
  simp only [bind, Except.bind] at h
  cases h1 : hQ q with
  | error e => simp only [h1] at h; cases h
  | ok hc =>
    simp only [h1] at h
    exact goodOps_hashTableNC _ _ _ hb h

/-- All map types. -/
theorem goodOps_borrowing {I : MapImpl M Q K V} {m : M} {inl : Bool} {gm : Q → Nat → Nat → Res Trace}
    (hB : Borrowing I m inl gm) (q : Q) {base t : Nat} (hb : base < t) {tr : Trace} (h : gm q base t = .ok tr) :
    GoodOps base t tr := by
  cases hB with
  | scan eqv m => exact goodOps_scan eqv m q hb h
  | ordered qcmp m => exact goodOps_eytzinger qcmp m q hb h
  | dense qindex m => exact goodOps_dense qindex m q hb h
  | sparse qindex m => exact goodOps_sparse qindex m q hb h
  | hash hQ eqv m => exact goodOps_hash hQ eqv m q hb h
  | fzHash hQ eqv m => exact goodOps_hash _ eqv m q hb h
  | fzOrdered qcmp m => exact goodOps_eytzinger qcmp m q hb h
  | fzScalar qindex eqv m =>
    cases m with
    | hash m => exact goodOps_hash _ eqv m q hb h
    | dense m => exact goodOps_dense qindex m q hb h
    | sparse m => exact goodOps_sparse qindex m q hb h
  | fzString bhStr bhSlice m =>
    cases m with
    | leftRange r m => exact goodOps_hash _ _ m q hb h
    | rightRange r m => exact goodOps_hash _ _ m q hb h
    | hash m => exact goodOps_hash _ _ m q hb h
  | inline tt m =>
    change m.getMutB tt q base t = .ok tr at h
    unfold InlineMap.getMutB at h
    split at h
    · exact goodOps_scan _ _ q hb h
    · exact goodOps_eytzinger _ _ q hb h
    · exact goodOps_dense _ _ q hb h
    · exact goodOps_sparse _ _ q hb h
    · exact goodOps_hash _ _ _ q hb h
    · exact goodOps_hashNC _ _ _ q hb h

/-! ## The same results as the other model -/

/-- The entry found. -/
def Trace.pos (tr : Trace) : Option Nat := tr.found.map Prod.fst

/-- The lookup finds what `getMut` finds; if it finds anything, it has reborrowed all the entries. -/
def Agrees (gm : Nat → Nat → Res Trace) (r : Res (Option Nat)) : Prop :=
  ∀ base t, (gm base t).map Trace.pos = r ∧
    ∀ tr, gm base t = .ok tr → tr.found ≠ none → ∃ c, MemOp.retag base c .mut wholeFp ∈ tr.ops

theorem scanMutLoopB_pos (eqv : Q → K → Bool) (key : Q) (raw : Nat) (es : List (K × V)) (i t : Nat)
    (prev : Option (Nat × Nat)) :
    (scanMutLoopB eqv key raw es i prev t).pos = scanMutLoop eqv key es i (prev.map Prod.fst) := by
  induction es generalizing i t prev with
  | nil => rfl
  | cons e es ih =>
    unfold scanMutLoopB scanMutLoop
    by_cases h : eqv key e.1 = true
    · simp only [if_pos h]
      exact ih (i + 1) (t + 2) (some (i, t + 1))
    · simp only [if_neg h]
      exact ih (i + 1) (t + 1) prev

theorem agrees_scan (eqv : Q → K → Bool) (m : ScanMap K V) (q : Q) : Agrees (m.getMutB eqv q) (m.getMut eqv q) := by
  intro base t
  refine ⟨?_, ?_⟩
  · exact congrArg Except.ok (scanMutLoopB_pos eqv q (t + 1) m.entries 0 (t + 2) none)
  · intro tr h _
    cases h
    exact ⟨t, by simp⟩

theorem agrees_eytzinger (qcmp : Q → K → Ordering) (m : EytzingerMap K V) (q : Q) :
    Agrees (m.getMutB qcmp q) (m.getMut qcmp q) := by
  intro base t
  unfold EytzingerMap.getMutB EytzingerMap.getMut
  cases hs : eytzingerSearchBy m.entries (fun entry => (qcmp q entry.1).swap) with
  | none => exact ⟨rfl, fun tr h hf => by cases h; exact absurd rfl hf⟩
  | some i =>
    simp only [bind, Except.bind]
    cases getUnchecked m.entries i with
    | error e => exact ⟨rfl, fun tr h => by cases h⟩
    | ok e => exact ⟨rfl, fun tr h _ => by cases h; exact ⟨t + 1, by simp [entryMutB]⟩⟩

theorem agrees_dense (qindex : Q → Nat) (m : DenseMap K V) (q : Q) :
    Agrees (m.getMutB qindex q) (m.getMut qindex q) := by
  intro base t
  unfold DenseMap.getMutB DenseMap.getMut
  by_cases hv : qindex q ≥ m.min ∧ qindex q ≤ m.max
  · simp only [if_pos hv, bind, Except.bind]
    cases getUnchecked m.entries (qindex q - m.min) with
    | error e => exact ⟨rfl, fun tr h => by cases h⟩
    | ok e => exact ⟨rfl, fun tr h _ => by cases h; exact ⟨t, by simp [entryMutB]⟩⟩
  · simp only [if_neg hv]
    exact ⟨rfl, fun tr h hf => by cases h; exact absurd rfl hf⟩

theorem agrees_sparse (qindex : Q → Nat) (m : SparseMap K V) (q : Q) :
    Agrees (m.getMutB qindex q) (m.getMut qindex q) := by
  intro base t
  unfold SparseMap.getMutB SparseMap.getMut
  by_cases hv : qindex q ≥ m.min ∧ qindex q ≤ m.max
  · simp only [if_pos hv, bind, Except.bind]
    cases getUnchecked m.lookup (qindex q - m.min) with
    | error e => exact ⟨rfl, fun tr h => by cases h⟩
    | ok ix =>
      by_cases hix : ix > 0
      · simp only [if_pos hix]
        cases getUnchecked m.entries (ix - 1) with
        | error e => exact ⟨rfl, fun tr h => by cases h⟩
        | ok e => exact ⟨rfl, fun tr h _ => by cases h; exact ⟨t, by simp [entryMutB]⟩⟩
      · simp only [if_neg hix]
        exact ⟨rfl, fun tr h hf => by cases h; exact absurd rfl hf⟩
  · simp only [if_neg hv]
    exact ⟨rfl, fun tr h hf => by cases h; exact absurd rfl hf⟩

theorem scanBucketB_pos (eq : T → Bool) (bucket : List T) (raw lo n ptr t : Nat) :
    (scanBucketB eq bucket raw lo n ptr t).map Trace.pos =
      (scanBucket eq bucket n ptr).map (fun r => r.map (fun p => lo + p)) := by
  induction n generalizing ptr t with
  | zero => rfl
  | succ n ih =>
    unfold scanBucketB scanBucket
    simp only [bind, Except.bind]
    cases getUnchecked bucket ptr with
    | error e => rfl
    | ok e =>
      by_cases he : eq e = true
      · simp only [if_pos he]
        rfl
      · simp only [if_neg he]
        rw [← ih (ptr + 1) (t + 1)]
        cases scanBucketB eq bucket raw lo n (ptr + 1) (t + 1) with
        | error e => rfl
        | ok r => rfl

theorem agrees_hash (hQ : Q → Res Nat) (eqv : Q → K → Bool) (m : HashMap K V) (q : Q) :
    Agrees (m.getMutB hQ eqv q) (m.getMut hQ eqv q) := by
  intro base t
  unfold HashMap.getMutB HashMap.getMut HashTable.findMutB HashTable.findMut
  simp only [bind, Except.bind]
  cases hQ q with
  | error e => exact ⟨rfl, fun tr h => by cases h⟩
  | ok hc =>
    simp only
    cases getUnchecked m.table.slots (hc &&& m.table.mask) with
    | error e => exact ⟨rfl, fun tr h => by cases h⟩
    | ok slot =>
      simp only
      cases getUncheckedRange m.table.entries slot.minIndex slot.maxIndex with
      | error e => exact ⟨rfl, fun tr h => by cases h⟩
      | ok bucket =>
        simp only
        have hp := scanBucketB_pos (fun entry : K × V => eqv q entry.1) bucket (t + 2) slot.minIndex
          (slot.maxIndex - slot.minIndex) 0 (t + 3)
        generalize scanBucketB (fun entry : K × V => eqv q entry.1) bucket (t + 2) slot.minIndex
          (slot.maxIndex - slot.minIndex) 0 (t + 3) = x at *
        generalize scanBucket (fun entry : K × V => eqv q entry.1) bucket (slot.maxIndex - slot.minIndex) 0 = y at *
        cases x with
        | error e =>
          cases y with
          | error e' =>
            simp only [Except.map] at hp
            cases hp
            exact ⟨rfl, fun tr h => by cases h⟩
          | ok _ => cases hp
        | ok r =>
          cases y with
          | error e' => cases hp
          | ok o =>
            simp only [Except.map, Except.ok.injEq] at hp
            refine ⟨?_, fun tr h _ => by cases h; exact ⟨t, by simp⟩⟩
            simp only [Except.map]
            cases o with
            | none => exact congrArg Except.ok hp
            | some o => exact congrArg Except.ok hp

theorem agrees_hashNC (hQ : Q → Res Nat) (eqv : Q → K → Bool) (m : HashMapNC K V) (q : Q) :
    Agrees (m.getMutB hQ eqv q) (m.getMut hQ eqv q) := by
  intro base t
  unfold HashMapNC.getMutB HashMapNC.getMut HashTableNC.findMutB HashTableNC.findMut
  simp only [bind, Except.bind]
  cases hQ q with
  | error e => exact ⟨rfl, fun tr h => by cases h⟩
  | ok hc =>
    simp only
    cases getUnchecked m.table.slots (hc &&& m.table.mask) with
    | error e => exact ⟨rfl, fun tr h => by cases h⟩
    | ok ix =>
      simp only
      by_cases hix : ix > 0
      · simp only [if_pos hix]
        cases getUnchecked m.table.entries (ix - 1) with
        | error e => exact ⟨rfl, fun tr h => by cases h⟩
        | ok e =>
          simp only
          by_cases he : eqv q e.1 = true
          · simp only [if_pos he]
            exact ⟨rfl, fun tr h _ => by cases h; exact ⟨t, by simp⟩⟩
          · simp only [if_neg he]
            exact ⟨rfl, fun tr h hf => by cases h; exact absurd rfl hf⟩
      · simp only [if_neg hix]
        exact ⟨rfl, fun tr h hf => by cases h; exact absurd rfl hf⟩

theorem agrees_borrowing {I : MapImpl M Q K V} {m : M} {inl : Bool} {gm : Q → Nat → Nat → Res Trace}
    (hB : Borrowing I m inl gm) (q : Q) : Agrees (gm q) (I.getMut m q) := by
  cases hB with
  | scan eqv m => exact agrees_scan eqv m q
  | ordered qcmp m => exact agrees_eytzinger qcmp m q
  | dense qindex m => exact agrees_dense qindex m q
  | sparse qindex m => exact agrees_sparse qindex m q
  | hash hQ eqv m => exact agrees_hash hQ eqv m q
  | fzHash hQ eqv m => exact agrees_hash _ eqv m q
  | fzOrdered qcmp m => exact agrees_eytzinger qcmp m q
  | fzScalar qindex eqv m =>
    cases m with
    | hash m => exact agrees_hash _ eqv m q
    | dense m => exact agrees_dense qindex m q
    | sparse m => exact agrees_sparse qindex m q
  | fzString bhStr bhSlice m =>
    cases m with
    | leftRange r m => exact agrees_hash _ _ m q
    | rightRange r m => exact agrees_hash _ _ m q
    | hash m => exact agrees_hash _ _ m q
  | inline tt m =>
    change Agrees (m.getMutB tt q) (m.getMut tt q)
    obtain ⟨mg, r⟩ := m
    cases r with
    | scan m => exact agrees_scan _ m q
    | eytzinger m => exact agrees_eytzinger _ m q
    | dense m => exact agrees_dense _ m q
    | sparse m => exact agrees_sparse _ m q
    | hash h m => exact agrees_hash _ _ m q
    | hashNC h m => exact agrees_hashNC _ _ m q

/-! ## All the lookups -/

/-- The lookups of `get_disjoint_unchecked_mut`, one after the other. -/
inductive MutSteps (I : MapImpl M Q K V) (m : M) : List Q → Nat → List MemOp → List (Option (Nat × Nat)) → Nat → Prop
  | nil (t) : MutSteps I m [] t [] [] t
  | found {q qs t ops ptrs nx p v} {tr : Trace} (good : GoodOps 0 t tr)
      (touch : ∃ c, MemOp.retag 0 c .mut wholeFp ∈ tr.ops) (hm : I.getMut m q = .ok (some p))
      (hf : tr.found = some (p, v)) (rest : MutSteps I m qs (tr.next + 1) ops ptrs nx) :
      MutSteps I m (q :: qs) t (tr.ops ++ .retag v tr.next .raw (valueFp p) :: ops) (some (p, tr.next) :: ptrs) nx
  | missing {q qs t ops ptrs nx} {tr : Trace} (good : GoodOps 0 t tr) (hm : I.getMut m q = .ok none)
      (hf : tr.found = none) (rest : MutSteps I m qs tr.next ops ptrs nx) :
      MutSteps I m (q :: qs) t (tr.ops ++ ops) (none :: ptrs) nx

theorem GoodOps.mut {base t : Nat} {tr : Trace} (h : GoodOps t (t + 1) tr) (hb : base < t) :
    GoodOps base t ⟨.retag base t .mut wholeFp :: tr.ops, tr.found, tr.next⟩ := by
  have := h.le
  refine ⟨by simp only; omega, ?_, ?_, fun l => (h.at' l).mut hb rfl⟩
  · intro p c k fp h'
    simp only [List.mem_cons, MemOp.retag.injEq] at h'
    rcases h' with h' | h'
    · simp only; omega
    · have := h.tags p c k fp h'
      simp only; omega
  · intro p v hf
    have := h.found p v hf
    simp only; omega

theorem mutSteps_of {I : MapImpl M Q K V} {m : M} {inl : Bool} {gm : Q → Nat → Nat → Res Trace}
    (hB : Borrowing I m inl gm) (qs : List Q) {t : Nat} (ht : 0 < t) {ops : List MemOp}
    {ptrs : List (Option (Nat × Nat))} {nx : Nat} (h : getMutsB inl gm qs t = .ok (ops, ptrs, nx)) :
    MutSteps I m qs t ops ptrs nx := by
  induction qs generalizing t ops ptrs nx with
  | nil =>
    cases h
    exact .nil t
  | cons q qs ih =>
    unfold getMutsB at h
    simp only [bind, Except.bind] at h
    cases hg : gm q (if inl = true then t else 0) (if inl = true then t + 1 else t) with
    | error e => simp only [hg] at h; cases h
    | ok r =>
      simp only [hg] at h
      have hgood : ∃ tr : Trace, GoodOps 0 t tr ∧ tr.ops = (if inl = true then [.retag 0 t .mut wholeFp] else []) ++ r.ops ∧
          tr.found = r.found ∧ tr.next = r.next := by
        cases inl with
        | false => exact ⟨r, goodOps_borrowing hB q ht hg, rfl, rfl, rfl⟩
        | true => exact ⟨_, (goodOps_borrowing hB q (by simp) hg).mut ht, rfl, rfl, rfl⟩
      obtain ⟨ha1, ha2⟩ := agrees_borrowing hB q (if inl = true then t else 0) (if inl = true then t + 1 else t)
      rw [hg] at ha1
      obtain ⟨tr, g1, g2, g3, g4⟩ := hgood
      have hle := g1.le
      cases hf : r.found with
      | none =>
        simp only [hf] at h
        cases hr : getMutsB inl gm qs r.next with
        | error e => simp only [hr] at h; cases h
        | ok rs =>
          simp only [hr] at h
          cases h
          obtain ⟨o, p, n⟩ := rs
          rw [← g2]
          refine .missing g1 ?_ (g3.trans hf) (ih (by omega) (by rw [g4]; exact hr))
          rw [← ha1]
          simp [Except.map, Trace.pos, hf]
      | some pv =>
        obtain ⟨p, v⟩ := pv
        simp only [hf] at h
        cases hr : getMutsB inl gm qs (r.next + 1) with
        | error e => simp only [hr] at h; cases h
        | ok rs =>
          simp only [hr] at h
          cases h
          obtain ⟨o, ps, n⟩ := rs
          rw [← g2, ← g4]
          refine .found g1 ?_ ?_ (g3.trans hf) (ih (by omega) (by rw [g4]; exact hr))
          · cases inl with
            | false =>
              obtain ⟨c, hc⟩ := ha2 r hg (by rw [hf]; simp)
              exact ⟨c, by rw [g2]; simpa using hc⟩
            | true => exact ⟨t, by rw [g2]; simp⟩
          · rw [← ha1]
            simp [Except.map, Trace.pos, hf]

/-- The lookups succeed when `get_disjoint_unchecked_mut` does in the other model, with the same positions. -/
theorem getMutsB_ok {I : MapImpl M Q K V} {m : M} {inl : Bool} {gm : Q → Nat → Nat → Res Trace}
    (hB : Borrowing I m inl gm) (qs : List Q) {ps : List (Option Nat)} (h : I.getDisjointUncheckedMut m qs = .ok ps)
    (t : Nat) : ∃ ops ptrs nx, getMutsB inl gm qs t = .ok (ops, ptrs, nx) ∧ ptrs.map (Option.map Prod.fst) = ps := by
  induction qs generalizing t ps with
  | nil =>
    cases h
    exact ⟨[], [], t, rfl, rfl⟩
  | cons q qs ih =>
    unfold MapImpl.getDisjointUncheckedMut at h
    simp only [bind, Except.bind] at h
    cases hp : I.getMut m q with
    | error e => simp only [hp] at h; cases h
    | ok p =>
      simp only [hp] at h
      cases hps : I.getDisjointUncheckedMut m qs with
      | error e => simp only [hps] at h; cases h
      | ok ps' =>
        simp only [hps] at h
        cases h
        have ha := (agrees_borrowing hB q (if inl = true then t else 0) (if inl = true then t + 1 else t)).1
        rw [hp] at ha
        unfold getMutsB
        simp only [bind, Except.bind]
        cases hg : gm q (if inl = true then t else 0) (if inl = true then t + 1 else t) with
        | error e => rw [hg] at ha; cases ha
        | ok r =>
          rw [hg] at ha
          simp only [Except.map, Except.ok.injEq, Trace.pos] at ha
          simp only
          cases hf : r.found with
          | none =>
            obtain ⟨o, ptrs, nx, h1, h2⟩ := ih hps r.next
            simp only [h1]
            refine ⟨_, _, _, rfl, ?_⟩
            simp [h2, ← ha, hf]
          | some pv =>
            obtain ⟨o, ptrs, nx, h1, h2⟩ := ih hps (r.next + 1)
            simp only [h1]
            refine ⟨_, _, _, rfl, ?_⟩
            simp [h2, ← ha, hf]

theorem MutSteps.tags {I : MapImpl M Q K V} {m : M} {qs : List Q} {t nx : Nat} {ops : List MemOp}
    {ptrs : List (Option (Nat × Nat))} (h : MutSteps I m qs t ops ptrs nx) :
    t ≤ nx ∧ (∀ p c k fp, MemOp.retag p c k fp ∈ ops → t ≤ c ∧ c < nx) ∧
    ∀ p r, some (p, r) ∈ ptrs → t ≤ r ∧ r < nx := by
  induction h with
  | nil t => exact ⟨Nat.le_refl _, fun _ _ _ _ h => (by cases h), fun _ _ h => by cases h⟩
  | found good touch hm hf rest ih =>
    obtain ⟨h1, h2, h3⟩ := ih
    have hle := good.le
    refine ⟨by omega, ?_, ?_⟩
    · intro p c k fp h
      rcases List.mem_append.1 h with h | h
      · have := good.tags p c k fp h
        omega
      · rcases List.mem_cons.1 h with h | h
        · cases h
          omega
        · have := h2 p c k fp h
          omega
    · intro p r h
      rcases List.mem_cons.1 h with h | h
      · cases h
        omega
      · have := h3 p r h
        omega
  | missing good hm hf rest ih =>
    obtain ⟨h1, h2, h3⟩ := ih
    have hle := good.le
    refine ⟨by omega, ?_, ?_⟩
    · intro p c k fp h
      rcases List.mem_append.1 h with h | h
      · have := good.tags p c k fp h
        omega
      · have := h2 p c k fp h
        omega
    · intro p r h
      rcases List.mem_cons.1 h with h | h
      · cases h
      · have := h3 p r h
        omega

theorem MutSteps.tb {I : MapImpl M Q K V} {m : M} {qs : List Q} {t nx : Nat} {ops : List MemOp}
    {ptrs : List (Option (Nat × Nat))} (h : MutSteps I m qs t ops ptrs nx) (ht : 0 < t) (l : Loc)
    (E : Nat → Option Bool) (n : Nat) (hn : n ≤ t) (hE : E 0 = some true) :
    ∃ (E' : Nat → Option Bool) (n' : Nat), envRun l (E, n) ops = some (E', n') ∧ n' ≤ nx ∧ (∀ c, c < t → E' c = E c) ∧
      ∀ p r, some (p, r) ∈ ptrs → l = .value p → E' r = some true := by
  induction h generalizing E n with
  | nil t => exact ⟨E, n, rfl, hn, fun _ _ => rfl, fun _ _ h => by cases h⟩
  | found good touch hm hf rest ih =>
    rename_i q qs t ops ptrs nx p v tr
    have hle := good.le
    obtain ⟨E1, n1, h1, h2, h3, h4⟩ := (good.at' l).tb E n hn hE
    have hv := h4 p v hf
    have hvf := good.found p v hf
    cases hl : valueFp p l with
    | true =>
      have hl' : l = .value p := by
        cases l <;> simp [valueFp] at hl
        rw [hl]
      have hv' : E1 v = some true := hv.elim (fun h => by cases h) (fun h => h hl')
      obtain ⟨E2, n2, k1, k2, k3, k4⟩ := ih (by omega) (fun c => if c = tr.next then some true else E1 c) (tr.next + 1)
        (Nat.le_refl _) (by rw [if_neg (by omega), h3 0 ht]; exact hE)
      refine ⟨E2, n2, ?_, k2, ?_, ?_⟩
      · rw [envRun_append, h1]
        have hnt : ¬ tr.next < n1 := by omega
        simpa [envRun, envStep, hl, hnt, hv'] using k1
      · intro c hc
        rw [k3 c (by omega), if_neg (by omega), h3 c hc]
      · intro p' r' h hlp
        rcases List.mem_cons.1 h with h | h
        · cases h
          rw [k3 _ (by omega), if_pos rfl]
        · exact k4 p' r' h hlp
    | false =>
      obtain ⟨E2, n2, k1, k2, k3, k4⟩ := ih (by omega) E1 n1 (by omega) (by rw [h3 0 ht]; exact hE)
      refine ⟨E2, n2, ?_, k2, ?_, ?_⟩
      · rw [envRun_append, h1]
        simpa [envRun, envStep, hl] using k1
      · intro c hc
        rw [k3 c (by omega), h3 c hc]
      · intro p' r' h hlp
        rcases List.mem_cons.1 h with h | h
        · cases h
          subst hlp
          simp [valueFp] at hl
        · exact k4 p' r' h hlp
  | missing good hm hf rest ih =>
    rename_i q qs t ops ptrs nx tr
    have hle := good.le
    obtain ⟨E1, n1, h1, h2, h3, h4⟩ := (good.at' l).tb E n hn hE
    obtain ⟨E2, n2, k1, k2, k3, k4⟩ := ih (by omega) E1 n1 h2 (by rw [h3 0 ht]; exact hE)
    refine ⟨E2, n2, ?_, k2, ?_, ?_⟩
    · rw [envRun_append, h1]
      exact k1
    · intro c hc
      rw [k3 c (by omega), h3 c hc]
    · intro p' r' h hlp
      rcases List.mem_cons.1 h with h | h
      · cases h
      · exact k4 p' r' h hlp

theorem asMutsB_pos (ptrs : List (Option (Nat × Nat))) (t : Nat) :
    (asMutsB ptrs t).2.map (Option.map Prod.fst) = ptrs.map (Option.map Prod.fst) := by
  induction ptrs generalizing t with
  | nil => rfl
  | cons x ptrs ih =>
    cases x with
    | none => simp only [asMutsB, List.map_cons, ih]
    | some pr => simp only [asMutsB, List.map_cons, ih]; rfl

theorem asMutsB_tb (ptrs : List (Option (Nat × Nat))) (t : Nat) (hp : ∀ p r, some (p, r) ∈ ptrs → r < t) (l : Loc)
    (E : Nat → Option Bool) (n : Nat) (hn : n ≤ t) (hE : ∀ p r, some (p, r) ∈ ptrs → l = .value p → E r = some true) :
    ∃ (E' : Nat → Option Bool) (n' : Nat), envRun l (E, n) (asMutsB ptrs t).1 = some (E', n') ∧ (∀ c, c < t → E' c = E c) ∧
      ∀ p r, some (p, r) ∈ (asMutsB ptrs t).2 → l = .value p → E' r = some true := by
  induction ptrs generalizing t E n with
  | nil => exact ⟨E, n, rfl, fun _ _ => rfl, fun _ _ h => by cases h⟩
  | cons x ptrs ih =>
    cases x with
    | none =>
      obtain ⟨E', n', h1, h2, h3⟩ := ih t (fun p r h => hp p r (by simp [h])) E n hn (fun p r h => hE p r (by simp [h]))
      refine ⟨E', n', h1, h2, ?_⟩
      intro p r h
      simp only [asMutsB, List.mem_cons, reduceCtorEq, false_or] at h
      exact h3 p r h
    | some pr =>
      obtain ⟨p, r⟩ := pr
      have hr := hp p r (by simp)
      cases hl : valueFp p l with
      | true =>
        have hl' : l = .value p := by
          cases l <;> simp [valueFp] at hl
          rw [hl]
        obtain ⟨E', n', h1, h2, h3⟩ := ih (t + 1) (fun p' r' h => by have := hp p' r' (by simp [h]); omega)
          (fun c => if c = t then some true else E c) (t + 1) (Nat.le_refl _) (by
            intro p' r' h hlp
            have := hp p' r' (by simp [h])
            rw [if_neg (by omega)]
            exact hE p' r' (by simp [h]) hlp)
        refine ⟨E', n', ?_, ?_, ?_⟩
        · have hnt : ¬ t < n := by omega
          simpa [asMutsB, envRun, envStep, hl, hnt, hE p r (by simp) hl'] using h1
        · intro c hc
          rw [h2 c (by omega), if_neg (by omega)]
        · intro p' r' h hlp
          simp only [asMutsB, List.mem_cons, Option.some.injEq, Prod.mk.injEq] at h
          rcases h with h | h
          · rw [h.2, h2 t (by omega), if_pos rfl]
          · exact h3 p' r' h hlp
      | false =>
        obtain ⟨E', n', h1, h2, h3⟩ := ih (t + 1) (fun p' r' h => by have := hp p' r' (by simp [h]); omega)
          E n (by omega) (fun p' r' h => hE p' r' (by simp [h]))
        refine ⟨E', n', ?_, fun c hc => h2 c (by omega), ?_⟩
        · simpa [asMutsB, envRun, envStep, hl] using h1
        · intro p' r' h hlp
          simp only [asMutsB, List.mem_cons, Option.some.injEq, Prod.mk.injEq] at h
          rcases h with h | h
          · rw [h.1] at hlp
            subst hlp
            simp [valueFp] at hl
          · exact h3 p' r' h hlp

/-! ## Using the references under Tree Borrows -/

theorem tbAccess_ok {f : Bool → TbPerm → Option TbPerm}
    (h1 : ∀ p, p = .reserved ∨ p = .active → ∃ p', f true p = some p' ∧ (p' = .reserved ∨ p' = .active))
    (h2 : ∀ p, ∃ p', f false p = some p') (path : List Nat) {st : List TbNode}
    (hs : ∀ x ∈ st, x.tag ∈ path → x.perm = .reserved ∨ x.perm = .active) :
    ∃ st', tbAccess f path st = some st' ∧ (∀ c, tbPath c st' = tbPath c st) ∧
      ∀ x ∈ st', x.tag ∈ path → x.perm = .reserved ∨ x.perm = .active := by
  induction st with
  | nil => exact ⟨[], rfl, fun _ => rfl, fun _ h => by cases h⟩
  | cons x st ih =>
    obtain ⟨st', k1, k2, k3⟩ := ih (fun y hy => hs y (by simp [hy]))
    have hx : ∃ p', f (path.contains x.tag) x.perm = some p' ∧ (x.tag ∈ path → p' = .reserved ∨ p' = .active) := by
      by_cases hm : x.tag ∈ path
      · obtain ⟨p', e1, e2⟩ := h1 x.perm (hs x (by simp) hm)
        exact ⟨p', by rw [List.contains_iff_mem.2 hm]; exact e1, fun _ => e2⟩
      · obtain ⟨p', e1⟩ := h2 x.perm
        refine ⟨p', ?_, fun h => absurd h hm⟩
        have : path.contains x.tag = false := by simpa using hm
        rw [this]
        exact e1
    obtain ⟨p', e1, e2⟩ := hx
    refine ⟨{ x with perm := p' } :: st', by unfold tbAccess; rw [e1, k1]; rfl, ?_, ?_⟩
    · intro c
      by_cases hc : x.tag = c
      · subst hc
        exact (tbPath_head (x := { x with perm := p' })).trans (tbPath_head (x := x)).symm
      · rw [tbPath_cons_ne (x := { x with perm := p' }) hc, tbPath_cons_ne hc]
        exact k2 c
    · intro y hy hyp
      rcases List.mem_cons.1 hy with rfl | hy
      · exact e2 hyp
      · exact k3 y hy hyp

theorem tbRun_use {l : Loc} (refs : List (Option (Nat × Nat))) (f : Nat) (path : List Nat)
    (hr : ∀ p r, some (p, r) ∈ refs → l = .value p → r = f) (us : List (Nat × Bool)) {st : List TbNode}
    (hp : (∃ p r, some (p, r) ∈ refs ∧ l = .value p) → tbPath f st = some path)
    (hs : ∀ x ∈ st, x.tag ∈ path → x.perm = .reserved ∨ x.perm = .active) :
    (tbRun l st (useOps refs us)).isSome = true := by
  induction us generalizing st with
  | nil => rfl
  | cons u us ih =>
    obtain ⟨i, w⟩ := u
    unfold useOps
    split
    · rename_i p tag hi
      have hmem := List.mem_of_getElem? hi
      unfold tbRun
      cases hl : valueFp p l with
      | false =>
        have : tbStep l st (if w = true then .write tag (valueFp p) else .read tag (valueFp p)) = some st := by
          cases w <;> simp [tbStep, hl]
        rw [this]
        exact ih hp hs
      | true =>
        have hl' : l = .value p := by
          cases l <;> simp [valueFp] at hl
          rw [hl]
        have hpath := hp ⟨p, tag, hmem, hl'⟩
        have ht := hr p tag hmem hl'
        subst ht
        have : ∃ st', tbStep l st (if w = true then .write tag (valueFp p) else .read tag (valueFp p)) = some st' ∧
            (∀ c, tbPath c st' = tbPath c st) ∧
            ∀ x ∈ st', x.tag ∈ path → x.perm = .reserved ∨ x.perm = .active := by
          cases w with
          | true =>
            obtain ⟨st', k1, k2, k3⟩ := tbAccess_ok (f := tbWritePerm) (by
              rintro p (rfl | rfl)
              · exact ⟨.active, rfl, .inr rfl⟩
              · exact ⟨.active, rfl, .inr rfl⟩) (by intro p; cases p <;> exact ⟨.disabled, rfl⟩) path hs
            refine ⟨st', ?_, k2, k3⟩
            simp only [if_true, tbStep, hl, hpath]
            exact k1
          | false =>
            obtain ⟨st', k1, k2, k3⟩ := tbAccess_ok (f := tbReadPerm) (by
              rintro p (rfl | rfl)
              · exact ⟨.reserved, rfl, .inl rfl⟩
              · exact ⟨.active, rfl, .inr rfl⟩) (by intro p; cases p <;> exact ⟨_, rfl⟩) path hs
            refine ⟨st', ?_, k2, k3⟩
            simp only [Bool.false_eq_true, if_false, tbStep, hl, if_true, hpath]
            exact k1
        obtain ⟨st', k1, k2, k3⟩ := this
        rw [k1]
        exact ih (fun h => (k2 tag).trans (hp h)) k3
    · exact ih hp hs

/-! ## Stacked Borrows when only the last key is found -/

theorem MutSteps.sb {I : MapImpl M Q K V} {m : M} {qs : List Q} {t nx : Nat} {ops : List MemOp}
    {ptrs : List (Option (Nat × Nat))} (h : MutSteps I m qs t ops ptrs nx) (ht : 0 < t) (l : Loc)
    (hlast : ∀ i x, i + 1 < qs.length → ptrs[i]? = some x → x = none)
    (L R : List (Nat × Bool)) (n : Nat) (hn : n ≤ t) (hL : ∀ x ∈ L, x.1 ≠ 0) :
    ∃ (L' : List (Nat × Bool)) (n' : Nat), chRun l (L ++ (0, true) :: R, n) ops = some (L' ++ (0, true) :: R, n') ∧
      n' ≤ nx ∧ ∀ p r, some (p, r) ∈ ptrs → l = .value p → ∃ L2, L' = (r, true) :: L2 := by
  induction h generalizing L n with
  | nil t => exact ⟨L, n, rfl, hn, fun _ _ h => by cases h⟩
  | found good touch hm hf rest ih =>
    rename_i q qs t ops ptrs nx p v tr
    have hle := good.le
    have hq : qs = [] := by
      cases qs with
      | nil => rfl
      | cons _ _ => exact absurd (hlast 0 _ (by simp) rfl) (by simp)
    subst hq
    cases rest
    obtain ⟨L1, n1, h1, h2, h3, h4⟩ := (good.at' l).sb L R n hn hL
    cases hl : valueFp p l with
    | true =>
      have hl' : l = .value p := by
        cases l <;> simp [valueFp] at hl
        rw [hl]
      obtain ⟨L2, rfl⟩ := (h4 p v hf).elim (fun h => by cases h) (fun h => h hl')
      have hnt : ¬ tr.next < n1 := by omega
      refine ⟨(tr.next, true) :: (v, true) :: L2, tr.next + 1, ?_, Nat.le_refl _, ?_⟩
      · rw [chRun_append, h1]
        simp [chRun, chStep, hl, hnt, cut_head]
      · intro p' r' h hlp
        simp only [List.mem_singleton, Option.some.injEq, Prod.mk.injEq] at h
        exact ⟨_, by rw [h.2]⟩
    | false =>
      refine ⟨L1, n1, ?_, by omega, ?_⟩
      · rw [chRun_append, h1]
        simp [chRun, chStep, hl]
      · intro p' r' h hlp
        simp only [List.mem_singleton, Option.some.injEq, Prod.mk.injEq] at h
        rw [h.1] at hlp
        subst hlp
        simp [valueFp] at hl
  | missing good hm hf rest ih =>
    rename_i q qs t ops ptrs nx tr
    have hle := good.le
    obtain ⟨L1, n1, h1, h2, h3, h4⟩ := (good.at' l).sb L R n hn hL
    obtain ⟨L2, n2, k1, k2, k3⟩ := ih (by omega)
      (fun i x hi hx => hlast (i + 1) x (by simp only [List.length_cons]; omega) (by simpa using hx)) L1 n1 h2
      (fun x hx => (h3 x hx).elim (hL x) (fun h => by omega))
    refine ⟨L2, n2, ?_, k2, ?_⟩
    · rw [chRun_append, h1]
      exact k1
    · intro p' r' h hlp
      rcases List.mem_cons.1 h with h | h
      · cases h
      · exact k3 p' r' h hlp

theorem MutSteps.length {I : MapImpl M Q K V} {m : M} {qs : List Q} {t nx : Nat} {ops : List MemOp}
    {ptrs : List (Option (Nat × Nat))} (h : MutSteps I m qs t ops ptrs nx) : ptrs.length = qs.length := by
  induction h with
  | nil t => rfl
  | found good touch hm hf rest ih => simp [ih]
  | missing good hm hf rest ih => simp [ih]

theorem MutSteps.getMut {I : MapImpl M Q K V} {m : M} {qs : List Q} {t nx : Nat} {ops : List MemOp}
    {ptrs : List (Option (Nat × Nat))} (h : MutSteps I m qs t ops ptrs nx) {i : Nat} {q : Q} {x : Option (Nat × Nat)}
    (hq : qs[i]? = some q) (hx : ptrs[i]? = some x) : I.getMut m q = .ok (x.map Prod.fst) := by
  induction h generalizing i with
  | nil t => cases hq
  | found good touch hm hf rest ih =>
    cases i with
    | zero => simp at hq hx; subst hq hx; exact hm
    | succ i => exact ih (by simpa using hq) (by simpa using hx)
  | missing good hm hf rest ih =>
    cases i with
    | zero => simp at hq hx; subst hq hx; exact hm
    | succ i => exact ih (by simpa using hq) (by simpa using hx)

theorem asMutsB_sb (ptrs : List (Option (Nat × Nat))) (t : Nat) (l : Loc)
    (hlast : ∀ i x, i + 1 < ptrs.length → ptrs[i]? = some x → x = none)
    (L R : List (Nat × Bool)) (n : Nat) (hn : n ≤ t)
    (hp : ∀ p r, some (p, r) ∈ ptrs → l = .value p → ∃ L2, L = (r, true) :: L2) :
    ∃ (L' : List (Nat × Bool)) (n' : Nat), chRun l (L ++ (0, true) :: R, n) (asMutsB ptrs t).1 =
      some (L' ++ (0, true) :: R, n') ∧
      ∀ p f, some (p, f) ∈ (asMutsB ptrs t).2 → l = .value p → ∃ L2, L' = (f, true) :: L2 := by
  induction ptrs with
  | nil => exact ⟨L, n, rfl, fun _ _ h => by cases h⟩
  | cons x ptrs ih =>
    cases x with
    | none =>
      obtain ⟨L', n', h1, h2⟩ := ih
        (fun i x hi hx => hlast (i + 1) x (by simp only [List.length_cons]; omega) (by simpa using hx))
        (fun p r h => hp p r (by simp [h]))
      refine ⟨L', n', h1, ?_⟩
      intro p f h
      simp only [asMutsB, List.mem_cons, reduceCtorEq, false_or] at h
      exact h2 p f h
    | some pr =>
      obtain ⟨p, r⟩ := pr
      have hq : ptrs = [] := by
        cases ptrs with
        | nil => rfl
        | cons _ _ => exact absurd (hlast 0 _ (by simp) rfl) (by simp)
      subst hq
      cases hl : valueFp p l with
      | true =>
        have hl' : l = .value p := by
          cases l <;> simp [valueFp] at hl
          rw [hl]
        obtain ⟨L2, rfl⟩ := hp p r (by simp) hl'
        have hnt : ¬ t < n := by omega
        refine ⟨(t, true) :: (r, true) :: L2, t + 1, ?_, ?_⟩
        · simp [asMutsB, chRun, chStep, hl, hnt, cut_head]
        · intro p' f h _
          simp only [asMutsB, List.mem_singleton, Option.some.injEq, Prod.mk.injEq] at h
          exact ⟨_, by rw [h.2]⟩
      | false =>
        refine ⟨L, n, ?_, ?_⟩
        · simp [asMutsB, chRun, chStep, hl]
        · intro p' f h hlp
          simp only [asMutsB, List.mem_singleton, Option.some.injEq, Prod.mk.injEq] at h
          rw [h.1] at hlp
          subst hlp
          simp [valueFp] at hl

theorem chRun_use {l : Loc} (refs : List (Option (Nat × Nat))) (us : List (Nat × Bool)) {c : List (Nat × Bool)} {n : Nat}
    (hp : ∀ p f, some (p, f) ∈ refs → l = .value p → ∃ L2, c = (f, true) :: L2) :
    chRun l (c, n) (useOps refs us) = some (c, n) := by
  induction us with
  | nil => rfl
  | cons u us ih =>
    obtain ⟨i, w⟩ := u
    unfold useOps
    split
    · rename_i p tag hi
      have hmem := List.mem_of_getElem? hi
      unfold chRun
      have : chStep l (c, n) (if w = true then .write tag (valueFp p) else .read tag (valueFp p)) = some (c, n) := by
        cases hl : valueFp p l with
        | false => cases w <;> simp [chStep, hl]
        | true =>
          have hl' : l = .value p := by
            cases l <;> simp [valueFp] at hl
            rw [hl]
          obtain ⟨L2, rfl⟩ := hp p tag hmem hl'
          cases w <;> simp [chStep, hl, cut_head]
      rw [this]
      exact ih
    · exact ih

/-! ## Stacked Borrows when two keys are found -/

/-- The tag an operation makes. -/
def MemOp.makes : MemOp → Option Nat
  | .retag _ c _ _ => some c
  | _ => none

theorem sbRead_root {tag : Nat} {S s' : SbStack} {z : Nat × SbPerm} (h : sbRead tag (S ++ [z]) = some s') :
    ∃ S', s' = S' ++ [z] ∧ S'.map Prod.fst = S.map Prod.fst := by
  induction S generalizing s' with
  | nil =>
    simp only [List.nil_append, sbRead] at h
    split at h
    · cases h
      exact ⟨[], rfl, rfl⟩
    · cases h
  | cons x S ih =>
    rw [List.cons_append] at h
    unfold sbRead at h
    split at h
    · cases h
      exact ⟨x :: S, rfl, rfl⟩
    · obtain ⟨s1, h1, rfl⟩ := Option.map_eq_some_iff.1 h
      obtain ⟨S', rfl, e⟩ := ih h1
      refine ⟨(if x.2 = .unique then (x.1, .disabled) else x) :: S', rfl, ?_⟩
      rw [List.map_cons, List.map_cons, e]
      split <;> rfl

theorem sbWrite_root {tag : Nat} {block S s' : SbStack} {z : Nat × SbPerm} (h : sbWrite tag block (S ++ [z]) = some s') :
    ∃ S', s' = S' ++ [z] ∧ ∀ x ∈ S', x ∈ block ∨ x ∈ S := by
  induction S generalizing s' block with
  | nil =>
    simp only [List.nil_append, sbWrite] at h
    split at h
    · cases h
      refine ⟨_, rfl, ?_⟩
      split
      · exact fun x hx => .inl hx
      · exact fun x hx => by cases hx
    · cases h
  | cons x S ih =>
    rw [List.cons_append] at h
    unfold sbWrite at h
    split at h
    · cases h
      refine ⟨(if x.2 = .sharedRW then block else []) ++ x :: S, by simp, ?_⟩
      intro y hy
      rcases List.mem_append.1 hy with hy | hy
      · split at hy
        · exact .inl hy
        · cases hy
      · exact .inr hy
    · obtain ⟨S', rfl, e⟩ := ih h
      refine ⟨S', rfl, ?_⟩
      intro y hy
      rcases e y hy with hy | hy
      · split at hy
        · rcases List.mem_append.1 hy with hy | hy
          · exact .inl hy
          · exact .inr (by simp at hy; simp [hy])
        · cases hy
      · exact .inr (by simp [hy])

theorem sbRaw_root {tag n : Nat} {above block S s' : SbStack} {z : Nat × SbPerm}
    (h : sbRaw tag n above block (S ++ [z]) = some s') :
    ∃ S', s' = S' ++ [z] ∧ ∀ x ∈ S', x.1 = n ∨ x ∈ above ∨ x ∈ block ∨ x ∈ S := by
  induction S generalizing s' above block with
  | nil =>
    simp only [List.nil_append, sbRaw] at h
    split at h
    · cases h
      refine ⟨above ++ (n, .sharedRW) :: block, by simp, ?_⟩
      intro x hx
      simp only [List.mem_append, List.mem_cons] at hx
      rcases hx with hx | rfl | hx
      · exact .inr (.inl hx)
      · exact .inl rfl
      · exact .inr (.inr (.inl hx))
    · split at h <;> cases h
  | cons x S ih =>
    rw [List.cons_append] at h
    unfold sbRaw at h
    split at h
    · cases h
      refine ⟨above ++ (n, .sharedRW) :: (block ++ x :: S), by simp, ?_⟩
      intro y hy
      simp only [List.mem_append, List.mem_cons] at hy
      rcases hy with hy | rfl | hy | hy
      · exact .inr (.inl hy)
      · exact .inl rfl
      · exact .inr (.inr (.inl hy))
      · exact .inr (.inr (.inr (by simpa using hy)))
    · split at h
      · obtain ⟨S', rfl, e⟩ := ih h
        refine ⟨S', rfl, fun y hy => ?_⟩
        have := e y hy
        simp only [List.mem_append, List.mem_cons, List.not_mem_nil, or_false] at this ⊢
        tauto
      · obtain ⟨S', rfl, e⟩ := ih h
        refine ⟨S', rfl, fun y hy => ?_⟩
        have := e y hy
        simp only [List.mem_append, List.mem_cons, List.not_mem_nil, or_false] at this ⊢
        tauto

/-- The owner stays at the bottom, and no tag appears from nowhere. -/
theorem sbStep_root {l : Loc} {op : MemOp} {S s' : SbStack} {z : Nat × SbPerm} (h : sbStep l (S ++ [z]) op = some s') :
    ∃ S', s' = S' ++ [z] ∧ ∀ x ∈ S'.map Prod.fst, x ∈ S.map Prod.fst ∨ op.makes = some x := by
  cases op with
  | retag p c k fp =>
    cases hl : fp l with
    | false =>
      cases k <;> simp only [sbStep, hl, Bool.false_eq_true, if_false, Option.some.injEq] at h <;>
        exact ⟨S, h.symm, fun _ h => .inl h⟩
    | true =>
      cases k with
      | «mut» =>
        simp only [sbStep, hl, if_true] at h
        obtain ⟨s1, h1, rfl⟩ := Option.map_eq_some_iff.1 h
        obtain ⟨S', rfl, e⟩ := sbWrite_root h1
        refine ⟨(c, .unique) :: S', rfl, ?_⟩
        intro x hx
        rw [List.map_cons] at hx
        rcases List.mem_cons.1 hx with rfl | hx
        · exact .inr rfl
        · obtain ⟨y, hy, rfl⟩ := List.mem_map.1 hx
          exact .inl (List.mem_map_of_mem ((e y hy).elim (fun h => by cases h) id))
      | shr =>
        simp only [sbStep, hl, if_true] at h
        obtain ⟨s1, h1, rfl⟩ := Option.map_eq_some_iff.1 h
        obtain ⟨S', rfl, e⟩ := sbRead_root h1
        refine ⟨(c, .sharedRO) :: S', rfl, ?_⟩
        intro x hx
        rw [List.map_cons, e] at hx
        exact (List.mem_cons.1 hx).elim (fun h => .inr (by rw [h]; rfl)) .inl
      | raw =>
        simp only [sbStep, hl, if_true] at h
        obtain ⟨S', rfl, e⟩ := sbRaw_root h
        refine ⟨S', rfl, ?_⟩
        intro x hx
        obtain ⟨y, hy, rfl⟩ := List.mem_map.1 hx
        rcases e y hy with h | h | h | h
        · exact .inr (by rw [h]; rfl)
        · cases h
        · cases h
        · exact .inl (List.mem_map_of_mem h)
  | read p fp =>
    cases hl : fp l with
    | false =>
      simp only [sbStep, hl, Bool.false_eq_true, if_false, Option.some.injEq] at h
      exact ⟨S, h.symm, fun _ h => .inl h⟩
    | true =>
      simp only [sbStep, hl, if_true] at h
      obtain ⟨S', rfl, e⟩ := sbRead_root h
      exact ⟨S', rfl, fun x hx => .inl (e ▸ hx)⟩
  | write p fp =>
    cases hl : fp l with
    | false =>
      simp only [sbStep, hl, Bool.false_eq_true, if_false, Option.some.injEq] at h
      exact ⟨S, h.symm, fun _ h => .inl h⟩
    | true =>
      simp only [sbStep, hl, if_true] at h
      obtain ⟨S', rfl, e⟩ := sbWrite_root h
      refine ⟨S', rfl, fun x hx => ?_⟩
      obtain ⟨y, hy, rfl⟩ := List.mem_map.1 hx
      exact .inl (List.mem_map_of_mem ((e y hy).elim (fun h => by cases h) id))

theorem sbRun_root {l : Loc} {ops : List MemOp} {S s' : SbStack} {z : Nat × SbPerm} (h : sbRun l (S ++ [z]) ops = some s') :
    ∃ S', s' = S' ++ [z] ∧ ∀ x ∈ S'.map Prod.fst, x ∈ S.map Prod.fst ∨ ∃ op ∈ ops, op.makes = some x := by
  induction ops generalizing S with
  | nil =>
    cases h
    exact ⟨S, rfl, fun _ h => .inl h⟩
  | cons op ops ih =>
    unfold sbRun at h
    cases h1 : sbStep l (S ++ [z]) op with
    | none => rw [h1] at h; cases h
    | some s1 =>
      rw [h1] at h
      obtain ⟨S1, rfl, e1⟩ := sbStep_root h1
      obtain ⟨S2, rfl, e2⟩ := ih h
      refine ⟨S2, rfl, fun x hx => ?_⟩
      rcases e2 x hx with hx | ⟨op', hm, hx⟩
      · rcases e1 x hx with hx | hx
        · exact .inl hx
        · exact .inr ⟨op, by simp, hx⟩
      · exact .inr ⟨op', by simp [hm], hx⟩

theorem sbWrite_owner {S : SbStack} (hS : ∀ x ∈ S.map Prod.fst, x ≠ 0) (block : SbStack) :
    sbWrite 0 block (S ++ [(0, .unique)]) = some [(0, .unique)] := by
  induction S generalizing block with
  | nil => simp [sbWrite, SbPerm.writes]
  | cons x S ih =>
    rw [List.cons_append]
    unfold sbWrite
    rw [if_neg (fun h => hS x.1 (by simp) h.1)]
    exact ih (fun y hy => hS y (by simp only [List.map_cons, List.mem_cons]; exact .inr hy)) _

theorem sbWrite_absent {tag : Nat} {st : SbStack} (h : tag ∉ st.map Prod.fst) (block : SbStack) :
    sbWrite tag block st = none := by
  induction st generalizing block with
  | nil => rfl
  | cons x st ih =>
    rw [List.map_cons] at h
    unfold sbWrite
    rw [if_neg (fun h' => h (by rw [h'.1]; simp))]
    exact ih (fun h' => h (by simp only [List.mem_cons]; exact .inr h')) _

/-- After a mutable reborrow of everything, older tags are gone. -/
theorem sbRun_clears {l : Loc} {ops : List MemOp} {S s' : SbStack} (h : sbRun l (S ++ [(0, .unique)]) ops = some s')
    (hS : ∀ x ∈ S.map Prod.fst, x ≠ 0) {r : Nat} (hr : r ≠ 0) (hnew : ∀ op ∈ ops, ∀ x, op.makes = some x → x ≠ 0 ∧ x ≠ r)
    {c : Nat} (hc : MemOp.retag 0 c .mut wholeFp ∈ ops) : r ∉ s'.map Prod.fst := by
  obtain ⟨a, b, rfl⟩ := List.append_of_mem hc
  rw [sbRun_append] at h
  cases h1 : sbRun l (S ++ [(0, .unique)]) a with
  | none => rw [h1] at h; cases h
  | some s1 =>
    rw [h1] at h
    simp only [Option.bind] at h
    obtain ⟨S1, rfl, e1⟩ := sbRun_root h1
    have hS1 : ∀ x ∈ S1.map Prod.fst, x ≠ 0 := by
      intro x hx
      rcases e1 x hx with hx | ⟨op, hm, hx⟩
      · exact hS x hx
      · exact (hnew op (by simp [hm]) x hx).1
    unfold sbRun at h
    have : sbStep l (S1 ++ [(0, .unique)]) (.retag 0 c .mut wholeFp) = some ([(c, .unique)] ++ [(0, .unique)]) := by
      simp only [sbStep, wholeFp, if_true, sbWrite_owner hS1]
      rfl
    rw [this] at h
    obtain ⟨S2, rfl, e2⟩ := sbRun_root h
    intro hm
    rw [List.map_append, List.mem_append] at hm
    rcases hm with hm | hm
    · rcases e2 r hm with hx | ⟨op, ho, hx⟩
      · simp only [List.map_cons, List.map_nil, List.mem_singleton] at hx
        exact (hnew (.retag 0 c .mut wholeFp) (by simp) c rfl).2 hx.symm
      · exact (hnew op (by simp [ho]) r hx).2 rfl
    · simp at hm
      exact hr hm

/-- A reborrow of a tag that is gone. -/
theorem sbRun_gone {l : Loc} {ops : List MemOp} {S : SbStack} {z : Nat × SbPerm} {r : Nat}
    (habs : r ∉ (S ++ [z]).map Prod.fst) (hnew : ∀ op ∈ ops, ∀ x, op.makes = some x → x ≠ r) {f : Nat} {fp : Footprint}
    (hfp : fp l = true) (hf : MemOp.retag r f .mut fp ∈ ops) : sbRun l (S ++ [z]) ops = none := by
  obtain ⟨a, b, rfl⟩ := List.append_of_mem hf
  rw [sbRun_append]
  cases h1 : sbRun l (S ++ [z]) a with
  | none => rfl
  | some s1 =>
    obtain ⟨S1, rfl, e1⟩ := sbRun_root h1
    have : r ∉ (S1 ++ [z]).map Prod.fst := by
      intro hm
      rw [List.map_append, List.mem_append] at hm habs
      rcases hm with hm | hm
      · rcases e1 r hm with hx | ⟨op, ho, hx⟩
        · exact habs (.inl hx)
        · exact hnew op (by simp [ho]) r hx rfl
      · exact habs (.inr hm)
    simp only [Option.bind]
    unfold sbRun
    simp only [sbStep, hfp, if_true, sbWrite_absent this]
    rfl

theorem MutSteps.touches {I : MapImpl M Q K V} {m : M} {qs : List Q} {t nx : Nat} {ops : List MemOp}
    {ptrs : List (Option (Nat × Nat))} (h : MutSteps I m qs t ops ptrs nx) {j : Nat} {q : Q} {b : Nat}
    (hj : qs[j]? = some q) (hb : I.getMut m q = .ok (some b)) : ∃ c, MemOp.retag 0 c .mut wholeFp ∈ ops := by
  induction h generalizing j with
  | nil t => cases hj
  | found good touch hm hf rest ih => exact touch.imp (fun c hc => by simp [hc])
  | missing good hm hf rest ih =>
    cases j with
    | zero =>
      simp at hj
      subst hj
      rw [hm] at hb
      cases hb
    | succ j => exact (ih (by simpa using hj)).imp (fun c hc => by simp [hc])

theorem MutSteps.two {I : MapImpl M Q K V} {m : M} {qs : List Q} {t nx : Nat} {ops : List MemOp}
    {ptrs : List (Option (Nat × Nat))} (h : MutSteps I m qs t ops ptrs nx) {i j : Nat} (hij : i < j) {q q' : Q} {a b : Nat}
    (hi : qs[i]? = some q) (ha : I.getMut m q = .ok (some a)) (hj : qs[j]? = some q')
    (hb : I.getMut m q' = .ok (some b)) :
    ∃ A B r, ops = A ++ B ∧ some (a, r) ∈ ptrs ∧ (∀ p c k fp, MemOp.retag p c k fp ∈ B → r < c) ∧
      ∃ c, MemOp.retag 0 c .mut wholeFp ∈ B := by
  induction h generalizing i j with
  | nil t => cases hi
  | found good touch hm hf rest ih =>
    rename_i p v tr
    cases j with
    | zero => omega
    | succ j =>
      cases i with
      | zero =>
        simp at hi
        subst hi
        rw [hm] at ha
        cases ha
        refine ⟨tr.ops ++ [.retag v tr.next .raw (valueFp a)], _, tr.next, by rw [List.append_assoc]; rfl, by simp, ?_,
          rest.touches (by simpa using hj) hb⟩
        intro p c k fp h
        have := rest.tags.2.1 p c k fp h
        omega
      | succ i =>
        obtain ⟨A, B, r, rfl, h2, h3, h4⟩ := ih (i := i) (j := j) (by omega) (by simpa using hi) (by simpa using hj)
        exact ⟨tr.ops ++ .retag v tr.next .raw (valueFp p) :: A, B, r, by simp, by simp [h2], h3, h4⟩
  | missing good hm hf rest ih =>
    rename_i tr
    cases j with
    | zero => omega
    | succ j =>
      cases i with
      | zero =>
        simp at hi
        subst hi
        rw [hm] at ha
        cases ha
      | succ i =>
        obtain ⟨A, B, r, rfl, h2, h3, h4⟩ := ih (i := i) (j := j) (by omega) (by simpa using hi) (by simpa using hj)
        exact ⟨tr.ops ++ A, B, r, by simp, by simp [h2], h3, h4⟩

theorem asMutsB_tags (ptrs : List (Option (Nat × Nat))) (t : Nat) :
    (∀ op ∈ (asMutsB ptrs t).1, ∀ x, op.makes = some x → t ≤ x) ∧
    ∀ p r, some (p, r) ∈ ptrs → ∃ f, MemOp.retag r f .mut (valueFp p) ∈ (asMutsB ptrs t).1 := by
  induction ptrs generalizing t with
  | nil => exact ⟨fun _ h => (by cases h), fun _ _ h => by cases h⟩
  | cons y ptrs ih =>
    cases y with
    | none =>
      refine ⟨(ih t).1, fun p r h => ?_⟩
      simp only [List.mem_cons, reduceCtorEq, false_or] at h
      exact (ih t).2 p r h
    | some pr =>
      obtain ⟨p, r⟩ := pr
      refine ⟨?_, ?_⟩
      · intro op h x hx
        simp only [asMutsB, List.mem_cons] at h
        rcases h with rfl | h
        · cases hx
          exact Nat.le_refl _
        · have := (ih (t + 1)).1 op h x hx
          omega
      · intro p' r' h
        simp only [List.mem_cons, Option.some.injEq, Prod.mk.injEq] at h
        rcases h with ⟨rfl, rfl⟩ | h
        · exact ⟨t, by simp [asMutsB]⟩
        · exact ((ih (t + 1)).2 p' r' h).imp (fun f hf => by simp [asMutsB, hf])

end Frozen.Model
