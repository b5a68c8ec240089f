import Verif.Lemmas.EffectSets
import Verif.Lemmas.EffectBuildSafe

/-!
# The operators on sets with trait functions that have effects
-/

namespace Frozen.Props

open Frozen.Spec Frozen.Model

variable {W S T : Type}

theorem Follows.collectHb {next : S → W → Res (Option T) × S × W} {plan : S → Plan W T} (h : Follows next plan) (t : HbTraits W T) :
    ∀ (fuel : Nat) (s : S) (tbl : HbTable T), collectHbE t next fuel s tbl = collectHbE t planNext fuel (plan s) tbl
  | 0, _, _ => rfl
  | fuel + 1, s, tbl => by
    funext w
    simp only [collectHbE]
    rw [h s w]
    rcases next s w with ⟨o, s', w'⟩
    match o with
    | .ok none => rfl
    | .error e => rfl
    | .ok (some a) => simp only [h.collectHb t fuel]

/-- Collecting, element by element of the plan. -/
theorem collectHbE_cons (t : HbTraits W T) (fuel : Nat) (e : T × Bool × Eff W Bool) (p : Plan W T) (tbl : HbTable T) :
    collectHbE t planNext (fuel + 1) (e :: p) tbl = e.2.2 >>= fun c =>
      if c then t.clone e.1 >>= fun x => tbl.insertE t x >>= fun tbl' => collectHbE t planNext fuel p tbl'
      else collectHbE t planNext (fuel + 1) p tbl := by
  funext w
  show _ = Eff.bind e.2.2 _ w
  simp only [collectHbE, planNext, Eff.bind]
  rcases e.2.2 w with ⟨o, w'⟩
  match o with
  | .ok true => rfl
  | .ok false => rfl
  | .error e => rfl

theorem zipIdx_mem {l : List Nat} {h i : Nat} : (h, i) ∈ l.zipIdx ↔ l[i]? = some h := by
  rw [List.mem_zipIdx_iff_getElem?]

theorem EffRel.insertHb (E : EffRel W) {eqT : T → T → Bool} {t : HbTraits W T} {hT : T → Nat} (hf : HbFindOk t.find.find)
    (hc : ∀ x y, eqT x y = true → hT x = hT y) (hh : ∀ x, E.R Nat (t.hash x) (.ok (hT x))) (he : ∀ x y, E.R Bool (t.eq x y) (.ok (eqT x y)))
    (l : List T) (x : T) :
    E.R _ (HbTable.insertE t ⟨l, l.map hT⟩ x) (.ok ⟨(HbSet.insert eqT ⟨l⟩ x).elems, (HbSet.insert eqT ⟨l⟩ x).elems.map hT⟩) := by
  have hp : ∀ p, E.R _ (atPosE l (t.eq x) false p) (.ok ((l[p]?).any (eqT x))) := by
    intro p
    unfold atPosE
    cases l[p]? with
    | none => exact E.pure _
    | some y => exact he x y
  have hr : ∀ p, E.R _ (atPosE l t.hash 0 p) (.ok (((l[p]?).map hT).getD 0)) := by
    intro p
    unfold atPosE
    cases l[p]? with
    | none => exact E.pure _
    | some y => exact hh y
  refine E.bindOk (hh x) (E.bindOk (E.mapE hr _) (E.bindOk (E.dialog hp _) ?_))
  have hfind : ((t.find l.length (l.map hT).zipIdx (hT x)).answer fun p => (l[p]?).any (eqT x)).isSome = l.any (eqT x) := by
    cases hv : (t.find l.length (l.map hT).zipIdx (hT x)).answer fun p => (l[p]?).any (eqT x) with
    | some v =>
      have := (hf.hit l.length (l.map hT).zipIdx (hT x) (fun p => (l[p]?).any (eqT x)) v hv).2
      obtain ⟨y, hy, hxy⟩ := Option.any_eq_true_iff_get _ _ |>.1 this |> fun ⟨h1, h2⟩ => (⟨_, Option.some_get h1 |>.symm, h2⟩ : ∃ y, l[v]? = some y ∧ eqT x y = true)
      exact (List.any_eq_true.2 ⟨y, List.mem_of_getElem? hy, hxy⟩).symm
    | none =>
      symm
      rw [Option.isSome_none, List.any_eq_false]
      intro y hy hxy
      obtain ⟨i, hi⟩ := List.mem_iff_getElem?.1 hy
      have := hf.miss l.length (l.map hT).zipIdx (hT x) (fun p => (l[p]?).any (eqT x)) hv i
        (zipIdx_mem.2 (by rw [List.getElem?_map, hi, hc x y hxy]; rfl))
      rw [hi] at this
      simp [hxy] at this
  rw [hfind]
  unfold HbSet.insert
  by_cases ha : l.any (eqT x) = true
  · rw [if_pos ha, if_pos ha]
    exact E.pure _
  · rw [if_neg ha, if_neg ha]
    have : (l ++ [x]).map hT = l.map hT ++ [hT x] := by simp
    rw [this]
    exact E.pure _

theorem EffRel.collectHb (E : EffRel W) {eqT : T → T → Bool} {t : HbTraits W T} (ht : HbTraits.Lawful (fun A x r => E.R A x r) eqT t) :
    ∀ (fuel : Nat) (p : Plan W T) (l : List T), (∀ e ∈ p, E.R Bool e.2.2 (.ok e.2.1)) → ∃ hT : T → Nat, (wanted p).length < fuel →
      E.R _ (collectHbE t planNext fuel p ⟨l, l.map hT⟩) (.ok (some ((wanted p).foldl (HbSet.insert eqT) ⟨l⟩))) := by
  obtain ⟨hf, ⟨hT, hc, hh⟩, he, hcl⟩ := ht
  intro fuel p l hp
  refine ⟨hT, ?_⟩
  induction fuel generalizing p l with
  | zero => intro h; omega
  | succ fuel ih =>
    induction p with
    | nil => intro _; exact E.pure (some (HbSet.mk l))
    | cons e p ihp =>
      intro hl
      have hp' : ∀ e ∈ p, E.R Bool e.2.2 (.ok e.2.1) := fun e' h => hp e' (List.mem_cons_of_mem _ h)
      rw [collectHbE_cons]
      rw [wanted_cons] at hl ⊢
      refine E.bindOk (hp e (by simp)) ?_
      by_cases hb : e.2.1 = true
      · rw [if_pos hb] at hl ⊢
        rw [if_pos hb]
        refine E.bindOk (hcl e.1) (E.bindOk (E.insertHb hf hc hh he l e.1) ?_)
        exact ih p _ hp' (by simp at hl; omega)
      · rw [if_neg hb] at hl ⊢
        rw [if_neg hb]
        exact ihp hp' hl

/-- The outcome of an operator, by the plan of its iterator. -/
theorem Follows.gathers (E : EffRel W) {eqT : T → T → Bool} (he : LawfulEq' eqT) {t : HbTraits W T} (ht : HbTraits.Lawful (fun A x r => E.R A x r) eqT t)
    {next : S → W → Res (Option T) × S × W} {plan : S → Plan W T} (h : Follows next plan) {s : S} (hs : ∀ e ∈ plan s, E.R Bool e.2.2 (.ok e.2.1))
    {mem : T → Prop} {src : List T} {fuel : Nat} (hfuel : (plan s).length < fuel) (hm : ∀ x ∈ wanted (plan s), mem x ∧ x ∈ src)
    (hc : ∀ x, mem x → ∃ y ∈ wanted (plan s), eqT x y = true) (hg : ∀ x y, eqT x y = true → mem x → mem y) :
    Gathers (fun A x r => E.R A x r) eqT (collectHbE t next fuel s ⟨[], []⟩) mem src := by
  obtain ⟨h1, h2, h3⟩ := hb_fromIter_spec he (wanted (plan s))
  have hl : (wanted (plan s)).length < fuel := by
    have : (wanted (plan s)).length ≤ (plan s).length := by
      unfold wanted
      rw [List.length_map]
      exact List.length_filter_le _ _
    omega
  obtain ⟨hT, h4⟩ := E.collectHb ht fuel (plan s) [] hs
  refine ⟨HbSet.fromIter eqT (wanted (plan s)), ?_, ⟨?_, ?_, ?_, h1, rfl, hg⟩, fun x hx => (hm x (h2 x hx)).2⟩
  · rw [h.collectHb]
    exact h4 hl
  · intro x
    refine ⟨_, rfl, ?_⟩
    rw [List.any_eq_true]
    constructor
    · rintro ⟨y, hy, hxy⟩
      exact hg y x (he.symm _ _ hxy) (hm y (h2 y hy)).1
    · intro hx
      obtain ⟨y, hy, hxy⟩ := hc x hx
      obtain ⟨z, hz, hyz⟩ := h3 y hy
      exact ⟨z, hz, he.trans _ _ _ hxy hyz⟩
  · intro x hx
    exact (hm x (h2 x hx)).1
  · intro x hx
    obtain ⟨y, hy, hxy⟩ := hc x hx
    obtain ⟨z, hz, hyz⟩ := h3 y hy
    exact ⟨z, hz, he.trans _ _ _ hxy hyz⟩

/-! ## Arbitrary answers -/

theorem Sure.insertHb {t : HbTraits W T} (hh : ∀ x, SafeCode (t.hash x)) (he : ∀ x y, SafeCode (t.eq x y)) (tbl : HbTable T) (x : T) :
    Sure (tbl.insertE t x) (fun tbl' => tbl'.elems.length ≤ tbl.elems.length + 1) := by
  refine Sure.bind (Sure.of (hh x)) (fun h _ => Sure.bind (Sure.mapE (P := fun _ => True) (fun p => ?_) _) (fun _ _ =>
    Sure.bind (Sure.dialog (P := fun _ => True) (fun p => ?_) _ (AlwaysEnds.trivial _)) (fun r _ => ?_)))
  · unfold atPosE
    split
    · exact Sure.of (hh _)
    · exact Sure.pure trivial
  · unfold atPosE
    split
    · exact he _ _
    · exact fun _ => NoUb.ok _
  · split
    · exact Sure.pure (by omega)
    · exact Sure.pure (by simp)

theorem Sure.collectHb {t : HbTraits W T} (hh : ∀ x, SafeCode (t.hash x)) (he : ∀ x y, SafeCode (t.eq x y)) (hcl : ∀ x, SafeCode (t.clone x)) :
    ∀ (fuel : Nat) (p : Plan W T) (tbl : HbTable T), (∀ e ∈ p, SafeCode e.2.2) → p.length < fuel →
      Sure (collectHbE t planNext fuel p tbl) (fun r => ∃ s, r = some s ∧ s.elems.length ≤ tbl.elems.length + p.length) := by
  intro fuel
  induction fuel with
  | zero => intro p tbl _ h; omega
  | succ fuel ih =>
    intro p
    induction p with
    | nil => intro tbl _ _; exact Sure.pure ⟨_, rfl, by simp⟩
    | cons e p ihp =>
      intro tbl hp hl
      have hp' : ∀ e ∈ p, SafeCode e.2.2 := fun e' h => hp e' (List.mem_cons_of_mem _ h)
      rw [collectHbE_cons]
      simp only [List.length_cons] at hl ⊢
      refine Sure.bind (Sure.of (hp e (by simp))) (fun c _ => ?_)
      split
      · refine Sure.bind (Sure.of (hcl e.1)) (fun x _ => Sure.bind (Sure.insertHb hh he tbl x) (fun tbl' h' => ?_))
        refine Sure.mono (ih p tbl' hp' (by omega)) (fun r hr => ?_)
        obtain ⟨s, h1, h2⟩ := hr
        exact ⟨s, h1, by omega⟩
      · refine Sure.mono (ihp tbl hp' (by omega)) (fun r hr => ?_)
        obtain ⟨s, h1, h2⟩ := hr
        exact ⟨s, h1, by omega⟩

end Frozen.Props
