import Verif.Props.ExportSpec

/-! # Lemmas about modules: a table of all names, computed from the declarations -/

namespace Frozen.Props

open Frozen.Model

/-- A name in a module. -/
structure Binding where
  within : List String
  scope : List String
  ns : Ns
  name : String
  dfn : List String
deriving DecidableEq

def leadsFrom (T : List Binding) (v : List String) : List String → List String → List (List String)
  | q, [] => [q]
  | q, s :: segs => (T.filter (fun b => b.name == s && b.within == q && b.ns == .type && b.scope.isPrefixOf v)).flatMap
      (fun b => leadsFrom T v b.dfn segs)

def leadsIn (T : List Binding) (v : List String) : List String → List (List String)
  | [] => []
  | c :: segs => leadsFrom T v [c] segs

def importFrom (T : List Binding) (m sc q : List String) (p : String → Bool) : List Binding :=
  (T.filter (fun b => p b.name && b.within == q && b.scope.isPrefixOf m)).map (fun b => ⟨m, narrow sc b.scope, b.ns, b.name, b.dfn⟩)

def lineStep (T : List Binding) (l : Line) : List Binding :=
  match l.stmt with
  | .item ns n => [⟨l.within, l.scope, ns, n, l.within ++ [n]⟩]
  | .mod n => [⟨l.within, l.scope, .type, n, l.within ++ [n]⟩]
  | .use path n => (leadsIn T l.within path).flatMap (fun q => importFrom T l.within l.scope q (fun x => x == n))
  | .glob path => (leadsIn T l.within path).flatMap (fun q => importFrom T l.within l.scope q (fun _ => true))

def bindStep (W : List Line) (T : List Binding) : List Binding := W.flatMap (lineStep T)

def bindTable (W : List Line) : List Binding := bindStep W (bindStep W (bindStep W (bindStep W [])))

variable {W W' : List Line} {T : List Binding}

/-! ## The table has only names that exist -/

def TableSound (W : List Line) (T : List Binding) : Prop := ∀ b ∈ T, Binds W b.within b.scope b.ns b.name b.dfn

theorem leadsFrom_sound (hT : TableSound W T) {v : List String} : ∀ {segs p q r : List String}, Leads W v p q → r ∈ leadsFrom T v q segs →
    Leads W v (p ++ segs) r
  | [], p, q, r, h, hr => by
    rw [List.mem_singleton.1 hr, List.append_nil]
    exact h
  | s :: segs, p, q, r, h, hr => by
    simp only [leadsFrom, List.mem_flatMap, List.mem_filter, Bool.and_eq_true, beq_iff_eq, List.isPrefixOf_iff_prefix] at hr
    obtain ⟨b, ⟨hb, ⟨⟨h1, h2⟩, h3⟩, h4⟩, hr⟩ := hr
    have hB := hT b hb
    rw [h1, h2, h3] at hB
    have := leadsFrom_sound hT (Leads.step h hB h4) hr
    rwa [List.append_assoc] at this

theorem leadsIn_sound (hT : TableSound W T) {v p r : List String} (h : r ∈ leadsIn T v p) : Leads W v p r := by
  cases p with
  | nil => cases h
  | cons c segs => exact leadsFrom_sound hT (.crate v c) h

theorem importFrom_sound (hT : TableSound W T) {m sc q : List String} {p : String → Bool} {b : Binding} (h : b ∈ importFrom T m sc q p) :
    ∃ sc', b.within = m ∧ b.scope = narrow sc sc' ∧ p b.name = true ∧ sc' <+: m ∧ Binds W q sc' b.ns b.name b.dfn := by
  simp only [importFrom, List.mem_map, List.mem_filter, Bool.and_eq_true, beq_iff_eq, List.isPrefixOf_iff_prefix] at h
  obtain ⟨b', ⟨hb, ⟨h1, h2⟩, h3⟩, rfl⟩ := h
  have hB := hT b' hb
  rw [h2] at hB
  exact ⟨b'.scope, rfl, rfl, h1, h3, hB⟩

theorem bindStep_sound (hT : TableSound W T) : TableSound W (bindStep W T) := by
  intro b hb
  obtain ⟨l, hl, hb⟩ := List.mem_flatMap.1 hb
  obtain ⟨m, sc, stmt⟩ := l
  cases stmt with
  | item ns n =>
    rw [List.mem_singleton.1 hb]
    exact .item hl
  | mod n =>
    rw [List.mem_singleton.1 hb]
    exact .mod hl
  | use path n =>
    obtain ⟨q, hq, hb⟩ := List.mem_flatMap.1 hb
    obtain ⟨sc', h1, h2, h3, h4, h5⟩ := importFrom_sound hT hb
    have hn : b.name = n := by simpa using h3
    rw [h1, h2, hn]
    rw [hn] at h5
    exact .use hl (leadsIn_sound hT hq) h5 h4
  | glob path =>
    obtain ⟨q, hq, hb⟩ := List.mem_flatMap.1 hb
    obtain ⟨sc', h1, h2, -, h4, h5⟩ := importFrom_sound hT hb
    rw [h1, h2]
    exact .glob hl (leadsIn_sound hT hq) h5 h4

theorem bindTable_sound (W : List Line) : TableSound W (bindTable W) :=
  bindStep_sound (bindStep_sound (bindStep_sound (bindStep_sound (fun _ h => by cases h))))

/-! ## A table that is closed under the rules has all names -/

theorem leadsFrom_append {v : List String} {s : String} {d : List String} : ∀ {segs q r : List String} {sc : List String}, r ∈ leadsFrom T v q segs →
    (⟨r, sc, .type, s, d⟩ : Binding) ∈ T → sc <+: v → d ∈ leadsFrom T v q (segs ++ [s])
  | [], q, r, sc, hr, hb, hs => by
    simp only [List.nil_append, leadsFrom, List.mem_flatMap, List.mem_filter, Bool.and_eq_true, beq_iff_eq, List.isPrefixOf_iff_prefix]
    exact ⟨_, ⟨hb, ⟨⟨rfl, List.mem_singleton.1 hr⟩, rfl⟩, hs⟩, by simp⟩
  | x :: segs, q, r, sc, hr, hb, hs => by
    simp only [List.cons_append, leadsFrom, List.mem_flatMap] at hr ⊢
    obtain ⟨b, hb', hr⟩ := hr
    exact ⟨b, hb', leadsFrom_append hr hb hs⟩

theorem importFrom_complete {m sc q sc' d : List String} {p : String → Bool} {ns : Ns} {n : String} (hb : (⟨q, sc', ns, n, d⟩ : Binding) ∈ T)
    (hs : sc' <+: m) (hp : p n = true) : (⟨m, narrow sc sc', ns, n, d⟩ : Binding) ∈ importFrom T m sc q p := by
  simp only [importFrom, List.mem_map, List.mem_filter, Bool.and_eq_true, beq_iff_eq, List.isPrefixOf_iff_prefix]
  exact ⟨_, ⟨hb, ⟨hp, rfl⟩, hs⟩, rfl⟩

mutual
theorem binds_complete (hT : bindStep W T ⊆ T) : ∀ {m sc : List String} {ns : Ns} {n : String} {d : List String}, Binds W m sc ns n d →
    (⟨m, sc, ns, n, d⟩ : Binding) ∈ T
  | _, _, _, _, _, .item h => hT (List.mem_flatMap.2 ⟨_, h, List.mem_singleton.2 rfl⟩)
  | _, _, _, _, _, .mod h => hT (List.mem_flatMap.2 ⟨_, h, List.mem_singleton.2 rfl⟩)
  | _, _, _, _, _, .use h hl hb hs =>
    hT (List.mem_flatMap.2 ⟨_, h, List.mem_flatMap.2 ⟨_, leads_complete hT hl, importFrom_complete (binds_complete hT hb) hs (by simp)⟩⟩)
  | _, _, _, _, _, .glob h hl hb hs =>
    hT (List.mem_flatMap.2 ⟨_, h, List.mem_flatMap.2 ⟨_, leads_complete hT hl, importFrom_complete (binds_complete hT hb) hs rfl⟩⟩)
theorem leads_complete (hT : bindStep W T ⊆ T) : ∀ {v p q : List String}, Leads W v p q → q ∈ leadsIn T v p
  | _, _, _, .crate _ _ => List.mem_singleton.2 rfl
  | v, _, _, .step (p := p) h hb hs => by
    have h1 := leads_complete hT h
    have h2 := binds_complete hT hb
    cases p with
    | nil => cases h1
    | cons c segs => exact leadsFrom_append h1 h2 hs
end

/-! ## More declarations give more names -/

mutual
theorem binds_mono (hW : W ⊆ W') : ∀ {m sc : List String} {ns : Ns} {n : String} {d : List String}, Binds W m sc ns n d → Binds W' m sc ns n d
  | _, _, _, _, _, .item h => .item (hW h)
  | _, _, _, _, _, .mod h => .mod (hW h)
  | _, _, _, _, _, .use h hl hb hs => .use (hW h) (leads_mono hW hl) (binds_mono hW hb) hs
  | _, _, _, _, _, .glob h hl hb hs => .glob (hW h) (leads_mono hW hl) (binds_mono hW hb) hs
theorem leads_mono (hW : W ⊆ W') : ∀ {v p q : List String}, Leads W v p q → Leads W' v p q
  | _, _, _, .crate _ _ => .crate _ _
  | _, _, _, .step h hb hs => .step (leads_mono hW h) (binds_mono hW hb) hs
end

theorem means_mono (hW : W ⊆ W') {v p d : List String} {ns : Ns} (h : Means W v p ns d) : Means W' v p ns d := by
  obtain ⟨q, s, m, sc, h1, h2, h3, h4⟩ := h
  exact ⟨q, s, m, sc, h1, leads_mono hW h2, binds_mono hW h3, h4⟩

/-! ## Every name has one meaning -/

def FunctionalTable (T : List Binding) : Prop := ∀ b ∈ T, ∀ b' ∈ T, b.name = b'.name → b.within = b'.within → b.ns = b'.ns → b.dfn = b'.dfn

theorem functional_of_pairwise (h : T.Pairwise (fun b b' => b.name = b'.name → b.within = b'.within → b.ns = b'.ns → b.dfn = b'.dfn)) :
    FunctionalTable T := by
  induction T with
  | nil => exact fun _ hb => by cases hb
  | cons x T ih =>
    obtain ⟨hx, hT⟩ := List.pairwise_cons.1 h
    intro b hb b' hb' h1 h2 h3
    rcases List.mem_cons.1 hb with e | hm
    · rcases List.mem_cons.1 hb' with e' | hm'
      · rw [e, e']
      · rw [e]
        exact hx _ hm' (by rw [← e]; exact h1) (by rw [← e]; exact h2) (by rw [← e]; exact h3)
    · rcases List.mem_cons.1 hb' with e' | hm'
      · rw [e']
        exact (hx _ hm (by rw [← e']; exact h1.symm) (by rw [← e']; exact h2.symm) (by rw [← e']; exact h3.symm)).symm
      · exact ih hT b hm b' hm' h1 h2 h3

theorem leads_unique (hT : bindStep W T ⊆ T) (hF : FunctionalTable T) : ∀ {v p q q' : List String}, Leads W v p q → Leads W v p q' → q = q' := by
  intro v p q q' h
  have key : ∀ n, ∀ {p q q' : List String}, p.length ≤ n → Leads W v p q → Leads W v p q' → q = q' := by
    intro n
    induction n with
    | zero =>
      intro p q q' hn h _
      cases h <;> simp at hn
    | succ n ih =>
      intro p q q' hn h h'
      generalize hp : p = p' at h'
      cases h with
      | crate =>
        cases h' with
        | crate => simpa using hp
        | step h0 =>
          exfalso
          have := congrArg List.length hp
          cases h0 <;> simp at this
      | step h1 hb hs =>
        cases h' with
        | crate =>
          exfalso
          have := congrArg List.length hp
          cases h1 <;> simp at this
        | step h1' hb' hs' =>
          obtain ⟨e1, e2⟩ := List.append_inj' hp rfl
          have e2 := List.singleton_inj.1 e2
          subst e1 e2
          have := ih (by simp at hn; exact hn) h1 h1'
          subst this
          exact hF _ (binds_complete hT hb) _ (binds_complete hT hb') rfl rfl rfl
  exact key _ (Nat.le_refl _) h

theorem means_unique (hT : bindStep W T ⊆ T) (hF : FunctionalTable T) {v p d d' : List String} {ns : Ns} (h : Means W v p ns d)
    (h' : Means W v p ns d') : d = d' := by
  obtain ⟨q, s, m, sc, h1, h2, h3, -⟩ := h
  obtain ⟨q', s', m', sc', h1', h2', h3', -⟩ := h'
  obtain ⟨e1, e2⟩ := List.append_inj' (h1.symm.trans h1') rfl
  have e2 := List.singleton_inj.1 e2
  subst e1 e2
  have := leads_unique hT hF h2 h2'
  subst this
  exact hF _ (binds_complete hT h3) _ (binds_complete hT h3') rfl rfl rfl

/-! ## Paths that are visible everywhere -/

theorem leads_everywhere {v p q : List String} (h : Leads W [] p q) : Leads W v p q := by
  have key : ∀ n, ∀ {p q : List String}, p.length ≤ n → Leads W [] p q → Leads W v p q := by
    intro n
    induction n with
    | zero =>
      intro p q hn h
      cases h <;> simp at hn
    | succ n ih =>
      intro p q hn h
      cases h with
      | crate => exact .crate _ _
      | step h1 hb hs => exact .step (ih (by simp at hn; exact hn) h1) hb (by rw [List.prefix_nil.1 hs]; exact List.nil_prefix)
  exact key _ (Nat.le_refl _) h

theorem means_everywhere {v p d : List String} {ns : Ns} (h : Means W [] p ns d) : Means W v p ns d := by
  obtain ⟨q, s, m, sc, h1, h2, h3, h4⟩ := h
  exact ⟨q, s, m, sc, h1, leads_everywhere h2, h3, by rw [List.prefix_nil.1 h4]; exact List.nil_prefix⟩

/-- The items that a path means for everyone, according to the table. -/
def meansIn (T : List Binding) (q : List String) (s : String) (ns : Ns) : List (List String) :=
  (leadsIn T [] q).flatMap (fun m => (T.filter (fun b => b.name == s && b.within == m && b.ns == ns && b.scope.isEmpty)).map (fun b => b.dfn))

theorem meansIn_sound (hT : TableSound W T) {v q d : List String} {s : String} {ns : Ns} (h : d ∈ meansIn T q s ns) : Means W v (q ++ [s]) ns d := by
  obtain ⟨m, hm, h⟩ := List.mem_flatMap.1 h
  simp only [List.mem_map, List.mem_filter, Bool.and_eq_true, beq_iff_eq, List.isEmpty_iff] at h
  obtain ⟨b, ⟨hb, ⟨⟨h1, h2⟩, h3⟩, h4⟩, rfl⟩ := h
  have hB := hT b hb
  rw [h1, h2, h3, h4] at hB
  exact means_everywhere ⟨q, s, m, [], rfl, leadsIn_sound hT hm, hB, List.nil_prefix⟩

/-! ## The tables for the features -/

/-- The features that matter for names. -/
def feats (macros emit : Bool) : Features := ⟨false, macros, false, emit⟩

theorem crateLines_feats (f : Features) : crateLines f = crateLines (feats f.macros f.emit) := rfl

theorem lines_sublist {a b a' b' : Bool} (ha : a = true → a' = true) (hb : b = true → b' = true) :
    (crateLines (feats a b)).Sublist (crateLines (feats a' b')) := by
  have key : ∀ {x y x1 x2 x3 x4 x5 x6 x7 x8 x9 x10 x11 x12 y1 y2 z1 z2 z3 z4 : List Line}, z1.Sublist x → z2.Sublist y → z3.Sublist y1 →
      z4.Sublist y2 →
      (x1 ++ x2 ++ z1 ++ z2 ++ x3 ++ x4 ++ x5 ++ x6 ++ x7 ++ x8 ++ x9 ++ x10 ++ x11 ++ (z3 ++ z4) ++ x12).Sublist
        (x1 ++ x2 ++ x ++ y ++ x3 ++ x4 ++ x5 ++ x6 ++ x7 ++ x8 ++ x9 ++ x10 ++ x11 ++ (y1 ++ y2) ++ x12) := by
    intro _ _ _ _ _ _ _ _ _ _ _ _ _ _ _ _ _ _ _ _ h1 h2 h3 h4
    simp only [List.append_assoc, List.append_sublist_append_left]
    refine .append h1 (.append h2 ?_)
    simp only [List.append_sublist_append_left]
    exact .append h3 (.append h4 (.refl _))
  have hif : ∀ {c c' : Bool} {x : List Line}, (c = true → c' = true) → (if c then x else []).Sublist (if c' then x else []) := by
    intro c c' x h
    cases c
    · exact List.nil_sublist _
    · rw [h rfl]
      exact .refl _
  unfold crateLines facadeLines coreFeatureLines
  refine key (hif ha) (hif hb) (hif ha) (hif ?_)
  simp only [feats, Bool.or_eq_true]
  exact fun h => h.imp hb ha

theorem lines_none (f : Features) : crateLines (feats false false) ⊆ crateLines f := by
  rw [crateLines_feats f]
  exact (lines_sublist (by simp) (by simp)).subset

theorem lines_all (f : Features) : crateLines f ⊆ crateLines (feats true true) := by
  rw [crateLines_feats f]
  exact (lines_sublist (by simp) (by simp)).subset

end Frozen.Props
