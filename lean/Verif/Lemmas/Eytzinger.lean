import Verif.Model.Eytzinger
import Verif.Spec
import Verif.Lemmas.Arith
import Mathlib.Data.List.Basic
import Mathlib.Data.Finset.Card
import Mathlib.Data.List.FinRange
import Mathlib.Data.Fintype.Card
import Mathlib.Data.List.Sort

/-!
# Helper lemmas on the Eytzinger layout

Nodes of the implicit tree are numbered `0, 1, 2, ...` in breadth-first order.  `dep i` is the
depth of node `i`, and `yRank h i` its one-based in-order rank in the perfect tree of depth `h`.
-/

namespace Frozen.Model

variable {T : Type _}

/-- Depth of node `i`. -/
def dep (i : Nat) : Nat := Nat.log2 (i + 1)

/-- Offset of node `i` in its level. -/
def off (i : Nat) : Nat := i + 1 - 2 ^ dep i

theorem dep_le (i : Nat) : 2 ^ dep i ≤ i + 1 := Nat.log2_self_le (by omega)
theorem lt_dep (i : Nat) : i + 1 < 2 ^ (dep i + 1) := Nat.lt_log2_self

theorem node_eq (i : Nat) : i + 1 = 2 ^ dep i + off i := by
  have := dep_le i
  unfold off; omega

theorem off_lt (i : Nat) : off i < 2 ^ dep i := by
  have h1 := lt_dep i
  have h2 := dep_le i
  rw [Nat.pow_succ] at h1
  unfold off; omega

theorem dep_unique {i d : Nat} (h1 : 2 ^ d ≤ i + 1) (h2 : i + 1 < 2 ^ (d + 1)) : dep i = d := by
  unfold dep
  rw [Nat.log2_eq_iff (by omega)]
  exact ⟨h1, h2⟩

theorem dep_child (i b : Nat) (hb : b ≤ 1) : dep (2 * i + 1 + b) = dep i + 1 := by
  apply dep_unique
  · have := dep_le i; rw [Nat.pow_succ]; omega
  · have := lt_dep i; rw [Nat.pow_succ]; omega

theorem off_child (i b : Nat) (hb : b ≤ 1) : off (2 * i + 1 + b) = 2 * off i + b := by
  have h1 := node_eq (2 * i + 1 + b)
  have h2 := node_eq i
  rw [dep_child i b hb, Nat.pow_succ] at h1
  omega

theorem dep_mono {i j : Nat} (h : i ≤ j) : dep i ≤ dep j := by
  by_contra hc
  have h1 := dep_le i
  have h2 := lt_dep j
  have : 2 ^ (dep j + 1) ≤ 2 ^ dep i := Nat.pow_le_pow_right (by omega) (by omega)
  omega

theorem lt_of_dep_lt {i j : Nat} (h : dep i < dep j) : i < j := by
  by_contra hc
  have := dep_mono (Nat.le_of_not_lt hc)
  omega

/-- One-based in-order rank in the perfect tree of depth `h`. -/
def yRank (h i : Nat) : Nat := 2 ^ (h - dep i) * (2 * off i + 1)

theorem yRank_pos (h i : Nat) : 0 < yRank h i := Nat.mul_pos (Nat.pow_pos (by omega)) (by omega)

theorem yRank_lt {h i : Nat} (hd : dep i ≤ h) : yRank h i < 2 ^ (h + 1) := by
  unfold yRank
  have h1 := off_lt i
  have h2 : 2 ^ (h + 1) = 2 ^ (h - dep i) * (2 * 2 ^ dep i) := by
    rw [show h + 1 = (h - dep i) + (1 + dep i) by omega, Nat.pow_add, Nat.pow_add]
  rw [h2]
  exact Nat.mul_lt_mul_of_pos_left (by omega) (Nat.pow_pos (by omega))

/-- Being strictly inside the in-order interval of the subtree rooted at `i`. -/
def InSub (h i j : Nat) : Prop :=
  yRank h i < yRank h j + 2 ^ (h - dep i) ∧ yRank h j < yRank h i + 2 ^ (h - dep i)

theorem InSub.cases {h i j : Nat} (hi : dep i ≤ h) (hj : dep j ≤ h) (hs : InSub h i j) :
    j = i ∨ dep i < dep j := by
  obtain ⟨h1, h2⟩ := hs
  rcases Nat.lt_trichotomy (dep j) (dep i) with hd | hd | hd
  · exfalso
    -- `yRank j` is an even multiple of the half-width of `i`
    obtain ⟨c, hc⟩ : ∃ c, yRank h j = 2 ^ (h - dep i) * (2 * c) := by
      refine ⟨2 ^ (dep i - dep j - 1) * (2 * off j + 1), ?_⟩
      unfold yRank
      rw [show h - dep j = (h - dep i) + 1 + (dep i - dep j - 1) by omega, Nat.pow_add, Nat.pow_add]
      ring
    rw [hc] at h1 h2
    unfold yRank at h1 h2
    generalize 2 ^ (h - dep i) = w at *
    have h3 : w * (2 * off i + 1) < w * (2 * c + 1) := by rw [Nat.mul_add w (2 * c)]; omega
    have h4 : w * (2 * c) < w * (2 * off i + 2) := by
      have : w * (2 * off i + 2) = w * (2 * off i + 1) + w := by ring
      omega
    have h5 := Nat.lt_of_mul_lt_mul_left h3
    have h6 := Nat.lt_of_mul_lt_mul_left h4
    omega
  · left
    unfold yRank at h1 h2
    rw [hd] at h1 h2
    generalize 2 ^ (h - dep i) = w at *
    have h3 : w * (2 * off i + 1) < w * (2 * off j + 2) := by
      have : w * (2 * off j + 2) = w * (2 * off j + 1) + w := by ring
      omega
    have h4 : w * (2 * off j + 1) < w * (2 * off i + 2) := by
      have : w * (2 * off i + 2) = w * (2 * off i + 1) + w := by ring
      omega
    have h5 := Nat.lt_of_mul_lt_mul_left h3
    have h6 := Nat.lt_of_mul_lt_mul_left h4
    have e1 := node_eq i
    have e2 := node_eq j
    rw [hd] at e2
    omega
  · exact .inr hd

theorem InSub.ge {h i j : Nat} (hi : dep i ≤ h) (hj : dep j ≤ h) (hs : InSub h i j) : i ≤ j := by
  rcases hs.cases hi hj with rfl | hd
  · exact Nat.le_refl _
  · exact (lt_of_dep_lt hd).le

theorem yRank_inj {h i j : Nat} (hi : dep i ≤ h) (hj : dep j ≤ h) (he : yRank h i = yRank h j) : i = j := by
  have p1 : 0 < 2 ^ (h - dep i) := Nat.pow_pos (by omega)
  have p2 : 0 < 2 ^ (h - dep j) := Nat.pow_pos (by omega)
  have a : InSub h i j := ⟨by omega, by omega⟩
  have b : InSub h j i := ⟨by omega, by omega⟩
  exact Nat.le_antisymm (a.ge hi hj) (b.ge hj hi)

theorem yRank_left {h i : Nat} (hi : dep i < h) :
    yRank h (2 * i + 1) + 2 ^ (h - dep i - 1) = yRank h i ∧ 2 ^ (h - dep (2 * i + 1)) = 2 ^ (h - dep i - 1) := by
  have hd := dep_child i 0 (by omega)
  have ho := off_child i 0 (by omega)
  simp only [Nat.add_zero] at hd ho
  unfold yRank
  rw [hd, ho, show h - (dep i + 1) = h - dep i - 1 by omega]
  refine ⟨?_, rfl⟩
  have : 2 ^ (h - dep i) = 2 ^ (h - dep i - 1) * 2 := by rw [← Nat.pow_succ]; congr 1; omega
  rw [this]
  ring

theorem yRank_right {h i : Nat} (hi : dep i < h) :
    yRank h (2 * i + 2) = yRank h i + 2 ^ (h - dep i - 1) ∧ 2 ^ (h - dep (2 * i + 2)) = 2 ^ (h - dep i - 1) := by
  have hd := dep_child i 1 (by omega)
  have ho := off_child i 1 (by omega)
  have e : 2 * i + 1 + 1 = 2 * i + 2 := by omega
  rw [e] at hd ho
  unfold yRank
  rw [hd, ho, show h - (dep i + 1) = h - dep i - 1 by omega]
  refine ⟨?_, rfl⟩
  have : 2 ^ (h - dep i) = 2 ^ (h - dep i - 1) * 2 := by rw [← Nat.pow_succ]; congr 1; omega
  rw [this]
  ring

theorem width_half {h i : Nat} (hi : dep i < h) : 2 ^ (h - dep i) = 2 * 2 ^ (h - dep i - 1) := by
  rw [← Nat.pow_succ']; congr 1; omega

theorem InSub.left {h i j : Nat} (hi : dep i < h) (hs : InSub h i j) (hlt : yRank h j < yRank h i) :
    InSub h (2 * i + 1) j := by
  obtain ⟨a, b⟩ := yRank_left hi
  have c := width_half hi
  obtain ⟨h1, h2⟩ := hs
  unfold InSub
  rw [b]
  omega

theorem InSub.right {h i j : Nat} (hi : dep i < h) (hs : InSub h i j) (hlt : yRank h i < yRank h j) :
    InSub h (2 * i + 2) j := by
  obtain ⟨a, b⟩ := yRank_right hi
  have c := width_half hi
  obtain ⟨h1, h2⟩ := hs
  unfold InSub
  rw [b]
  omega

theorem InSub.root {h j : Nat} (hj : dep j ≤ h) : InSub h 0 j := by
  have h0 : dep 0 = 0 := dep_unique (by simp) (by simp)
  have h1 : off 0 = 0 := by have := node_eq 0; rw [h0] at this; simpa using this.symm
  have h2 := yRank_lt hj
  have h3 := yRank_pos h j
  have h4 : yRank h 0 = 2 ^ h := by simp [yRank, h0, h1]
  unfold InSub
  rw [h4, h0]
  rw [Nat.pow_succ] at h2
  simp only [Nat.sub_zero]
  omega

/-! ### Zero-based rank among the `n` present nodes -/

/-- Height (depth of the last level) of the tree with `n` nodes, as computed by the code. -/
def hgt (n : Nat) : Nat := Nat.log2 (n + 1)

theorem hgt_le (n : Nat) : 2 ^ hgt n ≤ n + 1 := Nat.log2_self_le (by omega)
theorem lt_hgt (n : Nat) : n + 1 < 2 ^ (hgt n + 1) := Nat.lt_log2_self

theorem dep_le_hgt {i n : Nat} (h : i < n) : dep i ≤ hgt n := by
  have : dep i ≤ dep n := dep_mono h.le
  exact this

/-- Zero-based in-order rank of node `i` in the tree with `n` nodes, as computed by the code. -/
def rank (n i : Nat) : Nat := yRank (hgt n) i - (yRank (hgt n) i / 2 + 2 ^ hgt n - (n + 1)) - 1

theorem eytzingerIndex_eq [Target] {i n : Nat} (h : i < n) : eytzingerIndex i n = .ok (rank n i) := by
  have hd := dep_le_hgt h
  have h1 := dep_le i
  have h2 := lt_dep i
  have e1 : nextPow2 (i + 2) = 2 ^ (dep i + 1) := nextPow2_eq _ _ (by omega) (by omega)
  have e2 : nextPow2 (n + 2) = 2 ^ (hgt n + 1) := by
    have := hgt_le n
    have := lt_hgt n
    exact nextPow2_eq _ _ (by omega) (by omega)
  have e3 : 2 ^ (hgt n + 1) / 2 = 2 ^ hgt n := by rw [Nat.pow_succ]; omega
  have e4 : (2 ^ hgt n) >>> dep i = 2 ^ (hgt n - dep i) := by
    rw [Nat.shiftRight_eq_div_pow, Nat.pow_div hd (by omega)]
  have e5 : 1 <<< dep i = 2 ^ dep i := by rw [Nat.shiftLeft_eq]; omega
  have hy := yRank_pos (hgt n) i
  have hle := hgt_le n
  unfold eytzingerIndex
  simp only [e1, e2, trailingZeros_two_pow, csub, bind, Except.bind]
  rw [if_pos (by omega)]
  simp only [Nat.add_sub_cancel, e3, e4, e5]
  rw [if_pos h1]
  simp only
  have e6 : 2 ^ (hgt n - dep i) * ((i + 1 - 2 ^ dep i) * 2 + 1) = yRank (hgt n) i := by
    unfold yRank off; rw [Nat.mul_comm _ 2]
  rw [e6, Nat.shiftRight_one, if_pos (by omega)]
  simp only
  rw [if_pos (by omega)]
  rfl

/-- Parity and position facts for a present node: on the last level it is one of the first leaves, above it
has even perfect-tree rank. -/
theorem present_facts {i n : Nat} (h : i < n) :
    (∃ l, yRank (hgt n) i = 2 * l + 1 ∧ l + 2 ^ hgt n < n + 1) ∨ (∃ c, yRank (hgt n) i = 2 * c) := by
  have hd := dep_le_hgt h
  rcases Nat.eq_or_lt_of_le hd with he | hlt
  · left
    refine ⟨off i, ?_, ?_⟩
    · unfold yRank; rw [he]; simp
    · have := node_eq i; rw [he] at this; omega
  · right
    refine ⟨2 ^ (hgt n - dep i - 1) * (2 * off i + 1), ?_⟩
    unfold yRank
    rw [width_half hlt]
    ring

theorem rank_mono {i j n : Nat} (hi : i < n) (hj : j < n) (hlt : yRank (hgt n) i < yRank (hgt n) j) :
    rank n i < rank n j := by
  have h1 := hgt_le n
  have h2 := lt_hgt n
  have h3 := yRank_pos (hgt n) i
  unfold rank
  rcases present_facts hi with ⟨l, e, hl⟩ | ⟨c, e⟩ <;> rcases present_facts hj with ⟨l', e', hl'⟩ | ⟨c', e'⟩ <;>
    generalize yRank (hgt n) i = a at * <;> generalize yRank (hgt n) j = b at * <;>
    generalize 2 ^ hgt n = c at * <;> clear hi hj <;> omega

theorem rank_lt {i n : Nat} (hi : i < n) : rank n i < n := by
  have h1 := hgt_le n
  have h2 := lt_hgt n
  have h3 := yRank_pos (hgt n) i
  have h4 := yRank_lt (dep_le_hgt hi)
  rw [Nat.pow_succ] at h2 h4
  unfold rank
  rcases present_facts hi with ⟨l, e, hl⟩ | ⟨c, e⟩ <;>
    generalize yRank (hgt n) i = a at * <;> generalize 2 ^ hgt n = c at * <;> clear hi <;> omega

theorem rank_inj {i j n : Nat} (hi : i < n) (hj : j < n) (he : rank n i = rank n j) : i = j := by
  rcases Nat.lt_trichotomy (yRank (hgt n) i) (yRank (hgt n) j) with h | h | h
  · have := rank_mono hi hj h; omega
  · exact yRank_inj (dep_le_hgt hi) (dep_le_hgt hj) h
  · have := rank_mono hj hi h; omega

theorem rank_lt_iff {i j n : Nat} (hi : i < n) (hj : j < n) :
    rank n i < rank n j ↔ yRank (hgt n) i < yRank (hgt n) j := by
  constructor
  · intro h
    by_contra hc
    rcases Nat.eq_or_lt_of_le (Nat.le_of_not_lt hc) with he | hl
    · have := yRank_inj (dep_le_hgt hi) (dep_le_hgt hj) he.symm
      subst this; omega
    · have := rank_mono hj hi hl; omega
  · exact rank_mono hi hj

/-! ### The auxiliary map -/

theorem lookup_filter_ne (m : List (Nat × Nat)) (k k' : Nat) :
    (m.filter (fun e => e.1 != k)).lookup k' = if k' = k then none else m.lookup k' := by
  induction m with
  | nil => simp
  | cons e es ih =>
    obtain ⟨a, b⟩ := e
    by_cases ha : a = k
    · subst ha
      rw [List.filter_cons_of_neg (by simp), ih]
      split
      · rfl
      · rename_i h
        rw [List.lookup_cons]
        have : (k' == a) = false := by simpa using h
        rw [this]
    · rw [List.filter_cons_of_pos (by simpa using ha), List.lookup_cons, List.lookup_cons, ih]
      by_cases hk : k' = a
      · subst hk; simp [ha]
      · have : (k' == a) = false := by simpa using hk
        rw [this]

theorem lookup_auxInsert (m : List (Nat × Nat)) (k v k' : Nat) :
    (auxInsert m k v).lookup k' = if k' = k then some v else m.lookup k' := by
  unfold auxInsert
  rw [List.lookup_cons, lookup_filter_ne]
  by_cases h : k' = k
  · subst h; simp
  · have : (k' == k) = false := by simpa using h
    rw [this, if_neg h, if_neg h]

/-! ### The in-place permutation loop -/

/-- Original position `t` has been moved to its final place by one of the first `i` iterations. -/
def Consumed (σ : Nat → Nat) (i t : Nat) : Prop := ∃ j, j < i ∧ σ j = t

/-- Loop invariant of `eytzinger_layout`. -/
structure LayoutInv (σ : Nat → Nat) (S : List T) (i : Nat) (A : List T) (look : Nat → Option Nat) : Prop where
  len : A.length = S.length
  done : ∀ j, j < i → A[j]? = S[σ j]?
  displaced : ∀ t, t < i → ¬ Consumed σ i t → ∃ p, i ≤ p ∧ p < S.length ∧ look t = some p ∧ A[p]? = S[t]? ∧
    Consumed σ i p ∧ look p = some t
  fresh : ∀ p, i ≤ p → p < S.length → ¬ Consumed σ i p → A[p]? = S[p]? ∧ look p = none
  holder : ∀ p, i ≤ p → p < S.length → Consumed σ i p → ∃ t, t < i ∧ ¬ Consumed σ i t ∧ look p = some t ∧
    A[p]? = S[t]? ∧ look t = some p

theorem swap_ok (A : List T) (a b : Nat) (ha : a < A.length) (hb : b < A.length) :
    ∃ A', swap A a b = .ok A' ∧ A'.length = A.length ∧ A'[a]? = A[b]? ∧ A'[b]? = A[a]? ∧
      ∀ k, k ≠ a → k ≠ b → A'[k]? = A[k]? := by
  refine ⟨(A.set a A[b]).set b A[a], ?_, by simp, ?_, ?_, ?_⟩
  · simp [swap, idx, List.getElem?_eq_getElem ha, List.getElem?_eq_getElem hb, bind, Except.bind]
  · rw [List.getElem?_set]
    by_cases h : b = a
    · subst h; simp [ha]
    · rw [if_neg h, List.getElem?_set_self ha, List.getElem?_eq_getElem hb]
  · rw [List.getElem?_set_self (by simpa using hb), List.getElem?_eq_getElem ha]
  · intro k h1 h2
    rw [List.getElem?_set_ne (Ne.symm h2), List.getElem?_set_ne (Ne.symm h1)]

theorem layoutStep_spec [Target] {σ : Nat → Nat} {S : List T} {i : Nat} {A : List T} {map : List (Nat × Nat)}
    (hσ : ∀ j, j < S.length → eytzingerIndex j S.length = .ok (σ j))
    (hlt : ∀ j, j < S.length → σ j < S.length)
    (hinj : ∀ a b, a < S.length → b < S.length → σ a = σ b → a = b)
    (hi : i < S.length) (hinv : LayoutInv σ S i A (fun k => map.lookup k)) :
    ∃ A' map', layoutStep i A map = .ok (A', map') ∧ LayoutInv σ S (i + 1) A' (fun k => map'.lookup k) := by
  obtain ⟨hlen, hdone, hdisp, hfresh, hhold⟩ := hinv
  -- the original position wanted at `i`
  generalize ht0 : σ i = t0
  have ht0lt : t0 < S.length := by rw [← ht0]; exact hlt i hi
  have ht0n : ¬ Consumed σ i t0 := by
    rintro ⟨j, hj, he⟩
    have := hinj j i (by omega) hi (he.trans ht0.symm)
    omega
  have hcons : ∀ t, Consumed σ (i + 1) t ↔ Consumed σ i t ∨ t = t0 := by
    intro t
    constructor
    · rintro ⟨j, hj, he⟩
      rcases Nat.lt_or_ge j i with h | h
      · exact .inl ⟨j, h, he⟩
      · have : j = i := by omega
        subst this; exact .inr (by rw [← he, ht0])
    · rintro (⟨j, hj, he⟩ | rfl)
      · exact ⟨j, by omega, he⟩
      · exact ⟨i, by omega, ht0⟩
  -- where it currently is
  obtain ⟨target, map1, hstep1, htge, htlt, hAt, hT1, hT2, hm1⟩ :
      ∃ target map1,
        relocate t0 i map = .ok (target, map1) ∧
        i ≤ target ∧ target < S.length ∧ A[target]? = S[t0]? ∧
        (t0 < i → map.lookup t0 = some target ∧ Consumed σ i target ∧ map.lookup target = some t0) ∧
        (i ≤ t0 → target = t0) ∧
        (∀ k, map1.lookup k = if t0 < i ∧ k = t0 then none else map.lookup k) := by
    by_cases hc : t0 < i
    · obtain ⟨p, h1, h2, h3, h4, h5, h6⟩ := hdisp t0 hc ht0n
      refine ⟨p, map.filter (fun e => e.1 != t0), ?_, h1, h2, h4, fun _ => ⟨h3, h5, h6⟩, by intro; omega, ?_⟩
      · unfold relocate auxRemove; rw [if_pos hc, h3]
      · intro k
        rw [lookup_filter_ne]
        by_cases hk : k = t0
        · rw [if_pos hk, if_pos ⟨hc, hk⟩]
        · rw [if_neg hk, if_neg (fun h => hk h.2)]
    · refine ⟨t0, map, by unfold relocate; rw [if_neg hc], by omega, ht0lt, (hfresh t0 (by omega) ht0lt ht0n).1,
        fun h => absurd h hc, fun _ => rfl, ?_⟩
      intro k; rw [if_neg (fun h => hc h.1)]
  -- what is currently at `i`
  obtain ⟨x, map2, hstep2, hxle, hxn, hAi, hxi, hx2, hm2⟩ :
      ∃ x map2, displacedBy i map1 = (x, map2) ∧
        x ≤ i ∧ ¬ Consumed σ i x ∧ A[i]? = S[x]? ∧
        (x < i → Consumed σ i i ∧ map.lookup i = some x ∧ map.lookup x = some i) ∧
        (x = i → ¬ Consumed σ i i ∧ map.lookup i = none) ∧
        (∀ k, map2.lookup k = if k = i then none else map1.lookup k) := by
    have hl1 : map1.lookup i = map.lookup i := by rw [hm1]; rw [if_neg (by omega)]
    by_cases hc : Consumed σ i i
    · obtain ⟨t, h1, h2, h3, h4, h5⟩ := hhold i (Nat.le_refl _) hi hc
      refine ⟨t, map1.filter (fun e => e.1 != i), ?_, by omega, h2, h4, fun _ => ⟨hc, h3, h5⟩,
        by intro; omega, fun k => lookup_filter_ne _ _ _⟩
      unfold displacedBy auxRemove; rw [hl1, h3]
    · obtain ⟨h1, h2⟩ := hfresh i (Nat.le_refl _) hi hc
      refine ⟨i, map1.filter (fun e => e.1 != i), ?_, Nat.le_refl _, hc, h1, by intro; omega,
        fun _ => ⟨hc, h2⟩, fun k => lookup_filter_ne _ _ _⟩
      unfold displacedBy auxRemove; rw [hl1, h2]
  obtain ⟨A', hswap, hlen', hA1, hA2, hA3⟩ := swap_ok A i target (by omega) (by omega)
  -- if the wanted element is already at `i`, it is the element found there
  have htx : target = i → x = t0 := by
    intro he
    by_cases hc : t0 < i
    · obtain ⟨g1, g2, g3⟩ := hT1 hc
      rw [he] at g2 g3
      rcases Nat.lt_or_ge x i with h | h
      · have := (hxi h).2.1; rw [g3] at this; exact (Option.some.inj this).symm
      · exact absurd g2 (hx2 (by omega)).1
    · have h1 := hT2 (by omega)
      rcases Nat.lt_or_ge x i with h | h
      · have := (hxi h).1; rw [← he, h1] at this; rw [← he, h1] at ht0n; exact absurd this ht0n
      · omega
  have hxt : x = t0 → target = i := by
    intro he
    by_cases hc : t0 < i
    · obtain ⟨g1, g2, g3⟩ := hT1 hc
      have := (hxi (by omega)).2.2
      rw [he, g1] at this
      exact Option.some.inj this
    · have := hT2 (by omega); omega
  -- the new auxiliary map
  obtain ⟨map', hstep3, hm'⟩ : ∃ map', recordSwap target x map2 = map' ∧
      ∀ k, (i < target → map'.lookup k = if k = x then some target else if k = target then some x
        else if k = i then none else if t0 < i ∧ k = t0 then none else map.lookup k) ∧
        (target = i → k ≠ x → k ≠ i → map'.lookup k = if t0 < i ∧ k = t0 then none else map.lookup k) := by
    by_cases hc : target = x
    · refine ⟨map2, by unfold recordSwap; rw [if_neg (by simpa using hc)], fun k => ⟨by intro; omega, ?_⟩⟩
      intro _ hk hk'
      rw [hm2, if_neg hk', hm1]
    · refine ⟨_, by unfold recordSwap; rw [if_pos hc], fun k => ⟨?_, ?_⟩⟩
      · intro _
        rw [lookup_auxInsert, lookup_auxInsert, hm2, hm1]
      · intro h hk hk'
        rw [lookup_auxInsert, if_neg hk, lookup_auxInsert, if_neg (by rw [h]; exact hk'), hm2, if_neg hk', hm1]
  refine ⟨A', map', ?_, ?_⟩
  · unfold layoutStep
    rw [hlen, hσ i hi, ht0]
    simp only [bind, Except.bind]
    rw [hstep1]
    simp only [hswap, hstep2, hstep3]
  · -- the invariant at `i + 1`
    have hother : ∀ t, t ≠ t0 → ¬ Consumed σ i t → t < i → t ≠ x → ∀ p, i ≤ p → map.lookup t = some p →
        Consumed σ i p → map.lookup p = some t → p ≠ i ∧ p ≠ target := by
      intro t htn hnc hti htx' p hip hl hcp hlp
      constructor
      · rintro rfl
        rcases Nat.lt_or_ge x p with h | h
        · have := (hxi h).2.1; rw [hlp] at this; exact htx' (Option.some.inj this)
        · exact (hx2 (by omega)).1 hcp
      · rintro rfl
        by_cases hc : t0 < i
        · have := (hT1 hc).2.2; rw [hlp] at this; exact htn (Option.some.inj this)
        · have := hT2 (by omega); rw [this] at hcp; exact ht0n hcp
    -- lookups of untouched keys
    have hkeep : ∀ k, k ≠ x → k ≠ target → k ≠ i → k ≠ t0 → map'.lookup k = map.lookup k := by
      intro k h1 h2 h3 h4
      rcases Nat.lt_or_ge i target with h | h
      · rw [(hm' k).1 h, if_neg h1, if_neg h2, if_neg h3, if_neg (fun h => h4 h.2)]
      · rw [(hm' k).2 (by omega) h1 h3, if_neg (fun h => h4 h.2)]
    refine ⟨by rw [hlen', hlen], ?_, ?_, ?_, ?_⟩
    · intro j hj
      rcases Nat.lt_or_ge j i with h | h
      · rw [hA3 j (by omega) (by omega)]; exact hdone j h
      · have : j = i := by omega
        subst this; rw [hA1, hAt, ht0]
    · intro t ht hnc
      rw [hcons] at hnc
      have hnc1 : ¬ Consumed σ i t := fun h => hnc (.inl h)
      have htn : t ≠ t0 := fun h => hnc (.inr h)
      by_cases htx' : t = x
      · subst htx'
        have hgt : i < target := by
          rcases Nat.eq_or_lt_of_le htge with h | h
          · exact absurd (htx h.symm) htn
          · exact h
        refine ⟨target, hgt, htlt, ?_, ?_, ?_, ?_⟩
        · rw [(hm' t).1 hgt, if_pos rfl]
        · rw [hA2, hAi]
        · rw [hcons]
          by_cases hc : t0 < i
          · exact .inl (hT1 hc).2.1
          · exact .inr (hT2 (by omega))
        · rw [(hm' target).1 hgt, if_neg (by omega), if_pos rfl]
      · have hti : t < i := by
          rcases Nat.lt_or_ge t i with h | h
          · exact h
          · have : t = i := by omega
            subst this
            exact absurd (hxi (by omega)).1 hnc1
        obtain ⟨p, g1, g2, g3, g4, g5, g6⟩ := hdisp t hti hnc1
        obtain ⟨hpi, hpt⟩ := hother t htn hnc1 hti htx' p g1 g3 g5 g6
        refine ⟨p, by omega, g2, ?_, ?_, (hcons p).2 (.inl g5), ?_⟩
        · rw [hkeep t htx' (by omega) (by omega) htn]; exact g3
        · rw [hA3 p hpi hpt]; exact g4
        · have : p ≠ t0 := by rintro rfl; exact ht0n g5
          rw [hkeep p (by omega) hpt hpi this]; exact g6
    · intro p hp hplt hnc
      rw [hcons] at hnc
      have hnc1 : ¬ Consumed σ i p := fun h => hnc (.inl h)
      have hpn : p ≠ t0 := fun h => hnc (.inr h)
      have hpt : p ≠ target := by
        rintro rfl
        by_cases hc : t0 < i
        · exact hnc1 (hT1 hc).2.1
        · exact hpn (hT2 (by omega))
      obtain ⟨g1, g2⟩ := hfresh p (by omega) hplt hnc1
      refine ⟨by rw [hA3 p (by omega) hpt]; exact g1, ?_⟩
      rw [hkeep p (by omega) hpt (by omega) hpn]; exact g2
    · intro p hp hplt hcp
      by_cases hpt : p = target
      · subst hpt
        have hgt : i < p := by omega
        refine ⟨x, by omega, ?_, ?_, by rw [hA2, hAi], ?_⟩
        · rw [hcons]
          rintro (h | h)
          · exact hxn h
          · have := hxt h; omega
        · rw [(hm' p).1 hgt, if_neg (by omega), if_pos rfl]
        · rw [(hm' x).1 hgt, if_pos rfl]
      · have hcp1 : Consumed σ i p := by
          rcases (hcons p).1 hcp with h | h
          · exact h
          · exfalso; apply hpt; rw [h]; exact (hT2 (by omega)).symm
        obtain ⟨t, g1, g2, g3, g4, g5⟩ := hhold p (by omega) hplt hcp1
        have htn : t ≠ t0 := by
          rintro rfl
          have := (hT1 g1).1; rw [g5] at this; exact hpt (Option.some.inj this)
        have htx' : t ≠ x := by
          rintro rfl
          have := (hxi g1).2.2; rw [g5] at this
          have := Option.some.inj this; omega
        have hpn : p ≠ t0 := by rintro rfl; exact ht0n hcp1
        refine ⟨t, by omega, ?_, ?_, ?_, ?_⟩
        · rw [hcons]; rintro (h | h)
          · exact g2 h
          · exact htn h
        · rw [hkeep p (by omega) hpt (by omega) hpn]; exact g3
        · rw [hA3 p (by omega) hpt]; exact g4
        · rw [hkeep t htx' (by omega) (by omega) htn]; exact g5

theorem layoutLoop_spec [Target] {σ : Nat → Nat} {S : List T}
    (hσ : ∀ j, j < S.length → eytzingerIndex j S.length = .ok (σ j))
    (hlt : ∀ j, j < S.length → σ j < S.length)
    (hinj : ∀ a b, a < S.length → b < S.length → σ a = σ b → a = b) :
    ∀ (fuel i : Nat) (A : List T) (map : List (Nat × Nat)), i + fuel = S.length →
      LayoutInv σ S i A (fun k => map.lookup k) →
      ∃ A', layoutLoop fuel i A map = .ok A' ∧ A'.length = S.length ∧ ∀ j, j < S.length → A'[j]? = S[σ j]? := by
  intro fuel
  induction fuel with
  | zero =>
    intro i A map hif hinv
    exact ⟨A, rfl, hinv.len, fun j hj => hinv.done j (by omega)⟩
  | succ fuel ih =>
    intro i A map hif hinv
    obtain ⟨A', map', h1, h2⟩ := layoutStep_spec hσ hlt hinj (by omega) hinv
    obtain ⟨A'', h3, h4⟩ := ih (i + 1) A' map' (by omega) h2
    refine ⟨A'', ?_, h4⟩
    unfold layoutLoop
    rw [h1]
    exact h3

theorem eytzingerLayout_spec [Target] (S : List T) :
    ∃ A, eytzingerLayout S = .ok A ∧ A.length = S.length ∧ ∀ j, j < S.length → A[j]? = S[rank S.length j]? := by
  unfold eytzingerLayout
  apply layoutLoop_spec (σ := rank S.length) (fun j hj => eytzingerIndex_eq hj) (fun j hj => rank_lt hj)
    (fun a b ha hb he => rank_inj ha hb he) S.length 0 S [] (by omega)
  refine ⟨rfl, by intro j hj; omega, by intro t ht; omega, ?_, ?_⟩
  · intro p _ _ _; exact ⟨rfl, rfl⟩
  · rintro p _ _ ⟨j, hj, _⟩; omega


/-! ### Search -/

/-- On every target the cast yields the same bit. -/
theorem orderBit_width [T : Target] (o : Ordering) :
    ((((match o with | .lt => BitVec.ofInt Target.width (-1) | .eq => 0#Target.width | .gt => 1#Target.width) : BitVec Target.width) >>> 1) &&&
      1#Target.width).toNat = orderBit o := by
  obtain ⟨_, rfl | rfl⟩ := T <;> cases o <;> rfl

theorem orderBit_lt : orderBit .lt = 1 := by decide
theorem orderBit_gt : orderBit .gt = 0 := by decide

theorem searchLoop_some {data : List T} {f : T → Ordering} {i steps j k : Nat}
    (h : searchLoop data f i steps = (some j, k)) : ∃ x, data[j]? = some x ∧ f x = .eq := by
  fun_induction searchLoop data f i steps with
  | case1 i steps hi order he =>
    simp only [Prod.mk.injEq, Option.some.injEq] at h
    obtain ⟨rfl, rfl⟩ := h
    exact ⟨_, List.getElem?_eq_getElem hi, by simpa using he⟩
  | case2 i steps hi order he ih => exact ih h
  | case3 i steps hi => simp at h

theorem searchLoop_cost (data : List T) (f : T → Ordering) (i steps : Nat) (h0 : i = 0 ∧ steps = 0 ∨ 0 < data.length ∧
    steps = dep i ∧ dep i ≤ Nat.log2 data.length + 1) :
    (searchLoop data f i steps).2 ≤ (if data.length = 0 then 0 else Nat.log2 data.length + 1) := by
  fun_induction searchLoop data f i steps with
  | case1 i steps hi order he =>
    rw [if_neg (by omega)]
    have h1 : dep i ≤ Nat.log2 data.length := by
      have : dep i ≤ dep (data.length - 1) := dep_mono (by omega)
      unfold dep at this ⊢
      rwa [show data.length - 1 + 1 = data.length by omega] at this
    rcases h0 with ⟨rfl, rfl⟩ | ⟨_, rfl, _⟩ <;> simp only <;> omega
  | case2 i steps hi order he ih =>
    have h1 : dep i ≤ Nat.log2 data.length := by
      have : dep i ≤ dep (data.length - 1) := dep_mono (by omega)
      unfold dep at this ⊢
      rwa [show data.length - 1 + 1 = data.length by omega] at this
    have hb : orderBit order ≤ 1 := by cases order <;> decide
    have hd := dep_child i (orderBit order) hb
    have hz : dep 0 = 0 := dep_unique (by simp) (by simp)
    apply ih
    right
    refine ⟨by omega, ?_, by omega⟩
    rcases h0 with ⟨rfl, rfl⟩ | ⟨_, rfl, _⟩ <;> omega
  | case3 i steps hi =>
    rcases h0 with ⟨rfl, rfl⟩ | ⟨h, rfl, h2⟩
    · simp
    · rw [if_neg (by omega)]; exact h2

/-- If the target `j0` is in the subtree of the current node, the search reaches it. -/
theorem searchLoop_found {data : List T} {f : T → Ordering} {j0 : Nat} {x0 : T} (hj0 : data[j0]? = some x0)
    (h0 : f x0 = .eq)
    (hlt : ∀ i x, data[i]? = some x → yRank (hgt data.length) i < yRank (hgt data.length) j0 → f x = .lt)
    (hgt' : ∀ i x, data[i]? = some x → yRank (hgt data.length) j0 < yRank (hgt data.length) i → f x = .gt)
    (i steps : Nat) (hd : dep i ≤ hgt data.length) (hs : InSub (hgt data.length) i j0) :
    (searchLoop data f i steps).1 = some j0 := by
  have hj0lt : j0 < data.length := by
    by_contra hc
    rw [List.getElem?_eq_none (by omega)] at hj0
    cases hj0
  have hdj := dep_le_hgt hj0lt
  fun_induction searchLoop data f i steps with
  | case1 i steps hi order he =>
    simp only [Option.some.injEq]
    have he' : f data[i] = .eq := by simpa using he
    rcases Nat.lt_trichotomy (yRank (hgt data.length) i) (yRank (hgt data.length) j0) with h | h | h
    · rw [hlt i _ (List.getElem?_eq_getElem hi) h] at he'; cases he'
    · exact yRank_inj hd hdj h
    · rw [hgt' i _ (List.getElem?_eq_getElem hi) h] at he'; cases he'
  | case2 i steps hi order he ih =>
    rcases hs.cases hd hdj with rfl | hdep
    · rw [List.getElem?_eq_getElem hi] at hj0
      cases hj0
      exact absurd h0 (by simpa using he)
    · rcases Nat.lt_trichotomy (yRank (hgt data.length) i) (yRank (hgt data.length) j0) with h | h | h
      · have ho : order = .lt := hlt i _ (List.getElem?_eq_getElem hi) h
        have hb : 2 * i + 1 + orderBit order = 2 * i + 2 := by rw [ho, orderBit_lt]
        apply ih
        · rw [dep_child i _ (by rw [ho]; decide)]; omega
        · rw [hb]; exact hs.right (by omega) h
      · have := yRank_inj hd hdj h
        subst this; omega
      · have ho : order = .gt := hgt' i _ (List.getElem?_eq_getElem hi) h
        have hb : 2 * i + 1 + orderBit order = 2 * i + 1 := by rw [ho, orderBit_gt]
        apply ih
        · rw [dep_child i _ (by rw [ho]; decide)]; omega
        · rw [hb]; exact hs.left (by omega) h
  | case3 i steps hi =>
    have := hs.ge hd hdj
    omega

/-- Exactness of the search over a laid out sorted list: `f` orders the sorted list `S` as less / equal / greater
than the target, with at most one equal element. -/
theorem eytzingerSearch_spec [Target] {S A : List T} {f : T → Ordering} (hA : eytzingerLayout S = .ok A)
    (hf : S.Pairwise (fun a b => (f b ≠ .gt → f a = .lt) ∧ (f a ≠ .lt → f b = .gt))) :
    (eytzingerSearchBy A f).bind (fun i => A[i]?) = S.find? (fun x => f x == .eq) ∧
      ∀ i, eytzingerSearchBy A f = some i → i < A.length := by
  obtain ⟨A', h1, hlen, hget⟩ := eytzingerLayout_spec S
  rw [hA] at h1
  cases h1
  have hbnd : ∀ i, eytzingerSearchBy A f = some i → i < A.length := by
    intro i hi
    obtain ⟨x, hx, _⟩ := searchLoop_some (i := 0) (steps := 0) (Prod.ext hi rfl)
    by_contra hc
    rw [List.getElem?_eq_none (by omega)] at hx
    cases hx
  refine ⟨?_, hbnd⟩
  rw [List.pairwise_iff_getElem] at hf
  -- at most one match
  have huniq : ∀ a b (ha : a < S.length) (hb : b < S.length), f S[a] = .eq → f S[b] = .eq → a = b := by
    intro a b ha hb e1 e2
    rcases Nat.lt_trichotomy a b with h | h | h
    · have := (hf a b ha hb h).1 (by rw [e2]; decide); rw [e1] at this; cases this
    · exact h
    · have := (hf b a hb ha h).1 (by rw [e1]; decide); rw [e2] at this; cases this
  cases hfind : S.find? (fun x => f x == .eq) with
  | none =>
    rw [List.find?_eq_none] at hfind
    cases hs : eytzingerSearchBy A f with
    | none => rfl
    | some i =>
      exfalso
      obtain ⟨x, hx, he⟩ := searchLoop_some (i := 0) (steps := 0) (Prod.ext hs rfl)
      have hi := hbnd i hs
      rw [hlen] at hi
      rw [hget i hi] at hx
      exact hfind x (List.mem_of_getElem? hx) (by simpa using he)
  | some x0 =>
    have hx0 := List.find?_some hfind
    have hmem := List.mem_of_find?_eq_some hfind
    simp only [beq_iff_eq] at hx0
    obtain ⟨t, ht, hxt⟩ := List.mem_iff_getElem.1 hmem
    -- the node holding `t`
    obtain ⟨j0, hj0, hr⟩ : ∃ j0, j0 < S.length ∧ rank S.length j0 = t := by
      have := Finset.surj_on_of_inj_on_of_card_le (s := Finset.range S.length) (t := Finset.range S.length)
        (fun a _ => rank S.length a) (fun a ha => by simpa using rank_lt (by simpa using ha))
        (fun a b ha hb h => rank_inj (by simpa using ha) (by simpa using hb) h) (le_refl _) t (by simpa using ht)
      obtain ⟨a, ha, h⟩ := this
      exact ⟨a, by simpa using ha, h.symm⟩
    have hA0 : A[j0]? = some x0 := by rw [hget j0 hj0, hr, List.getElem?_eq_getElem ht, hxt]
    have hres : eytzingerSearchBy A f = some j0 := by
      apply searchLoop_found hA0 hx0
      · intro i x hx hy
        have hi : i < S.length := by
          by_contra hc
          rw [List.getElem?_eq_none (by omega)] at hx; cases hx
        rw [hlen] at hy
        have hrk := rank_mono hi hj0 hy
        rw [hr] at hrk
        rw [hget i hi, List.getElem?_eq_getElem (rank_lt hi)] at hx
        cases hx
        exact (hf _ _ (rank_lt hi) ht hrk).1 (by rw [hxt, hx0]; decide)
      · intro i x hx hy
        have hi : i < S.length := by
          by_contra hc
          rw [List.getElem?_eq_none (by omega)] at hx; cases hx
        rw [hlen] at hy
        have hrk := rank_mono hj0 hi hy
        rw [hr] at hrk
        rw [hget i hi, List.getElem?_eq_getElem (rank_lt hi)] at hx
        cases hx
        exact (hf _ _ ht (rank_lt hi) hrk).2 (by rw [hxt, hx0]; decide)
      · have hz : dep 0 = 0 := dep_unique (by simp) (by simp)
        omega
      · apply InSub.root
        rw [hlen]
        exact dep_le_hgt hj0
    rw [hres]
    exact hA0

theorem swap_perm {A A' : List T} {a b : Nat} (h : swap A a b = .ok A') : A'.Perm A := by
  unfold swap idx at h
  cases ha : A[a]? with
  | none => rw [ha] at h; simp [bind, Except.bind] at h
  | some x =>
    cases hb : A[b]? with
    | none => rw [ha, hb] at h; simp [bind, Except.bind] at h
    | some y =>
      rw [ha, hb] at h
      simp only [bind, Except.bind, Except.ok.injEq] at h
      obtain ⟨ha', rfl⟩ := List.getElem?_eq_some_iff.1 ha
      obtain ⟨hb', rfl⟩ := List.getElem?_eq_some_iff.1 hb
      rw [← h]
      exact List.set_set_perm ha' hb'

theorem layoutLoop_perm [Target] : ∀ (fuel i : Nat) (A : List T) (map : List (Nat × Nat)) (A' : List T),
    layoutLoop fuel i A map = .ok A' → A'.Perm A
  | 0, _, A, _, A', h => by
    simp only [layoutLoop, Except.ok.injEq] at h
    rw [h]
  | fuel + 1, i, A, map, A', h => by
    unfold layoutLoop layoutStep at h
    simp only [bind, Except.bind] at h
    cases h1 : eytzingerIndex i A.length with
    | error e => rw [h1] at h; cases h
    | ok t =>
      rw [h1] at h
      simp only at h
      cases h2 : relocate t i map with
      | error e => rw [h2] at h; cases h
      | ok loc =>
        rw [h2] at h
        simp only at h
        cases h3 : swap A i loc.1 with
        | error e => rw [h3] at h; cases h
        | ok B =>
          rw [h3] at h
          simp only at h
          exact (layoutLoop_perm fuel _ _ _ _ h).trans (swap_perm h3)

theorem eytzingerLayout_perm [Target] {S A : List T} (hA : eytzingerLayout S = .ok A) : A.Perm S :=
  layoutLoop_perm _ _ _ _ _ hA

/-! ### In-order traversal -/

theorem mem_inorder {n i j : Nat} : j ∈ Spec.inorder n i → j < n ∧ (dep i ≤ hgt n → InSub (hgt n) i j) := by
  fun_induction Spec.inorder n i with
  | case1 i hi ihl ihr =>
    rw [List.mem_append, List.mem_cons]
    have hw : 0 < 2 ^ (hgt n - dep i) := Nat.pow_pos (by omega)
    have hd := dep_le_hgt hi
    rintro (h | rfl | h)
    · obtain ⟨h1, h2⟩ := ihl h
      refine ⟨h1, fun _ => ?_⟩
      have hlt : 2 * i + 1 < n := by
        rcases Nat.lt_or_ge (2 * i + 1) n with h' | h'
        · exact h'
        · rw [Spec.inorder, if_neg (by omega)] at h; simp at h
      have hdc := dep_le_hgt hlt
      have hdi := dep_child i 0 (by omega)
      simp only [Nat.add_zero] at hdi
      obtain ⟨a, b⟩ := yRank_left (h := hgt n) (i := i) (by omega)
      have c := width_half (h := hgt n) (i := i) (by omega)
      obtain ⟨e1, e2⟩ := h2 hdc
      rw [b] at e1 e2
      exact ⟨by omega, by omega⟩
    · exact ⟨hi, fun _ => ⟨by omega, by omega⟩⟩
    · obtain ⟨h1, h2⟩ := ihr h
      refine ⟨h1, fun _ => ?_⟩
      have hlt : 2 * i + 2 < n := by
        rcases Nat.lt_or_ge (2 * i + 2) n with h' | h'
        · exact h'
        · rw [Spec.inorder, if_neg (by omega)] at h; simp at h
      have hdc := dep_le_hgt hlt
      have hdi := dep_child i 1 (by omega)
      rw [show 2 * i + 1 + 1 = 2 * i + 2 by omega] at hdi
      obtain ⟨a, b⟩ := yRank_right (h := hgt n) (i := i) (by omega)
      have c := width_half (h := hgt n) (i := i) (by omega)
      obtain ⟨e1, e2⟩ := h2 hdc
      rw [b] at e1 e2
      exact ⟨by omega, by omega⟩
  | case2 i hi => simp

theorem inorder_complete {n i j : Nat} (hj : j < n) (hd : dep i ≤ hgt n) (hs : InSub (hgt n) i j) :
    j ∈ Spec.inorder n i := by
  have hdj := dep_le_hgt hj
  fun_induction Spec.inorder n i with
  | case1 i hi ihl ihr =>
    rw [List.mem_append, List.mem_cons]
    rcases hs.cases hd hdj with rfl | hdep
    · exact .inr (.inl rfl)
    · rcases Nat.lt_trichotomy (yRank (hgt n) j) (yRank (hgt n) i) with h | h | h
      · left
        have := dep_child i 0 (by omega)
        simp only [Nat.add_zero] at this
        exact ihl (by omega) (hs.left (by omega) h)
      · exact .inr (.inl (yRank_inj hdj hd h))
      · right; right
        have := dep_child i 1 (by omega)
        rw [show 2 * i + 1 + 1 = 2 * i + 2 by omega] at this
        exact ihr (by omega) (hs.right (by omega) h)
  | case2 i hi =>
    have := hs.ge hd hdj
    omega

theorem inorder_sorted (n i : Nat) :
    (Spec.inorder n i).Pairwise (fun a b => yRank (hgt n) a < yRank (hgt n) b) := by
  fun_induction Spec.inorder n i with
  | case1 i hi ihl ihr =>
    have hd := dep_le_hgt hi
    have hleft : ∀ j, j ∈ Spec.inorder n (2 * i + 1) → yRank (hgt n) j < yRank (hgt n) i := by
      intro j hj
      have hlt : 2 * i + 1 < n := by
        rcases Nat.lt_or_ge (2 * i + 1) n with h' | h'
        · exact h'
        · rw [Spec.inorder, if_neg (by omega)] at hj; simp at hj
      have hdc := dep_le_hgt hlt
      have hdi := dep_child i 0 (by omega)
      simp only [Nat.add_zero] at hdi
      obtain ⟨a, b⟩ := yRank_left (h := hgt n) (i := i) (by omega)
      obtain ⟨e1, e2⟩ := (mem_inorder hj).2 hdc
      rw [b] at e1 e2
      omega
    have hright : ∀ j, j ∈ Spec.inorder n (2 * i + 2) → yRank (hgt n) i < yRank (hgt n) j := by
      intro j hj
      have hlt : 2 * i + 2 < n := by
        rcases Nat.lt_or_ge (2 * i + 2) n with h' | h'
        · exact h'
        · rw [Spec.inorder, if_neg (by omega)] at hj; simp at hj
      have hdc := dep_le_hgt hlt
      have hdi := dep_child i 1 (by omega)
      rw [show 2 * i + 1 + 1 = 2 * i + 2 by omega] at hdi
      obtain ⟨a, b⟩ := yRank_right (h := hgt n) (i := i) (by omega)
      obtain ⟨e1, e2⟩ := (mem_inorder hj).2 hdc
      rw [b] at e1 e2
      omega
    rw [List.pairwise_append, List.pairwise_cons]
    refine ⟨ihl, ⟨hright, ihr⟩, ?_⟩
    intro a ha b hb
    rw [List.mem_cons] at hb
    rcases hb with rfl | hb
    · exact hleft a ha
    · exact Nat.lt_trans (hleft a ha) (hright b hb)
  | case2 i hi => simp

theorem inorder_rank (n : Nat) : (Spec.inorder n 0).map (rank n) = List.range n := by
  have hsorted : ((Spec.inorder n 0).map (rank n)).Pairwise (· < ·) := by
    rw [List.pairwise_map]
    apply List.Pairwise.imp_of_mem _ (inorder_sorted n 0)
    intro a b ha hb h
    exact rank_mono (mem_inorder ha).1 (mem_inorder hb).1 h
  have hz : dep 0 = 0 := dep_unique (by simp) (by simp)
  have hnd : (Spec.inorder n 0).Nodup := (inorder_sorted n 0).imp (fun h => by rintro rfl; omega)
  have hperm0 : (Spec.inorder n 0).Perm (List.range n) := by
    rw [List.perm_ext_iff_of_nodup hnd List.nodup_range]
    intro j
    rw [List.mem_range]
    exact ⟨fun h => (mem_inorder h).1, fun h => inorder_complete h (by omega) (InSub.root (dep_le_hgt h))⟩
  have hlen : (Spec.inorder n 0).length = n := by rw [hperm0.length_eq, List.length_range]
  have hperm : ((Spec.inorder n 0).map (rank n)).Perm (List.range n) := by
    apply List.Subperm.perm_of_length_le
    · apply List.subperm_of_subset (hsorted.imp (fun h => by omega))
      intro r hr
      obtain ⟨j, hj, rfl⟩ := List.mem_map.1 hr
      rw [List.mem_range]
      exact rank_lt (mem_inorder hj).1
    · rw [List.length_map, hlen, List.length_range]
  exact hperm.eq_of_pairwise (fun a b _ _ h1 h2 => by omega) hsorted List.pairwise_lt_range

theorem eytzingerLayout_inorder [Target] {S A : List T} (hA : eytzingerLayout S = .ok A) :
    (Spec.inorder A.length 0).filterMap (fun j => A[j]?) = S := by
  obtain ⟨A', h1, hlen, hget⟩ := eytzingerLayout_spec S
  rw [hA] at h1
  cases h1
  rw [hlen]
  have e1 : (Spec.inorder S.length 0).filterMap (fun j => A[j]?) =
      ((Spec.inorder S.length 0).map (rank S.length)).filterMap (fun j => S[j]?) := by
    rw [List.filterMap_map]
    apply List.filterMap_congr
    intro j hj
    exact hget j (mem_inorder hj).1
  rw [e1, inorder_rank]
  apply List.ext_getElem?
  intro k
  have : (List.range S.length).filterMap (fun j => S[j]?) = S := by
    clear e1 hlen hget hA A
    induction S with
    | nil => rfl
    | cons x xs ih =>
      rw [List.length_cons, List.range_succ_eq_map, List.filterMap_cons]
      simp only [List.getElem?_cons_zero, List.filterMap_map]
      congr 1
  rw [this]

end Frozen.Model
