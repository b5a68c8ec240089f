import Verif.Lemmas.History
import Verif.Lemmas.Sets
import Verif.Model.Serde

/-! # Lemmas about deserialization -/

namespace Frozen.Model

open Frozen Frozen.Spec Frozen.Props

variable {M Q K V T E A : Type}

theorem drain_ok (v l : List A) : drain (E := E) v (l.map .ok) = .ok (v ++ l) := by
  induction l generalizing v with
  | nil => simp [drain]
  | cons a l ih => simp [drain, ih]

theorem drain_error (v l : List A) (e : E) (r : List (Except E A)) :
    drain v (l.map .ok ++ .error e :: r) = .error e := by
  induction l generalizing v with
  | nil => rfl
  | cons a l ih => exact ih _

theorem visitWith_ok [Target] {size : Nat} {build : List A → Res M} {hint : Option Nat} {l : List A} {m : M}
    (hh : hint.getD 0 * size < allocLimit) (hm : build l = .ok m) :
    visitWith (E := E) size build ⟨hint, l.map .ok⟩ = .ok (.ok m) := by
  simp only [visitWith, vecWithCapacity, if_pos hh, bind, Except.bind, drain_ok, List.nil_append, hm]

theorem visitWith_error [Target] {size : Nat} {build : List A → Res M} {hint : Option Nat} {l : List A} {e : E}
    {r : List (Except E A)} (hh : hint.getD 0 * size < allocLimit) :
    visitWith size build ⟨hint, l.map .ok ++ .error e :: r⟩ = .ok (.error e) := by
  simp only [visitWith, vecWithCapacity, if_pos hh, bind, Except.bind, drain_error]

/-- The entries of a built map stand for the same mapping as the entries it was built from. -/
theorem _root_.Frozen.Props.Built.entries_lastMatch [Target] {eqK : K → K → Bool} {mt : Q → K → Bool} {es : List (K × V)}
    {I : MapImpl M Q K V} {m : M} (hb : Built eqK mt es I m) (k : K) :
    lastMatch eqK (I.entries m) k = lastMatch eqK es k := by
  obtain ⟨Inv, F⟩ := hb.facts
  rw [lastMatch_of_distinct F.eq.query (F.lawful.distinct m F.inv),
    find?_of_perm_survivors F.eq.query F.perm]

theorem _root_.Frozen.Props.Built.entries_length [Target] {eqK : K → K → Bool} {mt : Q → K → Bool} {es : List (K × V)}
    {I : MapImpl M Q K V} {m : M} (hb : Built eqK mt es I m) : (I.entries m).length ≤ es.length := by
  obtain ⟨Inv, F⟩ := hb.facts
  rw [F.perm.length_eq]
  exact survivors_length_le eqK es

theorem _root_.Frozen.Props.Built.entries_mem [Target] {eqK : K → K → Bool} {mt : Q → K → Bool} {es : List (K × V)}
    {I : MapImpl M Q K V} {m : M} (hb : Built eqK mt es I m) {e : K × V} (h : e ∈ I.entries m) : e ∈ es := by
  obtain ⟨Inv, F⟩ := hb.facts
  rw [F.contents.mem] at h
  exact (lastMatch_mem h).1

theorem scalarMatch_self [Target] {cmp : K → K → Ordering} {index : K → Nat} (h : LawfulScalar cmp index) :
    scalarMatch index index = fun a b => cmp a b == .eq := by
  funext a b
  rw [h.cmp]
  unfold scalarMatch
  rw [Bool.eq_iff_iff]
  simp [Nat.compare_eq_eq]

/-- The elements of a built set stand for the same set as the elements it was built from. -/
theorem _root_.Frozen.Props.BuiltSet.items_lastOf [Target] {eqT : T → T → Bool} {mt : Q → T → Bool} {xs : List T}
    {I : SetImpl M Q T} {m : M} (hb : BuiltSet eqT mt xs I m) {P : Type} {mt' : P → T → Bool}
    (hq : LawfulQuery eqT mt') (q : P) : lastOf mt' (I.items m) q = lastOf mt' xs q := by
  obtain ⟨he, _, hs⟩ := hb.spec
  -- the last matching element of the input is an item, and is the only matching item
  have key : ∀ y, y ∈ I.items m → mt' q y = true → lastOf mt' xs q = some y := by
    intro y hy hqy
    have h1 := (hs.mem y).1 hy
    have : eqT y = mt' q := by
      funext z
      rw [Bool.eq_iff_iff]
      exact (hq.congr q y z hqy).symm
    unfold lastOf at h1 ⊢
    rw [← this]
    exact h1
  cases h : lastOf mt' (I.items m) q with
  | some y => exact (key y (lastOf_some h).1 (lastOf_some h).2).symm
  | none =>
    cases hx : lastOf mt' xs q with
    | none => rfl
    | some x =>
      obtain ⟨h1, h2⟩ := lastOf_some hx
      have hsome : (lastOf eqT xs x).isSome = true := by
        rw [lastOf_isSome]; exact List.any_eq_true.2 ⟨x, h1, he.refl x⟩
      obtain ⟨z, hz⟩ := Option.isSome_iff_exists.1 hsome
      have hxz := (lastOf_some hz).2
      have hzi : z ∈ I.items m := (hs.mem z).2 (by rw [← lastOf_congr he xs hxz, hz])
      have : (lastOf mt' (I.items m) q).isSome = true := by
        rw [lastOf_isSome]
        exact List.any_eq_true.2 ⟨z, hzi, (hq.congr q x z h2).2 hxz⟩
      rw [h] at this
      cases this

theorem _root_.Frozen.Props.BuiltSet.items_mem [Target] {eqT : T → T → Bool} {mt : Q → T → Bool} {xs : List T}
    {I : SetImpl M Q T} {m : M} (hb : BuiltSet eqT mt xs I m) {x : T} (h : x ∈ I.items m) : x ∈ xs := by
  obtain ⟨_, _, hs⟩ := hb.spec
  exact (lastOf_some ((hs.mem x).1 h)).1

theorem _root_.Frozen.Props.BuiltSet.items_length [Target] {eqT : T → T → Bool} {mt : Q → T → Bool} {xs : List T}
    {I : SetImpl M Q T} {m : M} (hb : BuiltSet eqT mt xs I m) : (I.items m).length ≤ xs.length := by
  obtain ⟨he, _, hs⟩ := hb.spec
  exact distinct_length_le he hs.distinct fun a ha => ⟨a, hb.items_mem ha, he.refl a⟩

end Frozen.Model
