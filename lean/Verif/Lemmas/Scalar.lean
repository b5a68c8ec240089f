import Mathlib.Tactic.Ring
import Mathlib.Tactic.IntervalCases
import Verif.Model.Scalar

/-! # Lemmas about `Scalar` -/

namespace Frozen.Model

theorem xor_two_pow_of_lt {x k : Nat} (h : x < 2 ^ k) : x ^^^ 2 ^ k = x + 2 ^ k := by
  have h1 : 2 ^ k + x = 2 ^ k ||| x := by
    have := Nat.two_pow_add_eq_or_of_lt h 1
    simpa using this
  rw [Nat.add_comm, h1]
  apply Nat.eq_of_testBit_eq
  intro i
  rw [Nat.testBit_xor, Nat.testBit_or, Nat.testBit_two_pow]
  by_cases hi : k = i
  · subst hi
    rw [Nat.testBit_lt_two_pow h]
    simp
  · simp [hi]

theorem xor_two_pow_of_ge {x k : Nat} (h1 : 2 ^ k ≤ x) (h2 : x < 2 * 2 ^ k) : x ^^^ 2 ^ k = x - 2 ^ k := by
  have h : x - 2 ^ k < 2 ^ k := by omega
  have := xor_two_pow_of_lt h
  have hx : x = (x - 2 ^ k) ^^^ 2 ^ k := by rw [this]; omega
  conv_lhs => rw [hx]
  rw [Nat.xor_assoc, Nat.xor_self, Nat.xor_zero]

/-- Flipping the sign bit moves a two's complement number to its position among the numbers of its type. -/
theorem flip_sign {k : Nat} (x : BitVec (k + 1)) :
    ((x ^^^ BitVec.ofNat (k + 1) (2 ^ k)).toNat : Int) = x.toInt + 2 ^ k := by
  have hp : 2 ^ (k + 1) = 2 * 2 ^ k := by rw [Nat.pow_succ, Nat.mul_comm]
  have hpos : 0 < 2 ^ k := Nat.two_pow_pos k
  have hx := x.isLt
  have hcast : ((2 ^ k : Nat) : Int) = 2 ^ k := by simp
  rw [BitVec.toNat_xor, BitVec.toNat_ofNat, Nat.mod_eq_of_lt (by omega), BitVec.toInt_eq_toNat_cond]
  by_cases h : x.toNat < 2 ^ k
  · rw [xor_two_pow_of_lt h, if_pos (by omega)]
    push_cast
    rfl
  · rw [xor_two_pow_of_ge (by omega) (by omega), if_neg (by omega), hp]
    push_cast [show 2 ^ k ≤ x.toNat by omega]
    ring

theorem castUsize_of_le {p w : Nat} (h : w ≤ p) (x : BitVec w) : castUsize p x = x.toNat := by
  unfold castUsize
  rw [BitVec.toNat_setWidth, Nat.mod_eq_of_lt]
  exact Nat.lt_of_lt_of_le x.isLt (Nat.pow_le_pow_right (by omega) h)

theorem checkVariants_ok : ∀ {vs : List EnumVariant}, (∃ u, checkVariants vs = .ok u) ↔
    ∀ v ∈ vs, v.unit = true ∧ v.discriminant = none
  | [] => by simp [checkVariants]
  | v :: vs => by
    have ih := checkVariants_ok (vs := vs)
    simp only [checkVariants, checkVariant, bind, Except.bind, List.forall_mem_cons]
    cases hu : v.unit with
    | false => simp
    | true =>
      cases hd : v.discriminant with
      | some d => simp
      | none => simpa using ih

theorem matchArms_eq (acc : List (String × Nat)) (vs : List EnumVariant) :
    matchArms acc vs = acc ++ (vs.zipIdx acc.length).map (fun p => (p.1.ident, p.2)) := by
  induction vs generalizing acc with
  | nil => simp [matchArms]
  | cons v vs ih => simp [matchArms, ih]

theorem evalMatch_zipIdx : ∀ (vs : List EnumVariant) (n i : Nat) (v : EnumVariant),
    (vs.map (fun v => v.ident)).Nodup → vs[i]? = some v →
    evalMatch ((vs.zipIdx n).map (fun p => (p.1.ident, p.2))) v.ident = some (n + i)
  | [], _, _, _, _, h => by simp at h
  | w :: vs, n, 0, v, hn, h => by
    simp only [List.getElem?_cons_zero, Option.some.injEq] at h
    subst h
    simp [evalMatch, List.zipIdx_cons]
  | w :: vs, n, i + 1, v, hn, h => by
    simp only [List.getElem?_cons_succ] at h
    simp only [List.map_cons, List.nodup_cons] at hn
    have hne : w.ident ≠ v.ident := by
      intro he
      exact hn.1 (List.mem_map.2 ⟨v, List.mem_of_getElem? h, he.symm⟩)
    have ih := evalMatch_zipIdx vs (n + 1) i v hn.2 h
    unfold evalMatch at ih ⊢
    rw [List.zipIdx_cons, List.map_cons, List.find?_cons_of_neg (by simpa using hne), ih]
    congr 1
    omega

end Frozen.Model
