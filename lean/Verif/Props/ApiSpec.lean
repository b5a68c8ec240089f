import Verif.Props.MacroSpec
import Verif.Model.Api

/-! # Specification: which code compiles against an emitted map -/

namespace Frozen.Props

open Frozen.Spec Frozen.Model

/-- The numbers leave no gap. -/
def NoGap (R : List Nat) (mn mx : Nat) : Prop := ∀ c, mn ≤ c → c ≤ mx → c ∈ R

/-- The numbers are spread over more than 128 numbers and at least ten per number. -/
def Scattered (R : List Nat) (mn mx : Nat) : Prop := ¬ NoGap R mn mx ∧ 128 < mx - mn + 1 ∧ 10 * R.length ≤ mx - mn + 1

/-- `R` lists the integers that the keys denote, without repetition; `mn` and `mx` are the smallest and the largest. -/
structure IntKeys (keys : List KeySyntax) (R : List Nat) (mn mx : Nat) : Prop where
  nodup : R.Nodup
  mem : ∀ n, n ∈ R ↔ ∃ k ∈ keys, ∃ s, KeyIs k (.int n s)
  min : mn ∈ R
  max : mx ∈ R
  range : ∀ n ∈ R, mn ≤ n ∧ n ≤ mx

/-- `R` lists the strings that the keys denote, without repetition. -/
structure StrKeys (keys : List KeySyntax) (R : List Str) : Prop where
  nodup : R.Nodup
  mem : ∀ v, v ∈ R ↔ ∃ k ∈ keys, KeyIs k (.str v)

/-- A map whose key type is an integer type: the key type itself, and every type as capable as it. -/
def IntLike (q : QueryCaps) : Prop := q.sized = true ∧ q.equivalent = true ∧ q.comparable = true ∧ q.scalar = true ∧ q.hash = true

/-- What holds for `str`, `String`, `&str`, `Box<str>`: the first is not sized. -/
def StrLike (q : QueryCaps) : Prop :=
  q.equivalent = true ∧ q.comparable = true ∧ q.hash = true ∧ q.len = true ∧ q.asRefStr = true ∧
  (q.isStr = true ∨ q.sized = true)

end Frozen.Props
