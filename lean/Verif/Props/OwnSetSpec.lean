import Verif.Model.OwnSets
import Verif.Props.SetSpec

/-!
# What is asked of a set that the user wrote, and of an operation on such sets
-/

namespace Frozen.Spec
open Model Props

variable {T σ G : Type}

/-- The answer to the `n`-th call of `next`, counting from 0. -/
def answer (next : σ → Option T × σ) : σ → Nat → Option T
  | s, 0 => (next s).1
  | s, n + 1 => answer next (next s).2 n

/-- The iterator gives the items and then answers `None` for ever. -/
def Gives (next : σ → Option T × σ) (s : σ) (items : List T) : Prop := ∀ n, answer next s n = items[n]?

/-- The iterator gives the items and then answers `None` once; what it answers if asked again is left open. -/
def GivesOnce (next : σ → Option T × σ) (s : σ) (items : List T) : Prop := ∀ n, n ≤ items.length → answer next s n = items[n]?

/-- A set type of the user's with the elements `mem`, and with an iterator that stays at its end. -/
def OwnSetOk (eqT : T → T → Bool) (mem : T → Prop) (s : OwnSet T σ) : Prop :=
  ∃ items, Gives s.next s.start items ∧ IsSet eqT mem ⟨s.len, items, s.contains⟩

/-- A set type of the user's with the elements `mem`.  That is all that the traits demand. -/
def OwnSetOnce (eqT : T → T → Bool) (mem : T → Prop) (s : OwnSet T σ) : Prop :=
  ∃ items, GivesOnce s.next s.start items ∧ IsSet eqT mem ⟨s.len, items, s.contains⟩

/-- Calls of `next` from state `g` may answer `as`. -/
inductive Answers (step : G → Option T → G → Prop) : G → List (Option T) → Prop
  | nil {g : G} : Answers step g []
  | cons {g g' : G} {r : Option T} {as : List (Option T)} : step g r g' → Answers step g' as → Answers step g (r :: as)

/-- The items are exactly the elements `mem`, each once. -/
def Lists (eqT : T → T → Bool) (mem : T → Prop) (items : List T) : Prop :=
  Distinct eqT items ∧ (∀ x ∈ items, mem x) ∧ ∀ x, mem x → ∃ y ∈ items, eqT x y = true

/-- The iterator gives exactly the elements `mem`, each once, and then answers `None` for ever; no call hangs. -/
def Right (eqT : T → T → Bool) (mem : T → Prop) (step : G → Option T → G → Prop) (g : G) : Prop :=
  ∃ items, Lists eqT mem items ∧ (∀ n, ∃ as, Answers step g as ∧ as.length = n) ∧
    ∀ as, Answers step g as → ∀ (n : Nat) (r : Option T), as[n]? = some r → r = items[n]?

/-- The iterator gives exactly the elements `mem`, each once, and then answers `None`. -/
def RightOnce (eqT : T → T → Bool) (mem : T → Prop) (step : G → Option T → G → Prop) (g : G) : Prop :=
  ∃ items, Lists eqT mem items ∧ (∀ n, n ≤ items.length + 1 → ∃ as, Answers step g as ∧ as.length = n) ∧
    ∀ as, Answers step g as → ∀ (n : Nat) (r : Option T), n ≤ items.length → as[n]? = some r → r = items[n]?

end Frozen.Spec
