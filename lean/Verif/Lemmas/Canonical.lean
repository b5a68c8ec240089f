import Verif.Lemmas.FzMaps
import Verif.Lemmas.ScalarMaps
import Verif.Model.Macros

/-!
# Helper lemmas on canonical forms (C54)
-/

namespace Frozen.Model

open Frozen.Spec

variable {T K V B : Type}

/-- Two inputs with the same last element in every class have the same sorted and deduplicated form. -/
theorem sortedAndDedupped_canonical {cmp : T → T → Ordering} (hc : LawfulCmp cmp) {es es' : List T}
    (h : ∀ x, (es.filter (fun y => cmp x y == .eq)).getLast? = (es'.filter (fun y => cmp x y == .eq)).getLast?) :
    sortedAndDedupped es cmp = sortedAndDedupped es' cmp := by
  have hp : (sortedAndDedupped es cmp).Perm (sortedAndDedupped es' cmp) := by
    refine (sortedAndDedupped_perm hc es).trans (List.Perm.trans ?_ (sortedAndDedupped_perm hc es').symm)
    have he := LawfulCmp'.eqLawful hc
    apply perm_of_filter_class he
    intro a
    rw [filter_keepLast (he.isClass a), filter_keepLast (he.isClass a)]
    exact congrArg Option.toList (h a)
  refine hp.eq_of_pairwise ?_ (sortedAndDedupped_strict hc es) (sortedAndDedupped_strict hc es')
  intro a b _ _ hab hba
  rw [hc.swap, hba] at hab
  cases hab

theorem filter_clean (em : Emitter) (unit : V) (p : B → Bool) (es : List (CollectionEntry B K V)) :
    ((em.cleanValues unit es).filter (fun e => p e.key)).getLast? =
      ((es.filter (fun e => p e.key)).getLast?).map
        (fun e => if em.hasValueType then e else { e with valueExpr := unit }) := by
  unfold Emitter.cleanValues
  cases em.hasValueType with
  | true => simp
  | false => simp [List.filter_map, Function.comp_def]

end Frozen.Model
