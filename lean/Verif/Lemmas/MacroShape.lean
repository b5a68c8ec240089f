import Verif.Lemmas.ConstEval

/-! # The shape of the item that a macro call expands to -/

namespace Frozen.Model

attribute [local instance] w64

open Frozen.Spec Frozen.Props

variable {K V : Type}

theorem fzMacro_shape {env : MacroEnv K V} {isMap : Bool} {form : MacroForm} {kind : MacroKind} {entries : List (MacroEntry K V)}
    {item : Item (Emitted K V)} (hi : fzMacro env isMap form kind entries = .ok (.ok item)) :
    ∃ c1 c2, ItemShape { form.emitter isMap with constKeys := c1, constValues := c2 } item := by
  unfold fzMacro process at hi
  split at hi
  · unfold processEmpty at hi
    split at hi
    · cases hi
    · refine ⟨true, true, ?_⟩
      unfold Emitter.emitHash at hi
      simp only [bind, Except.bind] at hi
      split at hi
      · cases hi
      · exact finish_shape (form_valid isMap form true true) hi
  · split at hi
    · cases hi
    · rename_i k _
      by_cases hk : (∃ t, k = .allLiteralScalars t) ∨ k = .allLiteralStrings
      · refine ⟨true, true, ?_⟩
        rcases hk with ⟨t, rfl⟩ | rfl
        · change handleLiteralScalarKeys env (form.emitter isMap) t.ty entries = _ at hi
          unfold handleLiteralScalarKeys at hi
          split at hi
          · cases hi
          · unfold Emitter.emitScalar at hi
            simp only [bind, Except.bind] at hi
            split at hi
            · cases hi
            · exact finish_shape (form_valid isMap form true true) hi
        · change handleLiteralStringKeys env (form.emitter isMap) entries = _ at hi
          unfold handleLiteralStringKeys at hi
          split at hi
          · cases hi
          · exact finish_shape (form_valid isMap form true true) hi
      · exact ⟨false, false, computed_item (form_valid isMap form false false) hk hi⟩

end Frozen.Model
