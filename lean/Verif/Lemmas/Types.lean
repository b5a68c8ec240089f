import Verif.Props.TypeSpec

/-! # Inversion of the rules for types -/

namespace Frozen.Props
open Spec Model

variable {A : Judgement → Nat → Prop}

theorem holds_param (j : Judgement) (n : Nat) : Holds A j (.param n) ↔ A j n :=
  ⟨fun h => by cases h; assumption, .param⟩

theorem holds_prim (j : Judgement) : Holds A j .prim ↔ True := ⟨fun _ => trivial, fun _ => .prim⟩

theorem holds_pair (j : Judgement) (a b : Ty) : Holds A j (.pair a b) ↔ Holds A j a ∧ Holds A j b :=
  ⟨fun h => by cases h; exact ⟨‹_›, ‹_›⟩, fun h => .pair h.1 h.2⟩

theorem holds_array (j : Judgement) (t : Ty) : Holds A j (.array t) ↔ Holds A j t :=
  ⟨fun h => by cases h; assumption, .array⟩

theorem holds_slice (j : Judgement) (t : Ty) : Holds A j (.slice t) ↔ Holds A j t :=
  ⟨fun h => by cases h; assumption, .slice⟩

theorem holds_boxed (j : Judgement) (t : Ty) : Holds A j (.boxed t) ↔ Holds A j t :=
  ⟨fun h => by cases h; assumption, .boxed⟩

theorem holds_phantom (j : Judgement) (t : Ty) : Holds A j (.phantom t) ↔ Holds A j t :=
  ⟨fun h => by cases h; assumption, .phantom⟩

theorem holds_shared_send (l t : Ty) : Holds A .send (.shared l t) ↔ Holds A .sync t :=
  ⟨fun h => by cases h <;> first | assumption | contradiction, .sharedSend⟩

theorem holds_shared_sync (l t : Ty) : Holds A .sync (.shared l t) ↔ Holds A .sync t :=
  ⟨fun h => by cases h <;> first | assumption | contradiction, .sharedSync⟩

theorem holds_shared_static (l t : Ty) : Holds A .static (.shared l t) ↔ Holds A .static l ∧ Holds A .static t :=
  ⟨fun h => by cases h; exact ⟨‹_›, ‹_›⟩, fun h => .sharedOther (by decide) (by decide) h.1 h.2⟩

theorem holds_shared_sub (l t : Ty) : Holds A .sub (.shared l t) ↔ Holds A .sub l ∧ Holds A .sub t :=
  ⟨fun h => by cases h; exact ⟨‹_›, ‹_›⟩, fun h => .sharedOther (by decide) (by decide) h.1 h.2⟩

theorem holds_shared_sup (l t : Ty) : Holds A .sup (.shared l t) ↔ Holds A .sup l ∧ Holds A .sup t :=
  ⟨fun h => by cases h; exact ⟨‹_›, ‹_›⟩, fun h => .sharedOther (by decide) (by decide) h.1 h.2⟩

theorem holds_exclusive_send (l t : Ty) : Holds A .send (.exclusive l t) ↔ Holds A .send t :=
  ⟨fun h => by cases h with | exclusiveSend h => exact h | exclusiveSub h => simp at h, .exclusiveSend⟩

theorem holds_exclusive_sync (l t : Ty) : Holds A .sync (.exclusive l t) ↔ Holds A .sync t :=
  ⟨fun h => by cases h with | exclusiveSync h => exact h | exclusiveSub h => simp at h, .exclusiveSync⟩

theorem holds_exclusive_static (l t : Ty) : Holds A .static (.exclusive l t) ↔ Holds A .static l ∧ Holds A .static t :=
  ⟨fun h => by cases h with | exclusiveStatic h h' => exact ⟨h, h'⟩ | exclusiveSub h => simp at h, fun h => .exclusiveStatic h.1 h.2⟩

theorem holds_exclusive_sub (l t : Ty) : Holds A .sub (.exclusive l t) ↔ Holds A .sub l ∧ Holds A .sub t ∧ Holds A .sup t :=
  ⟨fun h => by cases h; exact ⟨‹_›, ‹_›, ‹_›⟩, fun h => .exclusiveSub (.inl rfl) h.1 h.2.1 h.2.2⟩

theorem holds_exclusive_sup (l t : Ty) : Holds A .sup (.exclusive l t) ↔ Holds A .sup l ∧ Holds A .sub t ∧ Holds A .sup t :=
  ⟨fun h => by cases h; exact ⟨‹_›, ‹_›, ‹_›⟩, fun h => .exclusiveSub (.inr rfl) h.1 h.2.1 h.2.2⟩

theorem holds_lazy_sync (t : Ty) : Holds A .sync (.lazyLock t) ↔ Holds A .send t ∧ Holds A .sync t :=
  ⟨fun h => by
    cases h with
    | lazySync h h' => exact ⟨h, h'⟩
    | lazyOther h => simp at h
    | lazySub h => simp at h,
   fun h => .lazySync h.1 h.2⟩

theorem holds_lazy_static (t : Ty) : Holds A .static (.lazyLock t) ↔ Holds A .static t :=
  ⟨fun h => by
    cases h with
    | lazyOther _ h => exact h
    | lazySub h => simp at h,
   fun h => .lazyOther (.inr rfl) h⟩

theorem holds_assoc (j : Judgement) (hj : j ≠ .sub) (hj' : j ≠ .sup) (l s t : Ty) :
    Holds A j (.assocIter l s t) ↔ ∃ u : Ty, s.iteration l = some (t, u) ∧ Holds A j u := by
  refine ⟨fun h => ?_, fun ⟨u, hu, h⟩ => .assoc hj hj' hu h⟩
  cases h with
  | assoc _ _ hu h => exact ⟨_, hu, h⟩
  | assocSub h => rcases h with h | h <;> contradiction

theorem holds_assoc_sub (j : Judgement) (hj : j = .sub ∨ j = .sup) (l s t : Ty) :
    Holds A j (.assocIter l s t) ↔
      (Holds A .sub l ∧ Holds A .sup l) ∧ (Holds A .sub s ∧ Holds A .sup s) ∧ (Holds A .sub t ∧ Holds A .sup t) := by
  refine ⟨fun h => ?_, fun ⟨h1, h2, h3⟩ => .assocSub hj h1.1 h1.2 h2.1 h2.2 h3.1 h3.2⟩
  cases h with
  | assoc h h' => rcases hj with hj | hj <;> contradiction
  | assocSub _ a b c d e f => exact ⟨⟨a, b⟩, ⟨c, d⟩, ⟨e, f⟩⟩

theorem holds_adt (j : Judgement) (c : TyName) (args : List Ty) :
    Holds A j (.adt c args) ↔ ∀ f ∈ c.fields, Holds A j (f.subst args) :=
  ⟨fun h => by cases h; assumption, .adt⟩

end Frozen.Props
