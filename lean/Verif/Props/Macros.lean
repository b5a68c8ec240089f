import Verif.Lemmas.Macros

/-! # C42: classification of the keys of a macro call -/

namespace Frozen.Props

open Frozen.Spec Frozen.Model

/-- **C42** Classification fails exactly on incompatible keys, whatever their order. -/
theorem c42_error_iff (kind : MacroKind) (keys : List KeySyntax) :
    (∃ msg, assessKeys kind keys = .error msg) ↔ Incompatible kind keys := by
  constructor
  · rintro ⟨msg, h⟩
    by_contra hc
    obtain ⟨s, hs, -⟩ := assess_facts hc
    rw [hs] at h
    cases h
  · exact assess_error

/-- The six classes exclude each other. -/
theorem classes_exclusive {kind : MacroKind} {keys : List KeySyntax} (hne : keys ≠ []) :
    (∀ t t', AllInts kind keys t → AllInts kind keys t' → t = t') ∧
    (∀ t, AllInts kind keys t → ¬ AllStrs kind keys ∧ ¬ MixedInts kind keys ∧ ¬ MixedStrs kind keys ∧ ¬ NoLits keys) ∧
    (AllStrs kind keys → ¬ MixedInts kind keys ∧ ¬ MixedStrs kind keys ∧ ¬ NoLits keys) ∧
    (MixedInts kind keys → ¬ MixedStrs kind keys ∧ ¬ (NoLits keys ∧ kind ≠ .scalar)) ∧
    (MixedStrs kind keys → ¬ (NoLits keys ∧ kind ≠ .string)) := by
  obtain ⟨k, hk⟩ := List.exists_mem_of_ne_nil keys hne
  refine ⟨?_, ?_, ?_, ?_, ?_⟩
  · rintro t t' ⟨-, h1, h2⟩ ⟨-, h3, h4⟩
    by_cases ht : t = .undecided
    · subst ht
      rcases h4 with h4 | ⟨k', hk', n, hn⟩
      · exact h4.symm
      · obtain ⟨n', s, h5, h6⟩ := h1 k' hk'
        cases h5.unique hn
        have : suffixName t' = "" := by rcases h6 with h6 | h6 <;> simpa [suffixName] using h6
        exact (suffixName_undecided.1 this).symm
    · rcases h2 with h2 | ⟨k', hk', n, hn⟩
      · exact absurd h2 ht
      · obtain ⟨n', s, h5, h6⟩ := h3 k' hk'
        cases h5.unique hn
        rcases h6 with h6 | h6
        · exact absurd (suffixName_undecided.1 h6) ht
        · exact suffixName_inj h6
  · rintro t ⟨h1, h2, h3⟩
    have hi : ∀ k ∈ keys, IsIntLit k := fun k hk => by obtain ⟨n, s, h, -⟩ := h2 k hk; exact ⟨n, s, h⟩
    refine ⟨fun h => IsStrLit.not_int (h.2 k hk) (hi k hk), fun h => ?_, fun h => ?_, fun h => ?_⟩
    · obtain ⟨-, -, ⟨k', hk', h4⟩, -⟩ := h
      exact h4 (hi k' hk')
    · obtain ⟨-, -, h4 | ⟨k', hk', h4⟩⟩ := h
      · exact h1 h4
      · exact IsStrLit.not_int h4 (hi k' hk')
    · obtain ⟨n, s, h4⟩ := hi k hk
      exact h k hk _ h4
  · rintro ⟨h1, h2⟩
    refine ⟨fun h => h.2.1 k hk (h2 k hk), fun h => ?_, fun h => ?_⟩
    · obtain ⟨-, ⟨k', hk', h4⟩, -⟩ := h
      exact h4 (h2 k' hk')
    · obtain ⟨v, hv⟩ := h2 k hk
      exact h k hk _ hv
  · rintro ⟨h0, h1, h2, h3⟩
    constructor
    · rintro ⟨-, -, h4 | ⟨k', hk', h4⟩⟩
      · rcases h3 with h3 | ⟨k', hk', h3⟩
        · rw [h3] at h4; cases h4
        · exact h0 (Or.inr (Or.inr (Or.inl ⟨h4, k', hk', h3⟩)))
      · exact h1 k' hk' h4
    · rintro ⟨h4, h5⟩
      rcases h3 with h3 | ⟨k', hk', n, s, h3⟩
      · exact h5 h3
      · exact h4 k' hk' _ h3
  · rintro ⟨h0, h1, h2⟩ ⟨h3, h4⟩
    rcases h2 with h2 | ⟨k', hk', v, h2⟩
    · exact h4 h2
    · exact h3 k' hk' _ h2

/-- **C42** Each outcome of the classification of a non-empty list of keys, characterised by the keys: all-literal classes are reported
only for literals of one category and type, and always for these. -/
theorem c42_classes {kind : MacroKind} {keys : List KeySyntax} (hne : keys ≠ []) :
    (∀ t, assessKeys kind keys = .ok (.allLiteralScalars t) ↔ AllInts kind keys t) ∧
    (assessKeys kind keys = .ok .allLiteralStrings ↔ AllStrs kind keys) ∧
    (assessKeys kind keys = .ok .literalAndExpressionScalars ↔ MixedInts kind keys) ∧
    (assessKeys kind keys = .ok .literalAndExpressionStrings ↔ MixedStrs kind keys) ∧
    (assessKeys kind keys = .ok .hashed ↔ kind = .hashed ∧ NoLits keys) ∧
    (assessKeys kind keys = .ok .ordered ↔ kind = .ordered ∧ NoLits keys) := by
  obtain ⟨x1, x2, x3, x4, x5⟩ := classes_exclusive (kind := kind) hne
  by_cases hc : Incompatible kind keys
  · obtain ⟨e, he⟩ := assess_error hc
    rw [he]
    refine ⟨fun t => ⟨(by intro h; cases h), fun h => absurd hc (AllInts.compatible h)⟩, ⟨(by intro h; cases h), fun h => absurd hc (AllStrs.compatible h)⟩,
      ⟨(by intro h; cases h), fun h => absurd hc h.1⟩, ⟨(by intro h; cases h), fun h => absurd hc h.1⟩,
      ⟨(by intro h; cases h), fun h => absurd hc (NoLits.compatible h.2)⟩, ⟨(by intro h; cases h), fun h => absurd hc (NoLits.compatible h.2)⟩⟩
  · rcases assess_cases hne hc with ⟨t, he, h⟩ | ⟨he, h⟩ | ⟨he, h⟩ | ⟨he, h⟩ | ⟨he, hk, h⟩ | ⟨he, hk, h⟩
    · rw [he]
      obtain ⟨y1, y2, y3, y4⟩ := x2 t h
      refine ⟨fun t' => ⟨(by intro h'; cases h'; exact h), fun h' => by rw [x1 t t' h h']⟩, ⟨(by intro h; cases h), fun h => absurd h y1⟩,
        ⟨(by intro h; cases h), fun h => absurd h y2⟩, ⟨(by intro h; cases h), fun h => absurd h y3⟩,
        ⟨(by intro h; cases h), fun h => absurd h.2 y4⟩, ⟨(by intro h; cases h), fun h => absurd h.2 y4⟩⟩
    · rw [he]
      obtain ⟨y1, y2, y3⟩ := x3 h
      refine ⟨fun t => ⟨(by intro h; cases h), fun h' => absurd h (x2 t h').1⟩, ⟨fun _ => h, fun _ => rfl⟩,
        ⟨(by intro h; cases h), fun h => absurd h y1⟩, ⟨(by intro h; cases h), fun h => absurd h y2⟩,
        ⟨(by intro h; cases h), fun h => absurd h.2 y3⟩, ⟨(by intro h; cases h), fun h => absurd h.2 y3⟩⟩
    · rw [he]
      obtain ⟨y1, y2⟩ := x4 h
      refine ⟨fun t => ⟨(by intro h; cases h), fun h' => absurd h (x2 t h').2.1⟩, ⟨(by intro h; cases h), fun h' => absurd h (x3 h').1⟩,
        ⟨fun _ => h, fun _ => rfl⟩, ⟨(by intro h; cases h), fun h => absurd h y1⟩,
        ⟨(by intro h; cases h), fun h => absurd ⟨h.2, (by rw [h.1]; decide)⟩ y2⟩, ⟨(by intro h; cases h), fun h => absurd ⟨h.2, (by rw [h.1]; decide)⟩ y2⟩⟩
    · rw [he]
      have y := x5 h
      refine ⟨fun t => ⟨(by intro h; cases h), fun h' => absurd h (x2 t h').2.2.1⟩, ⟨(by intro h; cases h), fun h' => absurd h (x3 h').2.1⟩,
        ⟨(by intro h; cases h), fun h' => absurd h (x4 h').1⟩, ⟨fun _ => h, fun _ => rfl⟩,
        ⟨(by intro h; cases h), fun h => absurd ⟨h.2, (by rw [h.1]; decide)⟩ y⟩, ⟨(by intro h; cases h), fun h => absurd ⟨h.2, (by rw [h.1]; decide)⟩ y⟩⟩
    · rw [he]
      subst hk
      refine ⟨fun t => ⟨(by intro h; cases h), fun h' => absurd h (x2 t h').2.2.2⟩, ⟨(by intro h; cases h), fun h' => absurd h (x3 h').2.2⟩,
        ⟨(by intro h; cases h), fun h' => absurd ⟨h, (by decide)⟩ (x4 h').2⟩, ⟨(by intro h; cases h), fun h' => absurd ⟨h, (by decide)⟩ (x5 h')⟩,
        ⟨fun _ => ⟨rfl, h⟩, fun _ => rfl⟩, ⟨(by intro h; cases h), fun h => by cases h.1⟩⟩
    · rw [he]
      subst hk
      refine ⟨fun t => ⟨(by intro h; cases h), fun h' => absurd h (x2 t h').2.2.2⟩, ⟨(by intro h; cases h), fun h' => absurd h (x3 h').2.2⟩,
        ⟨(by intro h; cases h), fun h' => absurd ⟨h, (by decide)⟩ (x4 h').2⟩, ⟨(by intro h; cases h), fun h' => absurd ⟨h, (by decide)⟩ (x5 h')⟩,
        ⟨(by intro h; cases h), fun h => by cases h.1⟩, ⟨fun _ => ⟨rfl, h⟩, fun _ => rfl⟩⟩

/-- Two suffixes, an unsuffixed literal before a suffixed one, and a mixture. -/
example : Incompatible .hashed [.lit (.int 1 "u8"), .lit (.int 2 ""), .lit (.int 3 "u16")] ∧
    AllInts .hashed [.lit (.int 1 ""), .group (.lit (.int 2 "u8")), .lit (.int 3 "")] .u8 ∧
    MixedStrs .ordered [.other, .lit (.str [65])] ∧
    assessKeys .hashed [.lit (.int 1 ""), .group (.lit (.int 2 "u8")), .lit (.int 3 "")] = .ok (.allLiteralScalars .u8) := by
  refine ⟨?_, ?_, ?_, by rfl⟩
  · exact Or.inr (Or.inr (Or.inr ⟨_, List.mem_cons_self, .lit (.int 3 "u16"), by simp, 1, "u8", 3, "u16", .lit _, .lit _,
      by decide, by decide, by decide⟩))
  · have h := (c42_classes (kind := .hashed) (keys := [.lit (.int 1 ""), .group (.lit (.int 2 "u8")), .lit (.int 3 "")])
      (by simp)).1 .u8
    exact h.1 rfl
  · have h := (c42_classes (kind := .ordered) (keys := [.other, .lit (.str [65])]) (by simp)).2.2.2.1
    exact h.1 rfl

end Frozen.Props
