import Verif.Props.BuilderSpec
import Verif.Props.Emit
import Verif.Props.Unambiguous
import Verif.Lemmas.ConstEval
import Verif.Lemmas.Expand

/-! # Helper lemmas on the interface for build scripts -/

namespace Frozen.Model

open Frozen.Spec Frozen.Props

variable {B K V : Type}

/-! ## Configuration -/

theorem lastSet_append_one {α : Type} (f : BuilderCall → Option α) (cs : List BuilderCall) (c : BuilderCall) :
    lastSet f (cs ++ [c]) = (f c).or (lastSet f cs) := by
  induction cs with
  | nil =>
    show lastSet f [c] = _
    simp only [lastSet]
    cases f c <;> rfl
  | cons d cs ih =>
    show (match lastSet f (cs ++ [c]) with | some x => some x | none => f d) = _
    rw [ih]
    simp only [lastSet]
    cases f c <;> cases lastSet f cs <;> rfl

theorem lastSet_append {α : Type} (f : BuilderCall → Option α) (cs ds : List BuilderCall) :
    lastSet f (cs ++ ds) = (lastSet f ds).or (lastSet f cs) := by
  induction cs with
  | nil => simp [lastSet]
  | cons d cs ih =>
    show (match lastSet f (cs ++ ds) with | some x => some x | none => f d) = _
    rw [ih]
    simp only [lastSet]
    cases lastSet f ds <;> cases lastSet f cs <;> rfl

theorem build_append_one (key : List Tk) (cs : List BuilderCall) (c : BuilderCall) :
    CollectionEmitter.build key (cs ++ [c]) = (CollectionEmitter.build key cs).apply c := by
  simp [CollectionEmitter.build]

/-- The configuration that results from the calls. -/
theorem build_eq (key : List Tk) (calls : List BuilderCall) : CollectionEmitter.build key calls =
    { keyType := key
      valueType := askedValueType calls
      symbolName := askedName calls
      aliasName := askedAlias calls
      constKeys := askedConstKeys calls
      constValues := askedConstValues calls
      visibility := askedVis calls
      isMutable := askedMutable calls
      isStatic := askedStatic calls } := by
  induction calls using List.reverseRecOn with
  | nil => rfl
  | append_singleton cs c ih =>
    rw [build_append_one, ih]
    simp only [askedValueType, askedName, askedAlias, askedConstKeys, askedConstValues, askedVis, askedMutable, askedStatic, lastSet_append_one]
    cases c <;> simp [CollectionEmitter.apply]

theorem consistent_iff (key : List Tk) (calls : List BuilderCall) :
    ValidOptions (CollectionEmitter.build key calls).emitter ↔ Consistent calls := by
  rw [build_eq]
  unfold ValidOptions Consistent CollectionEmitter.emitter
  cases askedStatic calls <;> cases askedMutable calls <;> cases askedName calls <;> cases askedAlias calls <;> simp

theorem written_asked (key : List Tk) (calls : List BuilderCall) (entries : List (CollectionEntry B (List Tk) (List Tk))) :
    written (CollectionEmitter.build key calls).emitter unitExpr entries = askedEntries calls entries := by
  rw [build_eq]
  rfl

theorem shape_asked {key : List Tk} {calls : List BuilderCall} {α : Type} {item : Item α}
    (h : ItemShape (CollectionEmitter.build key calls).emitter item) : declKind item = askedDecl calls := by
  rw [build_eq] at h
  unfold CollectionEmitter.emitter at h
  unfold askedDecl
  cases item with
  | staticConst s a c =>
    obtain ⟨h1, h2, h3, h4, h5⟩ := h
    simp only at h1 h2 h3 h4 h5
    simp [h1, h2, h3, h4, h5, declKind]
  | staticLazy s a c =>
    obtain ⟨h1, h2, h4, h5⟩ := h
    simp only at h1 h2 h4 h5
    simp only [h4, h1, if_true, h5, declKind]
    rw [if_neg (by simpa using h2)]
  | letStmt mu s a c =>
    obtain ⟨h1, h2, h4, h5⟩ := h
    simp only at h1 h2 h4 h5
    simp [h1, h2, h4, h5, declKind]
  | expr c =>
    obtain ⟨h1, h2, h4, h5⟩ := h
    simp only at h1 h2 h4 h5
    simp [h2, declKind]

/-! ## Names -/

theorem validateIdent_iff {X : XidTables} (hX : XidOk X) (cs : List Char) : validateIdent X cs = .ok () ↔ IdentText X cs := by
  unfold validateIdent IdentText
  cases cs with
  | nil => simp
  | cons c rest =>
    simp only
    by_cases hd : (c :: rest).all Char.isDigit = true
    · rw [if_pos hd]
      simp only [reduceCtorEq, false_iff]
      rintro ⟨c', rest', e, h, -⟩
      obtain ⟨rfl, rfl⟩ := List.cons.inj e
      have hc : c.isDigit = true := by
        rw [List.all_cons, Bool.and_eq_true] at hd
        exact hd.1
      rcases h with rfl | h
      · simp [Char.isDigit] at hc
      · rw [hX.digit c hc] at h
        cases h
    · rw [if_neg hd]
      by_cases h : ((c == '_' || X.start c) && rest.all X.cont) = true
      · rw [if_pos h]
        simp only [true_iff]
        simp only [Bool.and_eq_true, Bool.or_eq_true, beq_iff_eq, List.all_eq_true] at h
        exact ⟨c, rest, rfl, h.1, h.2⟩
      · rw [if_neg h]
        simp only [reduceCtorEq, false_iff]
        rintro ⟨c', rest', e, h1, h2⟩
        obtain ⟨rfl, rfl⟩ := List.cons.inj e
        apply h
        simp only [Bool.and_eq_true, Bool.or_eq_true, beq_iff_eq, List.all_eq_true]
        exact ⟨h1, h2⟩

theorem validateIdent_panics (X : XidTables) (cs : List Char) : validateIdent X cs = .ok () ∨ ∃ msg, validateIdent X cs = .error (.panic msg) := by
  unfold validateIdent
  cases cs with
  | nil => exact .inr ⟨_, rfl⟩
  | cons c rest =>
    simp only
    split
    · exact .inr ⟨_, rfl⟩
    · split
      · exact .inl rfl
      · exact .inr ⟨_, rfl⟩

theorem identText_hash {X : XidTables} (hX : XidOk X) {rest : List Char} : ¬ IdentText X ('r' :: '#' :: rest) := by
  rintro ⟨c, rest', e, -, h⟩
  obtain ⟨rfl, rfl⟩ := List.cons.inj e
  have := h '#' (by simp)
  rw [hX.hash] at this
  cases this

theorem formatIdent_iff {X : XidTables} (hX : XidOk X) (s : String) :
    (IsName X s → formatIdent X s = .ok (.ident s)) ∧ (¬ IsName X s → ∃ msg, formatIdent X s = .error (.panic msg)) := by
  unfold formatIdent
  split
  · rename_i rest hs
    have hs' : s = "r#" ++ String.ofList rest := by
      apply String.toList_inj.1
      rw [hs]
      simp
    have hname : IsName X s ↔ IdentText X rest ∧ String.ofList rest ∉ notRaw := by
      constructor
      · rintro (h | ⟨t, h1, h2, h3⟩)
        · rw [hs] at h
          exact (identText_hash hX h).elim
        · have : rest = t.toList := by
            rw [h1] at hs
            simpa using hs.symm
          subst this
          refine ⟨h2, ?_⟩
          simpa [notRaw] using h3
      · rintro ⟨h1, h2⟩
        exact .inr ⟨String.ofList rest, hs', by simpa using h1, by simpa [notRaw] using h2⟩
    rw [hname]
    rcases validateIdent_panics X rest with h | ⟨msg, h⟩
    · rw [h]
      simp only [bind, Except.bind]
      have := (validateIdent_iff hX rest).1 h
      by_cases hr : String.ofList rest ∈ notRaw
      · rw [if_pos hr]
        exact ⟨fun h' => absurd hr h'.2, fun _ => ⟨_, rfl⟩⟩
      · rw [if_neg hr]
        exact ⟨fun _ => rfl, fun h' => absurd ⟨this, hr⟩ h'⟩
    · rw [h]
      refine ⟨fun h' => ?_, fun _ => ⟨_, rfl⟩⟩
      rw [(validateIdent_iff hX rest).2 h'.1] at h
      cases h
  · rename_i hne
    have hname : IsName X s ↔ IdentText X s.toList := by
      constructor
      · rintro (h | ⟨t, h1, -⟩)
        · exact h
        · refine (hne t.toList ?_).elim
          rw [h1]
          simp
      · exact .inl
    rw [hname]
    rcases validateIdent_panics X s.toList with h | ⟨msg, h⟩
    · rw [h]
      exact ⟨fun _ => rfl, fun h' => absurd ((validateIdent_iff hX _).1 h) h'⟩
    · rw [h]
      refine ⟨fun h' => ?_, fun _ => ⟨_, rfl⟩⟩
      rw [(validateIdent_iff hX _).2 h'] at h
      cases h

theorem formatAlias_iff {X : XidTables} (hX : XidOk X) (a : Option String) :
    ((∀ s, a = some s → IsName X s) → formatAlias X a = .ok ()) ∧
    (¬ (∀ s, a = some s → IsName X s) → ∃ msg, formatAlias X a = .error (.panic msg)) := by
  cases a with
  | none => exact ⟨fun _ => rfl, fun h => absurd (by intro s h; cases h) h⟩
  | some s =>
    simp only [formatAlias]
    refine ⟨fun h => ?_, fun h => ?_⟩
    · rw [(formatIdent_iff hX s).1 (h s rfl)]
      rfl
    · obtain ⟨msg, hm⟩ := (formatIdent_iff hX s).2 (fun hs => h (by rintro _ ⟨⟩; exact hs))
      exact ⟨msg, by rw [hm]; rfl⟩

theorem names_both {X : XidTables} (hX : XidOk X) (s : String) (a : Option String) :
    (IsName X s ∧ (∀ s, a = some s → IsName X s) → (do let _ ← formatIdent X s; formatAlias X a) = (.ok () : Res Unit)) ∧
    (¬ (IsName X s ∧ ∀ s, a = some s → IsName X s) → ∃ msg, (do let _ ← formatIdent X s; formatAlias X a) = (.error (.panic msg) : Res Unit)) := by
  constructor
  · rintro ⟨h1, h2⟩
    rw [(formatIdent_iff hX s).1 h1]
    exact (formatAlias_iff hX a).1 h2
  · intro h
    by_cases h1 : IsName X s
    · rw [(formatIdent_iff hX s).1 h1]
      exact (formatAlias_iff hX a).2 (fun h2 => h ⟨h1, h2⟩)
    · obtain ⟨msg, hm⟩ := (formatIdent_iff hX s).2 h1
      exact ⟨msg, by rw [hm]; rfl⟩

theorem formatNames_iff {X : XidTables} (hX : XidOk X) {key : List Tk} {calls : List BuilderCall} {α : Type} {item : Item α}
    (h : ItemShape (CollectionEmitter.build key calls).emitter item) :
    (GoodNames X calls → formatNames X item = .ok ()) ∧ (¬ GoodNames X calls → ∃ msg, formatNames X item = .error (.panic msg)) := by
  rw [build_eq] at h
  unfold CollectionEmitter.emitter at h
  have hgood : ∀ {s : String} {a : Option String}, askedName calls = some s → askedAlias calls = a →
      (GoodNames X calls ↔ IsName X s ∧ ∀ s, a = some s → IsName X s) := by
    intro s a h1 h2
    unfold GoodNames
    rw [h1, h2]
    simp
  cases item with
  | staticConst s a c =>
    obtain ⟨-, -, -, h4, h5⟩ := h
    rw [hgood h4 h5]
    exact names_both hX s a
  | staticLazy s a c =>
    obtain ⟨-, -, h4, h5⟩ := h
    rw [hgood h4 h5]
    exact names_both hX s a
  | letStmt mu s a c =>
    obtain ⟨-, -, h4, h5⟩ := h
    rw [hgood h4 h5]
    exact names_both hX s a
  | expr c =>
    obtain ⟨-, h2, -, h5⟩ := h
    simp only at h2 h5
    refine ⟨fun _ => rfl, fun hn => absurd ?_ hn⟩
    constructor
    · intro s hs
      rw [h2] at hs
      cases hs
    · intro s hs
      rw [h5] at hs
      cases hs

/-! ## Entries -/

theorem genEytzinger_raw [Target] {g : Generator} {es : List (CollectionEntry B K V)} {c : Emitted K V} (h : g.genEytzinger es = .ok c) : RawOf es c := by
  unfold Generator.genEytzinger at h
  simp only [bind, Except.bind] at h
  split at h
  · cases h
  · rename_i A hA
    cases h
    exact ⟨rfl, (eytzingerLayout_perm hA).map _⟩

theorem emitOrdered_entries [Target] {em : Emitter} {unit : V} {cmpB : B → B → Ordering} (hB : LawfulCmp cmpB) {entries : List (CollectionEntry B K V)}
    {item : Item (Emitted K V)} (hi : em.emitOrdered unit cmpB entries = .ok (.ok item)) : ∀ x ∈ item.ctor.entries, x ∈ written em unit entries := by
  unfold Emitter.emitOrdered at hi
  have h := Emitter.finish_inv hi
  refine (raw_entries hB ?_).2.1
  split at h
  · rw [← Except.ok.inj h]
    exact genScan_raw _ _
  · exact genEytzinger_raw h

theorem emitScalar_entries [Target] {em : Emitter} {unit : V} {b : Build} {sort : Sorter (CollectionEntry B K V)} (hsort : SorterOk sort)
    {cmpB : B → B → Ordering} {index : B → Nat} (hB : LawfulScalar cmpB index) {entries : List (CollectionEntry B K V)}
    (hn : entries.length < sizeLimit) {item : Item (Emitted K V)} (hi : em.emitScalar unit b sort cmpB index entries = .ok (.ok item)) :
    ∀ x ∈ item.ctor.entries, x ∈ written em unit entries := by
  unfold Emitter.emitScalar at hi
  simp only [bind, Except.bind] at hi
  split at hi
  · cases hi
  · refine (raw_entries hB.lawfulCmp (genScalar_raw hsort ?_ (Emitter.finish_inv hi))).2.1
    refine Nat.lt_of_le_of_lt (sortedAndDedupped_length_le (hB.lawfulCmp.comap _) _) ?_
    rw [Emitter.cleanValues_length]
    exact hn

theorem emitString_entries [Target] {em : Emitter} {unit : V} {sort : Sorter (CollectionEntry Str K V)} (hsort : SorterOk sort)
    {fsStr fsSlice : Nat → Str → Nat} {seed : Nat} {entries : List (CollectionEntry Str K V)} (hn : entries.length < sizeLimit)
    {item : Item (Emitted K V)} (hi : em.emitString unit sort fsStr fsSlice seed entries = .ok (.ok item)) :
    ∀ x ∈ item.ctor.entries, x ∈ written em unit entries := by
  unfold Emitter.emitString usingCmp at hi
  refine (raw_entries strCmp_lawful (genStringOrScan_raw hsort ?_ (Emitter.finish_inv hi))).2.1
  refine Nat.lt_of_le_of_lt (sortedAndDedupped_length_le (strCmp_lawful.comap _) _) ?_
  rw [Emitter.cleanValues_length]
  exact hn

theorem emitHash_entries [Target] {em : Emitter} {unit : V} {find : HbFind} (hfind : HbFindOk find) {sort : Sorter (CollectionEntry B K V)}
    (hsort : SorterOk sort) {eqB : B → B → Bool} (heB : LawfulEq' eqB) {fixedState : Nat → B → Nat} {seed : Nat}
    (hB : ∀ a b, eqB a b = true → fixedState seed a = fixedState seed b) {entries : List (CollectionEntry B K V)} (hn : entries.length < sizeLimit)
    {item : Item (Emitted K V)} (hi : em.emitHash unit find sort eqB fixedState seed entries = .ok (.ok item)) :
    ∀ x ∈ item.ctor.entries, x ∈ written em unit entries := by
  unfold Emitter.emitHash at hi
  rw [usingHash_eq_keepLast hfind (heB.comap (fun x : CollectionEntry B K V => x.key)) (fun a b h => hB _ _ h)] at hi
  simp only [bind, Except.bind] at hi
  have h := Emitter.finish_inv hi
  have hlen : (keepLast (fun x y : CollectionEntry B K V => eqB x.key y.key) (em.cleanValues unit entries)).length < sizeLimit := by
    refine Nat.lt_of_le_of_lt (keepLast_sublist _ _).length_le ?_
    rw [Emitter.cleanValues_length]
    exact hn
  have hraw : RawOf (keepLast (fun x y : CollectionEntry B K V => eqB x.key y.key) (em.cleanValues unit entries)) item.ctor := by
    split at h
    · rw [← Except.ok.inj h]
      exact genScan_raw _ _
    · exact genHash_raw hsort hlen h
  intro x hx
  obtain ⟨e, he, rfl⟩ := List.mem_map.1 (hraw.2.mem_iff.1 hx)
  unfold written
  rw [← Emitter.cleanValues_map]
  exact List.mem_map_of_mem ((keepLast_sublist _ _).subset he)

end Frozen.Model
