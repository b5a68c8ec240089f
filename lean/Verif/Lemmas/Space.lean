import Verif.Lemmas.ConstEval
import Verif.Lemmas.Safety
import Verif.Lemmas.Expand
import Verif.Lemmas.Parsing
import Verif.Props.SpaceSpec
import Verif.Model.Tokens

/-! # Helper lemmas: space -/

namespace Frozen.Model

open Frozen Frozen.Spec Frozen.Props

variable {B K V : Type}

/-! ## Counting the tokens of templates -/

theorem tokens_append : ∀ xs ys : List Tk, tokens (xs ++ ys) = tokens xs + tokens ys
  | [], ys => by simp [tokens]
  | x :: xs, ys => by
    rw [List.cons_append, tokens, tokens, tokens_append xs ys]
    omega

theorem tokens_absPath : ∀ segs : List String, tokens (absPath segs) = 3 * segs.length
  | [] => rfl
  | s :: segs => by
    simp only [absPath, colon2, tokens_append, tokens, tokensIn, tokens_absPath segs, List.length_cons]
    omega

/-- The tokens of several pieces of code. -/
def tokensSum (xs : List (List Tk)) : Nat := (xs.map tokens).sum

theorem tokens_commaTerm : ∀ xs : List (List Tk), tokens (commaTerm xs) = tokensSum xs + xs.length
  | [] => rfl
  | x :: xs => by
    simp only [commaTerm, tokens_append, tokens, tokensIn, comma, tokens_commaTerm xs, tokensSum, List.map_cons, List.sum_cons, List.length_cons]
    omega

theorem tokens_commaSep : ∀ xs : List (List Tk), tokens (commaSep xs) ≤ tokensSum xs + xs.length
  | [] => Nat.le_refl _
  | [x] => by simp [commaSep, tokensSum]
  | x :: y :: xs => by
    have := tokens_commaSep (y :: xs)
    simp only [commaSep, tokens_append, tokens, tokensIn, comma, tokensSum, List.map_cons, List.sum_cons, List.length_cons] at this ⊢
    omega

theorem tokens_sigOf (path : List String) (args : List (List Tk)) :
    tokens (sigOf path args) ≤ 3 * path.length + tokensSum args + args.length + 4 := by
  have := tokens_commaSep args
  simp only [sigOf, angle, colon2, tokens_append, tokens, tokensIn, tokens_absPath]
  omega

theorem tokens_callOf (sig : List Tk) (f : String) (args : List Tk) : tokens (callOf sig f args) = tokens sig + tokens args + 4 := by
  simp only [callOf, colon2, tokens_append, tokens, tokensIn]
  omega

theorem tokens_mag (cm : Magnitude) : tokens cm.tokens = 6 := by cases cm <;> rfl

theorem tokens_fixedState : tokens fixedStatePath = 9 := tokens_absPath _

theorem tokens_rangeHasher (name : String) (a b : Tok) :
    tokens (sigOf ["frozen_collections", "hashers", name] [[numTk a], [numTk b], fixedStatePath]) ≤ 30 := by
  have hn : ∀ t : Tok, tokens [numTk t] = 1 := fun _ => rfl
  have := tokens_sigOf ["frozen_collections", "hashers", name] [[numTk a], [numTk b], fixedStatePath]
  simp only [tokensSum, List.map_cons, List.map_nil, List.sum_cons, List.sum_nil, List.length_cons, List.length_nil, hn, tokens_fixedState] at this
  omega

theorem tokens_hasherTy (h : HasherTok) : tokens h.tyTokens ≤ 30 := by
  cases h with
  | bridge =>
    simp only [HasherTok.tyTokens, tokens_append, tokens_absPath, angle, commaSep, tokens, tokensIn, tokens_fixedState, List.length_cons, List.length_nil]
    omega
  | scalar | length => simp only [HasherTok.tyTokens, tokens_absPath, List.length_cons, List.length_nil]; omega
  | left a b c | right a b c => exact tokens_rangeHasher _ _ _

theorem tokens_hasherCtor (h : HasherTok) : tokens h.ctorTokens ≤ 60 := by
  have hf : ∀ seed : Tok, tokens (fixedStateCtor seed) = 14 := by
    intro seed
    rw [fixedStateCtor, tokens_callOf, tokens_fixedState]
    rfl
  cases h with
  | bridge => simp only [HasherTok.ctorTokens, tokens_callOf, tokens_absPath, hf, List.length_cons, List.length_nil]; omega
  | scalar => simp only [HasherTok.ctorTokens, tokens_append, tokens_absPath, tokens, tokensIn, List.length_cons, List.length_nil]; omega
  | length => simp only [HasherTok.ctorTokens, tokens_absPath, List.length_cons, List.length_nil]; omega
  | left a b c =>
    have := tokens_hasherTy (.left a b c)
    simp only [HasherTok.ctorTokens, tokens_callOf, hf]
    omega
  | right a b c =>
    have := tokens_hasherTy (.right a b c)
    simp only [HasherTok.ctorTokens, tokens_callOf, hf]
    omega

theorem tokens_slots (slots : List (Tok × Tok)) : tokens (commaTerm (slots.map slotTokens)) = 17 * slots.length := by
  rw [tokens_commaTerm, List.length_map]
  have : ∀ xs : List (Tok × Tok), tokensSum (xs.map slotTokens) = 16 * xs.length := by
    intro xs
    induction xs with
    | nil => rfl
    | cons x xs ih =>
      have h : tokens (slotTokens x) = 16 := rfl
      unfold tokensSum at ih ⊢
      simp only [List.map_cons, List.sum_cons, ih, h, List.length_cons]
      omega
  rw [this]
  omega

theorem tokens_nums (xs : List Tok) : tokens (commaTerm (xs.map (fun x => [numTk x]))) = 2 * xs.length := by
  rw [tokens_commaTerm, List.length_map]
  have : ∀ xs : List Tok, tokensSum (xs.map (fun x => [numTk x])) = xs.length := by
    intro xs
    induction xs with
    | nil => rfl
    | cons x xs ih =>
      have h : tokens [numTk x] = 1 := rfl
      unfold tokensSum at ih ⊢
      simp only [List.map_cons, List.sum_cons, ih, h, List.length_cons]
      omega
  rw [this]
  omega

theorem tokens_mapSig (g : GenTypes) (e : Emitted K V) : tokens (e.mapSig g) ≤ tokens g.keyType + tokens g.value + 60 := by
  have hn : ∀ t : Tok, tokens [numTk t] = 1 := fun _ => rfl
  cases e with
  | sparse len numSlots cm es lookup min max =>
    have := tokens_sigOf ["frozen_collections", "inline_maps", "InlineSparseScalarLookupMap"] [g.keyType, g.value, [numTk len], [numTk numSlots], cm.tokens]
    simp only [tokensSum, List.map_cons, List.map_nil, List.sum_cons, List.sum_nil, List.length_cons, List.length_nil, hn, tokens_mag] at this
    simp only [Emitted.mapSig]
    omega
  | hash len numSlots cm slots es hasher =>
    have := tokens_sigOf ["frozen_collections", "inline_maps", "InlineHashMap"] [g.keyType, g.value, [numTk len], [numTk numSlots], cm.tokens, hasher.tyTokens]
    have := tokens_hasherTy hasher
    simp only [tokensSum, List.map_cons, List.map_nil, List.sum_cons, List.sum_nil, List.length_cons, List.length_nil, hn, tokens_mag] at *
    simp only [Emitted.mapSig]
    omega
  | hashNC len numSlots cm slots es hasher =>
    have := tokens_sigOf ["frozen_collections", "inline_maps", "InlineHashMapNoCollisions"] [g.keyType, g.value, [numTk len], [numTk numSlots], cm.tokens, hasher.tyTokens]
    have := tokens_hasherTy hasher
    simp only [tokensSum, List.map_cons, List.map_nil, List.sum_cons, List.sum_nil, List.length_cons, List.length_nil, hn, tokens_mag] at *
    simp only [Emitted.mapSig]
    omega
  | fz kind es =>
    have := tokens_sigOf ["frozen_collections", kind.mapName] [g.keyType, g.value]
    simp only [tokensSum, List.map_cons, List.map_nil, List.sum_cons, List.sum_nil, List.length_cons, List.length_nil] at this
    simp only [Emitted.mapSig]
    omega
  | scanRaw len es | scanNew len es =>
    have := tokens_sigOf ["frozen_collections", "inline_maps", "InlineScanMap"] [g.keyType, g.value, [numTk len]]
    simp only [tokensSum, List.map_cons, List.map_nil, List.sum_cons, List.sum_nil, List.length_cons, List.length_nil, hn] at this
    simp only [Emitted.mapSig]
    omega
  | eytzingerRaw len es | eytzingerNew len es =>
    have := tokens_sigOf ["frozen_collections", "inline_maps", "InlineEytzingerSearchMap"] [g.keyType, g.value, [numTk len]]
    simp only [tokensSum, List.map_cons, List.map_nil, List.sum_cons, List.sum_nil, List.length_cons, List.length_nil, hn] at this
    simp only [Emitted.mapSig]
    omega
  | dense len es min max =>
    have := tokens_sigOf ["frozen_collections", "inline_maps", "InlineDenseScalarLookupMap"] [g.keyType, g.value, [numTk len]]
    simp only [tokensSum, List.map_cons, List.map_nil, List.sum_cons, List.sum_nil, List.length_cons, List.length_nil, hn] at this
    simp only [Emitted.mapSig]
    omega

theorem tokens_setSig (g : GenTypes) (e : Emitted K V) : tokens (e.setSig g) ≤ tokens g.keyType + 60 := by
  have hn : ∀ t : Tok, tokens [numTk t] = 1 := fun _ => rfl
  cases e with
  | sparse len numSlots cm es lookup min max =>
    have := tokens_sigOf ["frozen_collections", "inline_sets", "InlineSparseScalarLookupSet"] [g.keyType, [numTk len], [numTk numSlots], cm.tokens]
    simp only [tokensSum, List.map_cons, List.map_nil, List.sum_cons, List.sum_nil, List.length_cons, List.length_nil, hn, tokens_mag] at this
    simp only [Emitted.setSig]
    omega
  | hash len numSlots cm slots es hasher =>
    have := tokens_sigOf ["frozen_collections", "inline_sets", "InlineHashSet"] [g.keyType, [numTk len], [numTk numSlots], cm.tokens, hasher.tyTokens]
    have := tokens_hasherTy hasher
    simp only [tokensSum, List.map_cons, List.map_nil, List.sum_cons, List.sum_nil, List.length_cons, List.length_nil, hn, tokens_mag] at *
    simp only [Emitted.setSig]
    omega
  | hashNC len numSlots cm slots es hasher =>
    have := tokens_sigOf ["frozen_collections", "inline_sets", "InlineHashSetNoCollisions"] [g.keyType, [numTk len], [numTk numSlots], cm.tokens, hasher.tyTokens]
    have := tokens_hasherTy hasher
    simp only [tokensSum, List.map_cons, List.map_nil, List.sum_cons, List.sum_nil, List.length_cons, List.length_nil, hn, tokens_mag] at *
    simp only [Emitted.setSig]
    omega
  | fz kind es =>
    have := tokens_sigOf ["frozen_collections", kind.setName] [g.keyType]
    simp only [tokensSum, List.map_cons, List.map_nil, List.sum_cons, List.sum_nil, List.length_cons, List.length_nil] at this
    simp only [Emitted.setSig]
    omega
  | scanRaw len es | scanNew len es =>
    have := tokens_sigOf ["frozen_collections", "inline_sets", "InlineScanSet"] [g.keyType, [numTk len]]
    simp only [tokensSum, List.map_cons, List.map_nil, List.sum_cons, List.sum_nil, List.length_cons, List.length_nil, hn] at this
    simp only [Emitted.setSig]
    omega
  | eytzingerRaw len es | eytzingerNew len es =>
    have := tokens_sigOf ["frozen_collections", "inline_sets", "InlineEytzingerSearchSet"] [g.keyType, [numTk len]]
    simp only [tokensSum, List.map_cons, List.map_nil, List.sum_cons, List.sum_nil, List.length_cons, List.length_nil, hn] at this
    simp only [Emitted.setSig]
    omega
  | dense len es min max =>
    have := tokens_sigOf ["frozen_collections", "inline_sets", "InlineDenseScalarLookupSet"] [g.keyType, [numTk len]]
    simp only [tokensSum, List.map_cons, List.map_nil, List.sum_cons, List.sum_nil, List.length_cons, List.length_nil, hn] at this
    simp only [Emitted.setSig]
    omega

theorem tokens_table (g : GenTypes) (t : ExprToks K V) (name : String) (len numSlots : Tok) (cm : Magnitude) (slots : List (List Tk))
    (es : List (K × V)) : tokens (tableTokens g t name len numSlots cm slots es) ≤
      tokens g.keyType + tokens g.value + tokens (commaTerm slots) + tokens (t.entries es) + 60 := by
  have := tokens_sigOf ["frozen_collections", "hash_tables", name]
    [[.group .paren (g.keyType ++ comma :: g.value)], [numTk len], [numTk numSlots], cm.tokens]
  simp only [tokensSum, List.map_cons, List.map_nil, List.sum_cons, List.sum_nil, List.length_cons, List.length_nil, tokens_mag, tokens, tokensIn,
    tokens_append, comma, numTk] at this
  unfold tableTokens
  rw [tokens_callOf]
  simp only [tokens, tokensIn, comma, numTk] at this ⊢
  omega

theorem tokens_mapCtor (g : GenTypes) (t : ExprToks K V) (e : Emitted K V) : tokens (e.mapCtor g t) ≤
    2 * tokens g.keyType + 2 * tokens g.value + 17 * sideArray e + tokens (t.entries e.entries) + 190 := by
  have hs := tokens_mapSig g e
  cases e with
  | hash len numSlots cm slots es hasher =>
    have h1 := tokens_table g t "InlineHashTable" len numSlots cm (slots.map slotTokens) es
    have h2 := tokens_hasherCtor hasher
    simp only [Emitted.mapCtor, tokens_callOf, tokens_append, tokens, tokensIn, comma, sideArray, Emitted.entries, tokens_slots] at *
    omega
  | hashNC len numSlots cm slots es hasher =>
    have h1 := tokens_table g t "InlineHashTableNoCollisions" len numSlots cm (slots.map (fun x => [numTk x])) es
    have h2 := tokens_hasherCtor hasher
    simp only [Emitted.mapCtor, tokens_callOf, tokens_append, tokens, tokensIn, comma, sideArray, Emitted.entries, tokens_nums] at *
    omega
  | sparse len numSlots cm es lookup min max =>
    simp only [Emitted.mapCtor, tokens_callOf, tokens_append, tokens, tokensIn, comma, numTk, sideArray, Emitted.entries] at *
    have := tokens_nums lookup
    simp only [numTk] at this
    omega
  | dense len es min max =>
    simp only [Emitted.mapCtor, tokens_callOf, tokens_append, tokens, tokensIn, comma, numTk, sideArray, Emitted.entries] at *
    omega
  | scanRaw len es | eytzingerRaw len es =>
    simp only [Emitted.mapCtor, tokens_callOf, tokens_append, tokens, tokensIn, sideArray, Emitted.entries] at *
    omega
  | scanNew len es | eytzingerNew len es | fz kind es =>
    simp only [Emitted.mapCtor, tokens_callOf, tokens_append, tokens, tokensIn, sideArray, Emitted.entries, vecMacro] at *
    omega

theorem tokens_ctor (g : GenTypes) (t : ExprToks K V) (e : Emitted K V) : tokens (e.ctorTokens g t) ≤
    3 * tokens g.keyType + 2 * tokens g.value + 17 * sideArray e + tokens (t.entries e.entries) + 260 := by
  have h1 := tokens_mapCtor g t e
  have h2 := tokens_setSig g e
  unfold Emitted.ctorTokens
  split
  · rw [tokens_callOf]; omega
  · omega

theorem tokens_sig (g : GenTypes) (e : Emitted K V) : tokens (e.sigTokens g) ≤ tokens g.keyType + tokens g.value + 60 := by
  have h1 := tokens_mapSig g e
  have h2 := tokens_setSig g e
  unfold Emitted.sigTokens
  split <;> omega

theorem tokens_decl {α : Type} (vis : Vis) (sig : List Tk) (ctor : α → List Tk) (item : Item α) :
    tokens (declTokens vis sig ctor item) ≤ 2 * tokens vis.tokens + tokens sig + tokens (ctor item.ctor) + 50 := by
  rcases item with ⟨s, _ | a, c⟩ | ⟨s, _ | a, c⟩ | ⟨_ | _, s, _ | a, c⟩ | c <;>
    simp only [declTokens, tokens_append, tokens, tokensIn, lazyLockPath, Item.ctor, if_true, Bool.false_eq_true, if_false] <;> omega

/-- The size of emitted code. -/
theorem tokens_emitted (vis : Vis) (g : GenTypes) (t : ExprToks K V) (item : Item (Emitted K V)) : tokens (emittedTokens vis g t item) ≤
    17 * sideArray item.ctor + tokens (t.entries item.ctor.entries) + 4 * tokens g.keyType + 3 * tokens g.value + 2 * tokens vis.tokens + 370 := by
  have h1 := tokens_decl vis (item.ctor.sigTokens g) (fun e => e.ctorTokens g t) item
  have h2 := tokens_sig g item.ctor
  have h3 := tokens_ctor g t item.ctor
  unfold emittedTokens
  omega

theorem tokens_entries (t : ExprToks K V) (es : List (K × V)) :
    tokens (t.entries es) = (es.map (fun e => tokens (t.key e.1) + tokens (t.value e.2) + 3)).sum := by
  unfold ExprToks.entries
  rw [tokens_commaTerm]
  induction es with
  | nil => rfl
  | cons e es ih =>
    have h : tokens (t.entry e) = tokens (t.key e.1) + tokens (t.value e.2) + 2 := by
      simp only [ExprToks.entry, tokens, tokensIn, tokens_append, comma]
      omega
    simp only [tokensSum, List.map_cons, List.sum_cons, List.length_cons, h] at ih ⊢
    omega

theorem sum_perm {α : Type} (f : α → Nat) {xs ys : List α} (h : xs.Perm ys) : (xs.map f).sum = (ys.map f).sum := by
  induction h with
  | nil => rfl
  | cons a _ ih => simp only [List.map_cons, List.sum_cons, ih]
  | swap a b l => simp only [List.map_cons, List.sum_cons]; omega
  | trans _ _ ih1 ih2 => rw [ih1, ih2]

theorem sum_subperm {α : Type} (f : α → Nat) {xs ys : List α} (h : xs.Subperm ys) : (xs.map f).sum ≤ (ys.map f).sum := by
  obtain ⟨l, hp, hs⟩ := h
  rw [← sum_perm f hp]
  clear hp
  induction hs with
  | slnil => exact Nat.le_refl _
  | cons a _ ih => simp only [List.map_cons, List.sum_cons]; omega
  | cons_cons a _ ih => simp only [List.map_cons, List.sum_cons]; omega

/-! ## What is left after deduplication -/

theorem sad_subperm {T : Type} (xs : List T) (cmp : T → T → Ordering) : (sortedAndDedupped xs cmp).Subperm xs := by
  have h : (sortedAndDedupped xs cmp).Sublist (xs.mergeSort (fun x y => cmp x y != .gt)) := by
    unfold sortedAndDedupped
    simp only []
    split
    · split
      · exact .refl _
      · exact retainNotIn_sublist _ _ _
    · exact .refl _
  exact h.subperm.trans (List.mergeSort_perm xs (fun x y => cmp x y != .gt)).subperm

theorem usingHash_subperm {T : Type} {find : HbFind} {xs S : List T} {hasher : T → Nat} {eq : T → T → Bool}
    (h : usingHash find xs hasher eq = .ok S) : S.Subperm xs := by
  unfold usingHash at h
  split at h
  · simp only [bind, Except.bind] at h
    split at h
    · cases h
    · split at h
      · cases h; exact .refl _
      · cases h; exact (retainNotIn_sublist _ _ _).subperm
  · cases h; exact .refl _

theorem subperm_map {α β : Type} (f : α → β) {xs ys : List α} (h : xs.Subperm ys) : (xs.map f).Subperm (ys.map f) := by
  obtain ⟨l, hp, hs⟩ := h
  exact ⟨l.map f, hp.map f, hs.map f⟩

/-! ## Hash tables -/

/-- A table has less than twenty slots per entry. -/
theorem table_space [Target] {T : Type} {cm : Magnitude} {sort : Sorter T} (hsort : SorterOk sort) {entries : List T} {hash : T → Nat} {t : HashTable T}
    (hn : entries.length < sizeLimit) (h : HashTable.new cm sort entries hash = .ok (.ok t)) :
    t.entries.Perm entries ∧ (entries ≠ [] → t.slots.length < 2 * (growthLimit entries.length * entries.length)) := by
  refine ⟨?_, fun hne => (HashTable.new_shape hsort h).2 hne hn⟩
  obtain ⟨h1, h2⟩ := HashTable.new_spec cm hsort entries hash hn
  by_cases hc : entries.length ≤ cm.maxCapacity
  · obtain ⟨t', ht', -, hp, -⟩ := h1 hc
    rw [h] at ht'
    cases ht'
    exact hp
  · rw [h2 (by omega)] at h
    cases h

theorem growthLimit_le (n : Nat) : growthLimit n * n ≤ 10 * n := by
  unfold growthLimit
  split
  · exact Nat.le_refl _
  · split <;> omega

theorem genHash_compact [Target] {g : Generator} {sort : Sorter (CollectionEntry B K V)} (hsort : SorterOk sort) {S : List (CollectionEntry B K V)}
    (hn : S.length < sizeLimit) (hne : S ≠ []) {hash : B → Nat} {hasher : HasherTok} {c : Emitted K V}
    (h : g.genHash sort S hash hasher = .ok c) :
    c.entries.Perm (S.map (fun e => e.toTokens)) ∧ sideArray c ≤ 20 * S.length := by
  unfold Generator.genHash at h
  simp only [bind, Except.bind] at h
  split at h
  · cases h
  · rename_i r hr
    split at h
    · cases h
    · rename_i t ht
      cases r with
      | error msg => cases ht
      | ok t' =>
        cases ht
        obtain ⟨hp, hs⟩ := table_space hsort hn hr
        have hs := hs hne
        have := growthLimit_le S.length
        split at h
        · cases h
        · split at h
          · cases h
            exact ⟨hp.map _, by rw [sideArray, List.length_map]; omega⟩
          · cases h
            exact ⟨hp.map _, by rw [sideArray, List.length_map]; omega⟩

theorem compact_of_perm {es : List (K × V)} {c : Emitted K V} {S : List (CollectionEntry B K V)} (h1 : (S.map (fun e => e.toTokens)).Subperm es)
    (h2 : c.entries.Perm (S.map (fun e => e.toTokens))) (h3 : sideArray c ≤ max 128 (20 * S.length)) : CompactCode es c :=
  ⟨h2.subperm.trans h1, by rw [h2.length_eq, List.length_map]; exact h3⟩

theorem Emitter.emitHash_compact [Target] {em : Emitter} {unit : V} {find : HbFind} {sort : Sorter (CollectionEntry B K V)} (hsort : SorterOk sort)
    {eqB : B → B → Bool} {fixedState : Nat → B → Nat} {seed : Nat} {entries : List (CollectionEntry B K V)} (hn : entries.length < sizeLimit)
    {item : Item (Emitted K V)} (hi : em.emitHash unit find sort eqB fixedState seed entries = .ok (.ok item)) :
    CompactCode (written em unit entries) item.ctor := by
  unfold Emitter.emitHash at hi
  simp only [bind, Except.bind] at hi
  split at hi
  · cases hi
  · rename_i S hS
    have hsp := usingHash_subperm hS
    have hle := hsp.length_le
    rw [Emitter.cleanValues_length] at hle
    have hsp := subperm_map (fun e => e.toTokens) hsp
    rw [Emitter.cleanValues_map] at hsp
    have hf := Emitter.finish_inv hi
    generalize item.ctor = out at hf ⊢
    by_cases h4 : S.length < 4
    · rw [if_pos h4] at hf
      cases hf
      exact compact_of_perm hsp (.refl _) (Nat.zero_le _)
    · rw [if_neg h4] at hf
      obtain ⟨h1, h2⟩ := genHash_compact hsort (by omega) (by rintro rfl; simp at h4) hf
      exact compact_of_perm hsp h1 (by omega)

theorem Emitter.emitOrdered_compact [Target] {em : Emitter} {unit : V} {cmpB : B → B → Ordering} {entries : List (CollectionEntry B K V)}
    {item : Item (Emitted K V)} (hi : em.emitOrdered unit cmpB entries = .ok (.ok item)) :
    CompactCode (written em unit entries) item.ctor := by
  have hsp := subperm_map (fun e => e.toTokens) (sad_subperm (em.cleanValues unit entries) (fun x y => cmpB x.key y.key))
  rw [Emitter.cleanValues_map] at hsp
  unfold Emitter.emitOrdered at hi
  have hf := Emitter.finish_inv hi
  generalize item.ctor = out at hf ⊢
  generalize sortedAndDedupped (em.cleanValues unit entries) (fun x y => cmpB x.key y.key) = S at *
  by_cases h4 : S.length < 4
  · rw [if_pos h4] at hf
    cases hf
    exact compact_of_perm hsp (.refl _) (Nat.zero_le _)
  · rw [if_neg h4] at hf
    simp only [Generator.genEytzinger, bind, Except.bind] at hf
    split at hf
    · cases hf
    · rename_i A hA
      cases hf
      exact compact_of_perm hsp ((eytzingerLayout_perm hA).map _) (Nat.zero_le _)

theorem Emitter.emitString_compact [Target] {em : Emitter} {unit : V} {sort : Sorter (CollectionEntry Str K V)} (hsort : SorterOk sort)
    {fsStr fsSlice : Nat → Str → Nat} {seed : Nat} {entries : List (CollectionEntry Str K V)} (hn : entries.length < sizeLimit)
    {item : Item (Emitted K V)} (hi : em.emitString unit sort fsStr fsSlice seed entries = .ok (.ok item)) :
    CompactCode (written em unit entries) item.ctor := by
  have hsp := sad_subperm (em.cleanValues unit entries) (fun x y => strCmp x.key y.key)
  have hle := hsp.length_le
  rw [Emitter.cleanValues_length] at hle
  replace hsp := subperm_map (fun e => e.toTokens) hsp
  rw [Emitter.cleanValues_map] at hsp
  unfold Emitter.emitString usingCmp at hi
  have hf := Emitter.finish_inv hi
  generalize item.ctor = out at hf ⊢
  generalize sortedAndDedupped (em.cleanValues unit entries) (fun x y => strCmp x.key y.key) = S at *
  simp only [Generator.genStringOrScan] at hf
  by_cases h4 : S.length < 4
  · rw [if_pos h4] at hf
    cases hf
    exact compact_of_perm hsp (.refl _) (Nat.zero_le _)
  · rw [if_neg h4] at hf
    simp only [bind, Except.bind] at hf
    have main : ∀ (f : Str → Nat) (hasher : HasherTok), (Generator.new S.length).genHash sort S f hasher = .ok out →
        CompactCode (written em unit entries) out := by
      intro f hasher h
      obtain ⟨h1, h2⟩ := genHash_compact hsort (by omega) (by rintro rfl; simp at h4) h
      exact compact_of_perm hsp h1 (by omega)
    split at hf
    · cases hf
    · rename_i a ha
      cases a with
      | general => exact main _ _ hf
      | length => exact main _ _ hf
      | left r =>
        simp only [Generator.genString, bind, Except.bind] at hf
        split at hf
        · cases hf
        · exact main _ _ hf
      | right r =>
        simp only [Generator.genString, bind, Except.bind] at hf
        split at hf
        · cases hf
        · exact main _ _ hf

/-! ## Sparse arrays -/

theorem idx_some {T : Type} {xs : List T} {i : Nat} {x : T} (h : idx xs i = .ok x) : xs[i]? = some x := by
  unfold idx at h
  split at h
  · rename_i y hy; cases h; exact hy
  · cases h

/-- Where the analysis decides for a sparse array, the array will be short. -/
theorem sparse_short [Target] (b : Build) {cmp : K → K → Ordering} {index : K → Nat} (h : LawfulScalar cmp index) {S : List (K × V)}
    (hs : S.Pairwise (fun a b => cmp a.1 b.1 = .lt)) {f l : K × V} (hf : S[0]? = some f) (hl : S[S.length - 1]? = some l)
    (ha : analyzeScalarKeys b (S.map (fun x => index x.1)) = .ok .sparseRange) {d n : Nat} (hd : subM b (index l.1) (index f.1) = .ok d)
    (hn : addM b d 1 = .ok n) : n ≤ max 128 (10 * S.length) := by
  have hne : S ≠ [] := by rintro rfl; cases hf
  obtain ⟨f', l', hf', hl', -, hall⟩ := ascending_ends h hs hne
  rw [hf] at hf'; cases hf'
  rw [hl] at hl'; cases hl'
  have hb : ∀ x ∈ S.map (fun x => index x.1), x ≤ usizeMax := by
    intro x hx
    obtain ⟨e, -, rfl⟩ := List.mem_map.1 hx
    exact h.bound _
  obtain ⟨mn, mx, h1, h2, h3, h4⟩ := scalarScan_spec (l := S.map (fun x => index x.1)) (by simpa using hne) hb
  have hfm : index f.1 ∈ S.map (fun x => index x.1) := List.mem_map.2 ⟨f, List.mem_of_getElem? hf, rfl⟩
  have hlm : index l.1 ∈ S.map (fun x => index x.1) := List.mem_map.2 ⟨l, List.mem_of_getElem? hl, rfl⟩
  have hends : ∀ x ∈ S.map (fun x => index x.1), index f.1 ≤ x ∧ x ≤ index l.1 := by
    intro x hx
    obtain ⟨e, he, rfl⟩ := List.mem_map.1 hx
    obtain ⟨i, hi⟩ := List.getElem?_of_mem he
    have := hall i e hi
    omega
  have e1 : mn = index f.1 := Nat.le_antisymm (h4 _ hfm).1 (hends _ h2).1
  have e2 : mx = index l.1 := Nat.le_antisymm (hends _ h3).2 (h4 _ hlm).2
  subst e1 e2
  unfold analyzeScalarKeys at ha
  have hpos : ¬ S.length = 0 := by simpa using hne
  simp only [h1, List.length_map, if_neg hpos, hd, hn, bind, Except.bind, Except.ok.injEq] at ha
  have := scalarDecide_sparse ha
  omega

theorem genSparse_compact [Target] {g : Generator} {b : Build} {cmp : B → B → Ordering} {index : B → Nat} (hB : LawfulScalar cmp index)
    {S : List (CollectionEntry B K V)} (hst : S.Pairwise (fun x y => cmp x.key y.key = .lt))
    (ha : analyzeScalarKeys b (S.map (fun x => index x.key)) = .ok .sparseRange) {c : Emitted K V} (h : g.genSparse b index S = .ok c) :
    c.entries = S.map (fun e => e.toTokens) ∧ sideArray c ≤ max 128 (10 * S.length) := by
  unfold Generator.genSparse at h
  simp only [bind, Except.bind] at h
  split at h
  · cases h
  · rename_i f hf
    split at h
    · cases h
    · rename_i p hp
      split at h
      · cases h
      · rename_i l hl
        split at h
        · cases h
        · rename_i d hd
          split at h
          · cases h
          · rename_i n hn
            split at h
            · cases h
            · rename_i zeros hz
              split at h
              · cases h
              · rename_i L hL
                cases h
                refine ⟨rfl, ?_⟩
                have hf' := idx_some hf
                have hpos : 1 ≤ S.length := by
                  rcases Nat.eq_zero_or_pos S.length with h0 | h0
                  · rw [List.length_eq_zero_iff.1 h0] at hf'; cases hf'
                  · exact h0
                rw [subM_ok b hpos] at hp
                cases hp
                have hl' := idx_some hl
                have := sparse_short b hB (S := S.map (fun e => (e.key, ()))) (f := (f.key, ())) (l := (l.key, ())) (d := d) (n := n)
                  (by rw [List.pairwise_map]; exact hst) (by rw [List.getElem?_map, hf']; rfl)
                  (by rw [List.length_map, List.getElem?_map, hl']; rfl) (by rw [List.map_map]; exact ha) hd hn
                rw [List.length_map] at this
                rw [sideArray, List.length_map, (genFillLookup_bound b S 0 zeros L hL).1]
                have hz' : zeros.length = n := by
                  rw [vecZeroed_eq] at hz
                  split at hz
                  · cases hz; exact List.length_replicate
                  · cases hz
                omega

theorem Emitter.emitScalar_compact [Target] {em : Emitter} {unit : V} {b : Build} {sort : Sorter (CollectionEntry B K V)} (hsort : SorterOk sort)
    {cmpB : B → B → Ordering} {index : B → Nat} (hB : LawfulScalar cmpB index) {entries : List (CollectionEntry B K V)}
    (hn : entries.length < sizeLimit) {item : Item (Emitted K V)} (hi : em.emitScalar unit b sort cmpB index entries = .ok (.ok item)) :
    CompactCode (written em unit entries) item.ctor := by
  have hsp := sad_subperm (em.cleanValues unit entries) (fun x y => cmpB x.key y.key)
  have hle := hsp.length_le
  rw [Emitter.cleanValues_length] at hle
  replace hsp := subperm_map (fun e => e.toTokens) hsp
  rw [Emitter.cleanValues_map] at hsp
  have hst := sortedAndDedupped_strict (hB.lawfulCmp.comap (fun x : CollectionEntry B K V => x.key)) (em.cleanValues unit entries)
  unfold Emitter.emitScalar at hi
  generalize sortedAndDedupped (em.cleanValues unit entries) (fun x y => cmpB x.key y.key) = S at *
  simp only [bind, Except.bind] at hi
  split at hi
  · cases hi
  · rename_i a ha
    have hf := Emitter.finish_inv hi
    generalize item.ctor = out at hf ⊢
    cases a with
    | denseRange =>
      have hf' : (Generator.new S.length).genDense b index S = .ok out := hf
      unfold Generator.genDense at hf'
      simp only [bind, Except.bind] at hf'
      repeat (split at hf'; · cases hf')
      cases hf'
      exact compact_of_perm hsp (.refl _) (Nat.zero_le _)
    | sparseRange =>
      obtain ⟨h1, h2⟩ := genSparse_compact hB hst ha hf
      exact compact_of_perm hsp (by rw [h1]) (by omega)
    | general =>
      simp only [Generator.genScalar] at hf
      by_cases h8 : S.length < 8
      · rw [if_pos h8] at hf
        cases hf
        exact compact_of_perm hsp (.refl _) (Nat.zero_le _)
      · rw [if_neg h8] at hf
        obtain ⟨h1, h2⟩ := genHash_compact hsort (by omega) (by rintro rfl; simp at h8) hf
        exact compact_of_perm hsp h1 (by omega)

/-! ## Macros -/

attribute [local instance] w64 in
theorem fzMacro_compact {env : MacroEnv K V} (hsc : ∀ t, SorterOk (env.sortScalar t)) (hst : SorterOk env.sortStr) {isMap : Bool}
    {form : MacroForm} {kind : MacroKind} {entries : List (MacroEntry K V)} (hset : isMap = false → ∀ e ∈ entries, e.value = none)
    (hn : entries.length < 2 ^ 60) {item : Item (Emitted K V)} (hi : fzMacro env isMap form kind entries = .ok (.ok item)) :
    CompactCode (macroWritten isMap env.unit entries) item.ctor := by
  have hm : ∀ c1 c2, ({ form.emitter isMap with constKeys := c1, constValues := c2 } : Emitter).hasValueType = isMap :=
    fun _ _ => form_hasValueType isMap form
  unfold fzMacro process at hi
  split at hi
  · rename_i hemp
    obtain rfl : entries = [] := List.isEmpty_iff.1 hemp
    unfold processEmpty at hi
    split at hi
    · cases hi
    · exact Emitter.emitHash_compact (hsc _) (by simp) hi
  · split at hi
    · cases hi
    · rename_i k _
      have key : ∀ (em : Emitter) (n : Nat) (kd : FzKind) (b : Bool),
          em.finish (exprEntries env.unit entries).length (fun g => .ok (if (exprEntries env.unit entries).length < n then
            g.genScanVec (exprEntries env.unit entries) else if b then g.genEytzingerVec (exprEntries env.unit entries) else
            g.genFz kd (exprEntries env.unit entries))) = .ok (.ok item) →
          CompactCode (macroWritten isMap env.unit entries) item.ctor := by
        intro em n kd b h
        have h' := Emitter.finish_inv h
        rw [← Except.ok.inj h', ← exprEntries_tokens hset]
        split
        · exact ⟨.refl _, Nat.zero_le _⟩
        · split
          · exact ⟨.refl _, Nat.zero_le _⟩
          · exact ⟨.refl _, Nat.zero_le _⟩
      cases k with
      | allLiteralScalars t =>
        change handleLiteralScalarKeys env (form.emitter isMap) t.ty entries = _ at hi
        unfold handleLiteralScalarKeys at hi
        split at hi
        · cases hi
        · rename_i es hl
          have hlaw := c15_lawful t.ty_mem
          rw [← ScalarTy.cmp_eq_scalarCmp] at hlaw
          rw [← literalEntries_written (hm true true) hl]
          exact Emitter.emitScalar_compact (hsc _) hlaw (by rw [literalEntries_length hl]; exact hn) hi
      | allLiteralStrings =>
        change handleLiteralStringKeys env (form.emitter isMap) entries = _ at hi
        unfold handleLiteralStringKeys at hi
        split at hi
        · cases hi
        · rename_i es hl
          rw [← literalEntries_written (hm true true) hl]
          exact Emitter.emitString_compact hst (by rw [literalEntries_length hl]; exact hn) hi
      | literalAndExpressionScalars => exact key _ 8 .scalar false hi
      | literalAndExpressionStrings => exact key _ 4 .string false hi
      | hashed => exact key _ 4 .hash false hi
      | ordered => exact key _ 4 .hash true hi

/-! ## Integer maps -/

theorem fillLookup_length [Target] (b : Build) {index : K → Nat} {min : Nat} : ∀ (S : List (K × V)) (i : Nat) (L L' : List Nat),
    fillLookup b index min S i L = .ok L' → L'.length = L.length
  | [], i, L, L', h => by cases h; rfl
  | e :: S, i, L, L', h => by
    simp only [fillLookup, bind, Except.bind] at h
    split at h
    · cases h
    · split at h
      · cases h
      · rename_i L1 hL1
        rw [fillLookup_length b S (i + 1) L1 L' h]
        unfold setIdx at hL1
        split at hL1
        · cases hL1; exact List.length_set
        · cases hL1

theorem sparse_cells [Target] {b : Build} {cmp : K → K → Ordering} {index : K → Nat} (hs : LawfulScalar cmp index) {S : List (K × V)}
    (hst : S.Pairwise (fun x y => cmp x.1 y.1 = .lt)) (ha : analyzeScalarKeys b (S.map (fun x => index x.1)) = .ok .sparseRange)
    {m : SparseMap K V} (h : SparseMap.fromSortedAndDedupped b index S = .ok m) :
    m.entries = S ∧ m.lookup.length ≤ max 128 (10 * S.length) := by
  unfold SparseMap.fromSortedAndDedupped at h
  simp only [bind, Except.bind] at h
  split at h
  · cases h
  · rename_i f hf
    split at h
    · cases h
    · rename_i p hp
      split at h
      · cases h
      · rename_i l hl
        split at h
        · cases h
        · rename_i d hd
          split at h
          · cases h
          · rename_i n hn
            split at h
            · cases h
            · rename_i zeros hz
              split at h
              · cases h
              · rename_i L hL
                cases h
                refine ⟨rfl, ?_⟩
                have hf' := idx_some hf
                have hpos : 1 ≤ S.length := by
                  rcases Nat.eq_zero_or_pos S.length with h0 | h0
                  · rw [List.length_eq_zero_iff.1 h0] at hf'; cases hf'
                  · exact h0
                rw [subM_ok b hpos] at hp
                cases hp
                have := sparse_short b hs hst hf' (idx_some hl) ha hd hn
                show L.length ≤ _
                rw [fillLookup_length b S 0 zeros L hL]
                have hz' : zeros.length = n := by
                  rw [vecZeroed_eq] at hz
                  split at hz
                  · cases hz; exact List.length_replicate
                  · cases hz
                omega

/-! ## The tokens of a call -/

variable {E T : Type}

theorem tokens_pos {ts : List Tk} (h : ts ≠ []) : 1 ≤ tokens ts := by
  cases ts with
  | nil => exact absurd rfl h
  | cons t ts =>
    rw [tokens]
    cases t <;> simp only [tokensIn] <;> omega

theorem tokensIn_punct {c : Char} {t : Tk} (h : IsPunct c t) : tokensIn t = 1 := by
  obtain ⟨j, rfl⟩ := h
  rfl

/-- The tokens of the expressions of an entry. -/
def entryTokens (R : SynPrinters E T) (e : ParsedEntry E) : Nat := tokens (R.expr e.key) + (e.value.map (fun v => tokens (R.expr v))).getD 0

theorem entry_tokens {S : SynParsers E T} {R : SynPrinters E T} (hp : PrintsShort S.expr R.expr) {isMap : Bool} {ts : List Tk} {e : ParsedEntry E}
    (h : EntryToks (ReadsAsIn S.expr) isMap ts e) : entryTokens R e ≤ tokens ts ∧ 1 ≤ tokens ts := by
  cases h with
  | map hk hc hv =>
    have h1 := hp _ _ hk
    have h2 := hp _ _ hv
    rw [tokens_append, tokens, tokensIn_punct hc]
    exact ⟨by simp only [entryTokens, Option.map_some, Option.getD_some]; omega, by omega⟩
  | set hk =>
    have h1 := hp _ _ hk
    exact ⟨by simp only [entryTokens, Option.map_none, Option.getD_none]; omega, tokens_pos hk.1⟩

theorem list_tokens {S : SynParsers E T} {R : SynPrinters E T} (hp : PrintsShort S.expr R.expr) {isMap : Bool} {ts : List Tk}
    {es : List (ParsedEntry E)} (h : ListToks (ReadsAsIn S.expr) isMap ts es) :
    es.length ≤ tokens ts ∧ (es.map (entryTokens R)).sum ≤ tokens ts := by
  induction h with
  | nil => exact ⟨Nat.zero_le _, Nat.zero_le _⟩
  | one he =>
    obtain ⟨h1, h2⟩ := entry_tokens hp he
    exact ⟨h2, by simpa using h1⟩
  | cons he hc _ ih =>
    obtain ⟨h1, h2⟩ := entry_tokens hp he
    rw [tokens_append, tokens, tokensIn_punct hc]
    simp only [List.length_cons, List.map_cons, List.sum_cons]
    omega

theorem vis_tokens {path : List Tk → Bool} {ts : List Tk} {v : Vis} (h : VisToks path ts v) : tokens v.tokens ≤ tokens ts := by
  cases h <;> simp only [Vis.tokens, tokens, tokensIn] <;> omega

theorem long_tokens {S : SynParsers E T} {R : SynPrinters E T} (hE : PrintsShort S.expr R.expr) (hT : PrintsShort S.ty R.ty) {isMap : Bool}
    {ts : List Tk} {name al : String} {kt : T} {vt : Option T} {es : List (ParsedEntry E)}
    (h : LongToks (ReadsAsIn S.expr) (ReadsAsIn S.ty) isMap ts name al kt vt es) :
    ∃ inner types, inner + types ≤ tokens ts ∧ es.length ≤ inner ∧ (es.map (entryTokens R)).sum ≤ inner ∧
      tokens (R.ty kt) + tokens ((vt.map R.ty).getD [.group .paren []]) ≤ types + 1 := by
  cases h with
  | @mk _ _ colon lt gt comma types inner _ _ _ h1 h2 h3 h4 ht h5 h6 hes =>
    obtain ⟨e1, e2⟩ := list_tokens hE hes
    refine ⟨tokens inner, tokens types, ?_, e1, e2, ?_⟩
    · simp only [tokens, tokensIn, tokens_append]
      omega
    · cases ht with
      | map hk hc hv =>
        have := hT _ _ hk
        have := hT _ _ hv
        rw [tokens_append, tokens, tokensIn_punct hc]
        simp only [Option.map_some, Option.getD_some]
        omega
      | set hk =>
        have := hT _ _ hk
        simp only [Option.map_none, Option.getD_none, tokens, tokensIn]
        omega

theorem call_tokens {S : SynParsers E T} {R : SynPrinters E T} (hE : PrintsShort S.expr R.expr) (hT : PrintsShort S.ty R.ty) {isMap : Bool}
    {ts : List Tk} {call : ParsedCall E T} (h : CallToks S.modPath (ReadsAsIn S.expr) (ReadsAsIn S.ty) isMap ts call) :
    ∃ inner types, inner + types ≤ tokens ts ∧ call.entries.length ≤ inner ∧ (call.entries.map (entryTokens R)).sum ≤ inner ∧
      4 * tokens (call.genTypes R isMap).keyType + 3 * tokens (call.genTypes R isMap).value + 2 * tokens call.vis.tokens ≤ 4 * types + 8 := by
  cases h with
  | @short v inner es hv hes =>
    obtain ⟨e1, e2⟩ := list_tokens hE hes
    refine ⟨tokens inner, tokens v, ?_, e1, e2, ?_⟩
    · simp only [tokens_append, tokens, tokensIn]
      omega
    · cases isMap <;> simp [ParsedCall.genTypes, GenTypes.value, ParsedCall.vis, Vis.tokens, tokens, tokensIn]
  | @let_ v ts name al kt vt es mu hv hl =>
    obtain ⟨inner, types, e1, e2, e3, e4⟩ := long_tokens hE hT hl
    refine ⟨inner, types, ?_, e2, e3, ?_⟩
    · rw [tokens_append, tokens, tokens_append]
      omega
    · simp only [ParsedCall.genTypes, GenTypes.value, ParsedCall.vis, Vis.tokens, tokens]
      omega
  | @static v ts vis name al kt vt es hv hl =>
    obtain ⟨inner, types, e1, e2, e3, e4⟩ := long_tokens hE hT hl
    have := vis_tokens hv
    refine ⟨inner, types + tokens v, ?_, e2, e3, ?_⟩
    · rw [tokens_append, tokens]
      omega
    · simp only [ParsedCall.genTypes, GenTypes.value, ParsedCall.vis]
      omega

theorem tokens_suffix (ts : List Tk) : tokens (suffixI32 ts) ≤ tokens ts := by
  unfold suffixI32
  split
  · exact Nat.le_refl _
  · simp only [tokens, tokensIn]; omega
  · exact Nat.le_refl _

theorem entry_code {shape : E → KeySyntax} (R : SynPrinters E T) (isMap b : Bool) (e : ParsedEntry E) :
    tokens (e.toMacro (codeMeaning shape R b)).keyValue +
      tokens (if isMap then (e.toMacro (codeMeaning shape R b)).value.getD [.group .paren []] else [.group .paren []]) ≤ entryTokens R e + 1 := by
  have h1 : tokens (e.toMacro (codeMeaning shape R b)).keyValue ≤ tokens (R.expr e.key) := by
    show tokens (if b then suffixI32 (R.expr e.key) else R.expr e.key) ≤ _
    split
    · exact tokens_suffix _
    · exact Nat.le_refl _
  have h2 : tokens (if isMap then (e.toMacro (codeMeaning shape R b)).value.getD [.group .paren []] else [.group .paren []]) ≤
      (e.value.map (fun v => tokens (R.expr v))).getD 0 + 1 := by
    split
    · show tokens ((e.value.map R.expr).getD [.group .paren []]) ≤ _
      cases e.value with
      | none => exact Nat.le_refl _
      | some v => simp
    · show 1 ≤ _
      omega
  unfold entryTokens
  omega

theorem tokens_error (msg : String) : tokens (compileError msg) = 9 := rfl

end Frozen.Model
