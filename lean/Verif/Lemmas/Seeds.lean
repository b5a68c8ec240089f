import Verif.Lemmas.History
import Verif.Lemmas.Literals
import Verif.Props.Dedup
import Verif.Props.Slices
import Verif.Props.StrategySpec
import Verif.Lemmas.Strategy
import Verif.Model.Tokens

/-!
# Lemmas about the seeds in generated code
-/

namespace Frozen.Model

open Frozen.Spec Frozen.Props

variable {Q K V B : Type}

/-! ## The last literal of an expansion -/

mutual
/-- The last literal in a token. -/
def lastLitTk : Tk → Option String
  | .lit s => some s
  | .group _ ts => lastLit ts
  | .ident _ => none
  | .punct _ _ => none
/-- The last literal in code. -/
def lastLit : List Tk → Option String
  | [] => none
  | t :: ts => (lastLit ts).or (lastLitTk t)
end

theorem lastLit_append (a b : List Tk) : lastLit (a ++ b) = (lastLit b).or (lastLit a) := by
  induction a with
  | nil => simp [lastLit]
  | cons t a ih =>
    rw [List.cons_append, lastLit, ih, lastLit]
    cases lastLit b <;> simp

theorem lastLit_callOf {sig args : List Tk} {f s : String} (h : lastLit args = some s) : lastLit (callOf sig f args) = some s := by
  unfold callOf
  rw [lastLit_append]
  simp [lastLit, lastLitTk, h]

theorem lastLit_fixedState (seed : Tok) : lastLit (fixedStateCtor seed) = some (String.ofList seed) :=
  lastLit_callOf (by simp [lastLit, lastLitTk, numTk])

/-- The seed in a hasher. -/
def hasherSeed : HasherTok → Option Tok
  | .bridge seed => some seed
  | .left _ _ seed => some seed
  | .right _ _ seed => some seed
  | .scalar => none
  | .length => none

/-- The seed in a constructor call. -/
def ctorSeed : Emitted K V → Option Tok
  | .hash _ _ _ _ _ h => hasherSeed h
  | .hashNC _ _ _ _ _ h => hasherSeed h
  | _ => none

theorem lastLit_hasher {h : HasherTok} {seed : Tok} (hs : hasherSeed h = some seed) : lastLit h.ctorTokens = some (String.ofList seed) := by
  cases h with
  | bridge s => cases hs; exact lastLit_callOf (lastLit_fixedState _)
  | scalar => cases hs
  | length => cases hs
  | left a b s => cases hs; exact lastLit_callOf (lastLit_fixedState _)
  | right a b s => cases hs; exact lastLit_callOf (lastLit_fixedState _)

theorem lastLit_mapCtor {g : GenTypes} {t : ExprToks K V} {e : Emitted K V} {seed : Tok} (hs : ctorSeed e = some seed) :
    lastLit (e.mapCtor g t) = some (String.ofList seed) := by
  cases e with
  | hash len numSlots cm slots es hasher =>
    exact lastLit_callOf (by rw [lastLit_append, lastLit, lastLit_hasher hs]; rfl)
  | hashNC len numSlots cm slots es hasher =>
    exact lastLit_callOf (by rw [lastLit_append, lastLit, lastLit_hasher hs]; rfl)
  | _ => cases hs

theorem lastLit_ctor {g : GenTypes} {t : ExprToks K V} {e : Emitted K V} {seed : Tok} (hs : ctorSeed e = some seed) :
    lastLit (e.ctorTokens g t) = some (String.ofList seed) := by
  unfold Emitted.ctorTokens
  split
  · exact lastLit_callOf (lastLit_mapCtor hs)
  · exact lastLit_mapCtor hs

theorem lastLit_emitted {vis : Vis} {g : GenTypes} {t : ExprToks K V} {item : Item (Emitted K V)} {seed : Tok}
    (hs : ctorSeed item.ctor = some seed) : lastLit (emittedTokens vis g t item) = some (String.ofList seed) := by
  have h := lastLit_ctor (g := g) (t := t) hs
  cases item with
  | staticConst symbol al out =>
    cases al <;> simp only [emittedTokens, declTokens, lastLit_append, Item.ctor] at * <;> simp [lastLit, lastLitTk, h]
  | staticLazy symbol al out =>
    cases al <;> simp only [emittedTokens, declTokens, lastLit_append, Item.ctor] at * <;> simp [lastLit, lastLitTk, h]
  | letStmt mutable symbol al out =>
    cases al <;> simp only [emittedTokens, declTokens, lastLit_append, Item.ctor] at * <;> simp [lastLit, lastLitTk, h]
  | expr out => exact h

theorem seed_inj {s s' : Nat} (hs : s < 2 ^ 64) (hs' : s' < 2 ^ 64)
    (h : injectUnderscores (u64Tok s) = injectUnderscores (u64Tok s')) : s = s' := by
  have h1 := litU64_u64Tok_inject hs
  rw [h, litU64_u64Tok_inject hs'] at h1
  exact (Option.some.inj h1).symm

/-- Code for different seeds differs if the seed is part of it. -/
theorem emitted_seed_ne {vis : Vis} {g : GenTypes} {t : ExprToks K V} {item item' : Item (Emitted K V)} {s s' : Nat}
    (hs : s < 2 ^ 64) (hs' : s' < 2 ^ 64) (hne : s ≠ s') (h : ctorSeed item.ctor = some (injectUnderscores (u64Tok s)))
    (h' : ctorSeed item'.ctor = some (injectUnderscores (u64Tok s'))) : emittedTokens vis g t item ≠ emittedTokens vis g t item' := by
  intro he
  have h1 := lastLit_emitted (vis := vis) (g := g) (t := t) h
  rw [he, lastLit_emitted h'] at h1
  exact hne (seed_inj hs hs' (String.ofList_injective (Option.some.inj h1)).symm)

/-! ## Which constructors contain a seed -/

theorem genHash_seed [Target] {g : Generator} {sort : Sorter (CollectionEntry B K V)} {es : List (CollectionEntry B K V)}
    {hash : B → Nat} {hasher : HasherTok} {c : Emitted K V} (h : g.genHash sort es hash hasher = .ok c) : ctorSeed c = hasherSeed hasher := by
  unfold Generator.genHash at h
  simp only [bind, Except.bind] at h
  split at h
  · cases h
  · split at h
    · cases h
    · split at h
      · cases h
      · split at h
        · cases h; rfl
        · cases h; rfl

theorem genStringOrScan_length [Target] {g : Generator} {sort : Sorter (CollectionEntry Str K V)} {fsStr fsSlice : Nat → Str → Nat}
    {S : List (CollectionEntry Str K V)} (hnd : (S.map (fun x => x.key)).Nodup)
    (h : (S.map (fun x => x.key)).toFinset.card < 4 ∨ LengthsTell (S.map (fun x => x.key)).toFinset) (s s' : Nat) :
    g.genStringOrScan sort fsStr fsSlice s S = g.genStringOrScan sort fsStr fsSlice s' S := by
  have hc := List.toFinset_card_of_nodup hnd
  rw [List.length_map] at hc
  unfold Generator.genStringOrScan
  by_cases h4 : S.length < 4
  · rw [if_pos h4, if_pos h4]
  · rw [if_neg h4, if_neg h4]
    have hl := (lengthsTell_iff hnd).1 (h.resolve_left (by omega))
    have key : ∀ bh : Str → Nat, analyzeSliceKeys (fun x y : UInt8 => x == y) bh (S.map (fun x => x.key)) = .ok .length := by
      intro bh
      obtain ⟨r, h1, h2⟩ := c21_length_analysis (fun x y : UInt8 => x == y) bh (S.map (fun x => x.key))
      rw [h1, h2.2 hl]
    simp only [bind, Except.bind, key, Generator.genString]

theorem genStringOrScan_seed [Target] {g : Generator} {sort : Sorter (CollectionEntry Str K V)} {fsStr fsSlice : Nat → Str → Nat}
    {S : List (CollectionEntry Str K V)} (hnd : (S.map (fun x => x.key)).Nodup)
    (h4 : 4 ≤ (S.map (fun x => x.key)).toFinset.card) (hl : ¬ LengthsTell (S.map (fun x => x.key)).toFinset) {s : Nat}
    {c : Emitted K V} (h : g.genStringOrScan sort fsStr fsSlice s S = .ok c) : ctorSeed c = some (injectUnderscores (u64Tok s)) := by
  have hc := List.toFinset_card_of_nodup hnd
  rw [List.length_map] at hc
  unfold Generator.genStringOrScan at h
  rw [if_neg (by omega)] at h
  obtain ⟨r, h1, h2⟩ := c21_length_analysis (fun x y : UInt8 => x == y) (fsSlice s) (S.map (fun x => x.key))
  simp only [bind, Except.bind, h1] at h
  cases r with
  | general => exact genHash_seed h
  | length => exact absurd ((lengthsTell_iff hnd).2 (h2.1 rfl)) hl
  | left rg =>
    simp only [Generator.genString, bind, Except.bind] at h
    split at h
    · cases h
    · exact genHash_seed h
  | right rg =>
    simp only [Generator.genString, bind, Except.bind] at h
    split at h
    · cases h
    · exact genHash_seed h

end Frozen.Model
