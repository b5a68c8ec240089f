import Verif.Lemmas.Api
import Verif.Model.Traits

/-! # Lemmas: the types that are emitted for literal keys -/

namespace Frozen.Model

open Frozen Frozen.Spec

variable {B K V : Type}

/-- The types used when all keys are literals. -/
def MapType.forLiterals : MapType → Bool
  | .inlineScan | .inlineDense | .inlineSparse | .inlineHash | .inlineHashNoCollisions => true
  | _ => false

theorem genHash_forLiterals [Target] {g : Generator} {sort : Sorter (CollectionEntry B K V)} {es : List (CollectionEntry B K V)}
    {hash : B → Nat} {hasher : HasherTok} {c : Emitted K V} (h : g.genHash sort es hash hasher = .ok c) :
    c.mapType.forLiterals = true := by
  unfold Generator.genHash at h
  simp only [bind, Except.bind] at h
  split at h
  · cases h
  · split at h
    · cases h
    · split at h
      · cases h
      · split at h <;> cases h <;> rfl

theorem emitScalar_forLiterals [Target] {em : Emitter} {unit : V} {b : Build} {sort : Sorter (CollectionEntry B K V)}
    {cmpB : B → B → Ordering} {index : B → Nat} {entries : List (CollectionEntry B K V)} {item : Item (Emitted K V)}
    (hi : em.emitScalar unit b sort cmpB index entries = .ok (.ok item)) : item.ctor.mapType.forLiterals = true := by
  unfold Emitter.emitScalar at hi
  generalize sortedAndDedupped (em.cleanValues unit entries) (fun x y => cmpB x.key y.key) = S at *
  simp only [bind, Except.bind] at hi
  split at hi
  · cases hi
  · rename_i r hr
    have h := Emitter.finish_inv hi
    cases r with
    | denseRange => rw [(genDense_type h ⟨true, true, true, true, true, true, true, true⟩).2]; rfl
    | sparseRange => rw [(genSparse_type h ⟨true, true, true, true, true, true, true, true⟩).2]; rfl
    | general =>
      simp only [Generator.genScalar] at h
      split at h
      · rw [← Except.ok.inj h]; rfl
      · exact genHash_forLiterals h

theorem emitString_forLiterals [Target] {em : Emitter} {unit : V} {sort : Sorter (CollectionEntry Str K V)} {fsStr fsSlice : Nat → Str → Nat}
    {seed : Nat} {entries : List (CollectionEntry Str K V)} {item : Item (Emitted K V)}
    (hi : em.emitString unit sort fsStr fsSlice seed entries = .ok (.ok item)) : item.ctor.mapType.forLiterals = true := by
  unfold Emitter.emitString at hi
  generalize usingCmp (em.cleanValues unit entries) (fun x y => strCmp x.key y.key) = S at *
  have h := Emitter.finish_inv hi
  unfold Generator.genStringOrScan at h
  split at h
  · rw [← Except.ok.inj h]; rfl
  · simp only [bind, Except.bind] at h
    split at h
    · cases h
    · rename_i a ha
      cases a with
      | left range =>
        simp only [Generator.genString, bind, Except.bind] at h
        split at h
        · cases h
        · exact genHash_forLiterals h
      | right range =>
        simp only [Generator.genString, bind, Except.bind] at h
        split at h
        · cases h
        · exact genHash_forLiterals h
      | length => exact genHash_forLiterals h
      | general => exact genHash_forLiterals h

end Frozen.Model
