import Verif.Lemmas.Emit
import Verif.Model.Api

/-! # Lemmas: the type of the emitted map -/

namespace Frozen.Model

open Frozen Frozen.Spec

variable {B K V : Type}

theorem genHash_accepts [Target] {g : Generator} {sort : Sorter (CollectionEntry B K V)} {es : List (CollectionEntry B K V)}
    {hash : B → Nat} {hasher : HasherTok} {c : Emitted K V} (h : g.genHash sort es hash hasher = .ok c) (q : QueryCaps) :
    c.accepts q = (q.equivalent && hasher.hashes q) ∧ c.mapType ≠ .inlineSparse := by
  unfold Generator.genHash at h
  simp only [bind, Except.bind] at h
  split at h
  · cases h
  · split at h
    · cases h
    · split at h
      · cases h
      · split at h <;> cases h <;> exact ⟨rfl, by simp [Emitted.mapType]⟩

theorem genDense_type [Target] {g : Generator} {b : Build} {index : B → Nat} {es : List (CollectionEntry B K V)} {c : Emitted K V}
    (h : g.genDense b index es = .ok c) (q : QueryCaps) :
    c.accepts q = (q.sized && q.comparable && q.scalar) ∧ c.mapType = .inlineDense := by
  unfold Generator.genDense at h
  simp only [bind, Except.bind] at h
  split at h
  · cases h
  · split at h
    · cases h
    · split at h
      · cases h
      · cases h; exact ⟨rfl, rfl⟩

theorem genSparse_type [Target] {g : Generator} {b : Build} {index : B → Nat} {es : List (CollectionEntry B K V)} {c : Emitted K V}
    (h : g.genSparse b index es = .ok c) (q : QueryCaps) :
    c.accepts q = (q.sized && q.comparable && q.scalar) ∧ c.mapType = .inlineSparse := by
  unfold Generator.genSparse at h
  simp only [bind, Except.bind] at h
  iterate 7 (split at h; · cases h)
  cases h
  exact ⟨rfl, rfl⟩

theorem genEytzinger_accepts [Target] {g : Generator} {es : List (CollectionEntry B K V)} {c : Emitted K V}
    (h : g.genEytzinger es = .ok c) (q : QueryCaps) : c.accepts q = q.comparable := by
  unfold Generator.genEytzinger at h
  simp only [bind, Except.bind] at h
  split at h
  · cases h
  · cases h; rfl

theorem emitScalar_type [Target] {em : Emitter} {unit : V} {b : Build} {sort : Sorter (CollectionEntry B K V)}
    {cmpB : B → B → Ordering} {index : B → Nat} {entries : List (CollectionEntry B K V)} {item : Item (Emitted K V)}
    (hi : em.emitScalar unit b sort cmpB index entries = .ok (.ok item)) :
    ∃ r, analyzeScalarKeys b ((sortedAndDedupped (em.cleanValues unit entries) (fun x y => cmpB x.key y.key)).map
        (fun x => index x.key)) = .ok r ∧
      (item.ctor.mapType = .inlineSparse ↔ r = .sparseRange) ∧
      (r ≠ .general → ∀ q, item.ctor.accepts q = (q.sized && q.comparable && q.scalar)) ∧
      (r = .general → ∀ q, item.ctor.accepts q = (q.equivalent &&
        (decide ((sortedAndDedupped (em.cleanValues unit entries) (fun x y => cmpB x.key y.key)).length < 8) ||
          q.sized && q.scalar))) := by
  unfold Emitter.emitScalar at hi
  generalize sortedAndDedupped (em.cleanValues unit entries) (fun x y => cmpB x.key y.key) = S at *
  simp only [bind, Except.bind] at hi
  split at hi
  · cases hi
  · rename_i r hr
    refine ⟨r, hr, ?_⟩
    have h := Emitter.finish_inv hi
    cases r with
    | denseRange =>
      have h' := fun q => genDense_type h q
      refine ⟨?_, fun _ q => (h' q).1, fun h => by cases h⟩
      rw [(h' ⟨true, true, true, true, true, true, true, true⟩).2]
      simp
    | sparseRange =>
      have h' := fun q => genSparse_type h q
      refine ⟨?_, fun _ q => (h' q).1, fun h => by cases h⟩
      rw [(h' ⟨true, true, true, true, true, true, true, true⟩).2]
      simp
    | general =>
      simp only [Generator.genScalar] at h
      split at h
      · rename_i h8
        have h := (Except.ok.inj h).symm
        refine ⟨?_, fun h => absurd rfl h, fun _ q => ?_⟩
        · rw [h]; simp [Generator.genScan, Emitted.mapType]
        · rw [h]; simp [Generator.genScan, Emitted.accepts, h8]
      · rename_i h8
        have h' := fun q => genHash_accepts h q
        refine ⟨?_, fun h => absurd rfl h, fun _ q => ?_⟩
        · have := (h' ⟨true, true, true, true, true, true, true, true⟩).2
          simp [this]
        · rw [(h' q).1]; simp [HasherTok.hashes, h8]

theorem emitString_type [Target] {em : Emitter} {unit : V} {sort : Sorter (CollectionEntry Str K V)} {fsStr fsSlice : Nat → Str → Nat}
    {seed : Nat} {entries : List (CollectionEntry Str K V)} {item : Item (Emitted K V)}
    (hi : em.emitString unit sort fsStr fsSlice seed entries = .ok (.ok item)) :
    item.ctor.mapType ≠ .inlineSparse ∧
    ((usingCmp (em.cleanValues unit entries) (fun x y => strCmp x.key y.key)).length < 4 →
      ∀ q, item.ctor.accepts q = q.equivalent) ∧
    (¬ (usingCmp (em.cleanValues unit entries) (fun x y => strCmp x.key y.key)).length < 4 →
      (∀ q, item.ctor.accepts q = (q.equivalent && q.hash)) ∨ (∀ q, item.ctor.accepts q = (q.equivalent && q.len)) ∨
      (∀ q, item.ctor.accepts q = (q.equivalent && (q.isStr || q.sized && q.asRefStr)))) := by
  unfold Emitter.emitString at hi
  generalize usingCmp (em.cleanValues unit entries) (fun x y => strCmp x.key y.key) = S at *
  have h := Emitter.finish_inv hi
  unfold Generator.genStringOrScan at h
  split at h
  · rename_i h4
    have h := (Except.ok.inj h).symm
    refine ⟨?_, fun _ q => ?_, fun h => absurd h4 h⟩
    · rw [h]; simp [Generator.genScan, Emitted.mapType]
    · rw [h]; simp [Generator.genScan, Emitted.accepts]
  · rename_i h4
    simp only [bind, Except.bind] at h
    split at h
    · cases h
    · rename_i a ha
      cases a with
      | left range =>
        simp only [Generator.genString, bind, Except.bind] at h
        split at h
        · cases h
        · have h' := fun q => genHash_accepts h q
          exact ⟨(h' ⟨true, true, true, true, true, true, true, true⟩).2, fun h => absurd h h4,
            fun _ => .inr (.inr fun q => (h' q).1)⟩
      | right range =>
        simp only [Generator.genString, bind, Except.bind] at h
        split at h
        · cases h
        · have h' := fun q => genHash_accepts h q
          exact ⟨(h' ⟨true, true, true, true, true, true, true, true⟩).2, fun h => absurd h h4,
            fun _ => .inr (.inr fun q => (h' q).1)⟩
      | length =>
        have h' := fun q => genHash_accepts h q
        exact ⟨(h' ⟨true, true, true, true, true, true, true, true⟩).2, fun h => absurd h h4,
          fun _ => .inr (.inl fun q => (h' q).1)⟩
      | general =>
        have h' := fun q => genHash_accepts h q
        exact ⟨(h' ⟨true, true, true, true, true, true, true, true⟩).2, fun h => absurd h h4,
          fun _ => .inl fun q => (h' q).1⟩

/-- The indices of the entries left after deduplication. -/
theorem scalar_indices [Target] {em : Emitter} {unit : V} {cmpB : B → B → Ordering} {index : B → Nat} (hB : LawfulScalar cmpB index)
    (entries : List (CollectionEntry B K V)) {R : List Nat} (hR : R.Nodup)
    (hRm : ∀ c, c ∈ R ↔ ∃ e ∈ entries, index e.key = c) :
    ((sortedAndDedupped (em.cleanValues unit entries) (fun x y => cmpB x.key y.key)).map (fun x => index x.key)).Perm R := by
  have hB' := hB.lawfulCmp.comap (fun x : CollectionEntry B K V => x.key)
  have hp := sortedAndDedupped_perm hB' (em.cleanValues unit entries)
  have hs := sortedAndDedupped_strict hB' (em.cleanValues unit entries)
  rw [List.perm_ext_iff_of_nodup _ hR]
  · intro c
    rw [hRm]
    constructor
    · intro h
      obtain ⟨e, he, rfl⟩ := List.mem_map.1 h
      have he := (keepLast_sublist _ _).subset (hp.mem_iff.1 he)
      obtain ⟨e', he', h1, -⟩ := Emitter.cleanValues_mem he
      exact ⟨e', he', by rw [h1]⟩
    · rintro ⟨e, he, rfl⟩
      have : ∃ c ∈ em.cleanValues unit entries, c.key = e.key := by
        unfold Emitter.cleanValues
        split
        · exact ⟨e, he, rfl⟩
        · exact ⟨_, List.mem_map.2 ⟨e, he, rfl⟩, rfl⟩
      obtain ⟨c, hc, hce⟩ := this
      obtain ⟨e', h1, h2⟩ := exists_mem_keepLast (LawfulCmp'.eqLawful hB') hc
      refine List.mem_map.2 ⟨e', hp.mem_iff.2 h1, ?_⟩
      have := hB.eq_iff c.key e'.key
      simp only [h2] at this
      rw [← hce]
      exact (eq_of_beq this.symm).symm
  · refine (List.pairwise_map.2 (hs.imp ?_))
    intro a b hlt he
    have := hB.eq_iff a.key b.key
    rw [hlt] at this
    simp [he] at this

/-- The strings left after deduplication. -/
theorem string_keys {em : Emitter} {unit : V} (entries : List (CollectionEntry Str K V)) {R : List Str} (hR : R.Nodup)
    (hRm : ∀ v, v ∈ R ↔ ∃ e ∈ entries, e.key = v) :
    ((usingCmp (em.cleanValues unit entries) (fun x y => strCmp x.key y.key)).map (fun x => x.key)).Perm R := by
  have hB' := strCmp_lawful.comap (fun x : CollectionEntry Str K V => x.key)
  have hp := sortedAndDedupped_perm hB' (em.cleanValues unit entries)
  have hs := sortedAndDedupped_strict hB' (em.cleanValues unit entries)
  unfold usingCmp
  rw [List.perm_ext_iff_of_nodup _ hR]
  · intro c
    rw [hRm]
    constructor
    · intro h
      obtain ⟨e, he, rfl⟩ := List.mem_map.1 h
      have he := (keepLast_sublist _ _).subset (hp.mem_iff.1 he)
      obtain ⟨e', he', h1, -⟩ := Emitter.cleanValues_mem he
      exact ⟨e', he', by rw [h1]⟩
    · rintro ⟨e, he, rfl⟩
      have : ∃ c ∈ em.cleanValues unit entries, c.key = e.key := by
        unfold Emitter.cleanValues
        split
        · exact ⟨e, he, rfl⟩
        · exact ⟨_, List.mem_map.2 ⟨e, he, rfl⟩, rfl⟩
      obtain ⟨c, hc, hce⟩ := this
      obtain ⟨e', h1, h2⟩ := exists_mem_keepLast (LawfulCmp'.eqLawful hB') hc
      refine List.mem_map.2 ⟨e', hp.mem_iff.2 h1, ?_⟩
      rw [← hce]
      exact ((strCmp_eq_iff _ _).1 (eq_of_beq h2)).symm
  · refine (List.pairwise_map.2 (hs.imp ?_))
    intro a b hlt he
    have := (strCmp_eq_iff a.key b.key).2 he
    rw [this] at hlt
    cases hlt

end Frozen.Model
