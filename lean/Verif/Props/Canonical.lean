import Verif.Lemmas.Canonical
import Verif.Props.Maps

/-!
# Property theorems: ordered, scalar and string collections do not depend on the order of the input (C54)
-/

namespace Frozen.Props

open Frozen.Spec Frozen.Model

variable {T K V B : Type}

/-- The last element of the list for which `p` holds. -/
def lastWith (p : T → Bool) (xs : List T) : Option T := xs.foldl (fun acc x => if p x then some x else acc) none

/-- For every key the two inputs give the same last entry: they say the same, in a possibly different order and with
possibly different overridden entries. -/
def SameInput (cmp : K → K → Ordering) (es es' : List (K × V)) : Prop :=
  ∀ k, lastWith (fun e => cmp k e.1 == .eq) es = lastWith (fun e => cmp k e.1 == .eq) es'

/-- The same for the entries given to an emitter, compared by the keys that the emitter sees. -/
def SameEmitInput (cmp : B → B → Ordering) (es es' : List (CollectionEntry B K V)) : Prop :=
  ∀ b, lastWith (fun e => cmp b e.key == .eq) es = lastWith (fun e => cmp b e.key == .eq) es'

theorem lastWith_eq (p : T → Bool) (xs : List T) : lastWith p xs = (xs.filter p).getLast? := by
  have := lastMatch_eq_getLast? (fun (_ : Unit) k => p k) (xs.map (fun x => (x, ()))) ()
  unfold lastMatch at this
  unfold lastWith
  suffices h : ∀ (xs : List T) (acc : Option T), ((xs.map (fun x => (x, ()))).foldl
      (fun acc e => if p e.1 then some e else acc) (acc.map (fun x => (x, ())))) =
      (xs.foldl (fun acc x => if p x then some x else acc) acc).map (fun x => (x, ())) by
    have h' := h xs none
    simp only [Option.map_none] at h'
    rw [this] at h'
    have e := congrArg (Option.map Prod.fst) h'
    simpa [List.filter_map, Function.comp_def] using e.symm
  intro xs
  induction xs with
  | nil => intro acc; rfl
  | cons x xs ih =>
    intro acc
    simp only [List.map_cons, List.foldl_cons]
    rw [← ih]
    split <;> rfl

theorem SameInput.sorted {cmp : K → K → Ordering} (hc : LawfulCmp cmp) {es es' : List (K × V)}
    (h : SameInput cmp es es') :
    sortedAndDedupped es (fun x y => cmp x.1 y.1) = sortedAndDedupped es' (fun x y => cmp x.1 y.1) := by
  apply sortedAndDedupped_canonical hc.entry
  intro x
  have := h x.1
  rwa [lastWith_eq, lastWith_eq] at this

theorem SameEmitInput.sorted {cmp : B → B → Ordering} (hc : LawfulCmp cmp) {es es' : List (CollectionEntry B K V)}
    (h : SameEmitInput cmp es es') (em : Emitter) (unit : V) :
    sortedAndDedupped (em.cleanValues unit es) (fun x y => cmp x.key y.key) =
      sortedAndDedupped (em.cleanValues unit es') (fun x y => cmp x.key y.key) := by
  have hc' : LawfulCmp (fun x y : CollectionEntry B K V => cmp x.key y.key) :=
    ⟨fun a => hc.refl _, fun a b => hc.swap _ _, fun a b c => hc.trans _ _ _⟩
  apply sortedAndDedupped_canonical hc'
  intro x
  have := h x.key
  rw [lastWith_eq, lastWith_eq] at this
  rw [filter_clean em unit (fun b => cmp x.key b == .eq), filter_clean em unit (fun b => cmp x.key b == .eq), this]

/-- **C54** (ordered and scalar maps).  Two inputs that say the same give *identical* maps: the same representation, hence the
same iteration order, serialized form and debug output, whatever the order of the input. -/
theorem c54_maps [Target] {es es' : List (K × V)} {cmp : K → K → Ordering} (hc : LawfulCmp cmp) (h : SameInput cmp es es') :
    EytzingerMap.new cmp es = EytzingerMap.new cmp es' ∧
    FzOrderedMap.new cmp es = FzOrderedMap.new cmp es' ∧
    (∀ b index, DenseMap.new b cmp index es = DenseMap.new b cmp index es') ∧
    (∀ b index, SparseMap.new b cmp index es = SparseMap.new b cmp index es') ∧
    (∀ b sort index, FzScalarMap.new b sort cmp index es = FzScalarMap.new b sort cmp index es') := by
  have hs := h.sorted hc
  refine ⟨?_, ?_, fun b index => ?_, fun b index => ?_, fun b sort index => ?_⟩
  · unfold EytzingerMap.new; rw [hs]
  · unfold FzOrderedMap.new; rw [hs]
  · unfold DenseMap.new; rw [hs]
  · unfold SparseMap.new; rw [hs]
  · unfold FzScalarMap.new; rw [hs]

/-- **C54** (string maps). -/
theorem c54_string_map [Target] {es es' : List (Str × V)} (h : SameInput strCmp es es') (sort : Sorter (Str × V))
    (bhStr bhSlice : Str → Nat) :
    FzStringMap.withHasher sort bhStr bhSlice es = FzStringMap.withHasher sort bhStr bhSlice es' := by
  unfold FzStringMap.withHasher usingCmp
  rw [h.sorted strCmp_lawful]

/-- **C54** (emitted code).  Code emitted for an ordered, a scalar or a string collection is the same for two inputs that say
the same: the order in which entries are written does not show in the generated program. -/
theorem c54_emitted [Target] {es es' : List (CollectionEntry B K V)} {cmp : B → B → Ordering} (hc : LawfulCmp cmp)
    (h : SameEmitInput cmp es es') (em : Emitter) (unit : V) :
    em.emitOrdered unit cmp es = em.emitOrdered unit cmp es' ∧
    (∀ b sort index, em.emitScalar unit b sort cmp index es = em.emitScalar unit b sort cmp index es') := by
  have hs := h.sorted hc em unit
  refine ⟨?_, fun b sort index => ?_⟩
  · unfold Emitter.emitOrdered; rw [hs]
  · unfold Emitter.emitScalar; rw [hs]

/-- **C54** (emitted string collections). -/
theorem c54_emitted_string [Target] {es es' : List (CollectionEntry Str K V)} (h : SameEmitInput strCmp es es') (em : Emitter)
    (unit : V) (sort : Sorter (CollectionEntry Str K V)) (fsStr fsSlice : Nat → Str → Nat) (seed : Nat) :
    em.emitString unit sort fsStr fsSlice seed es = em.emitString unit sort fsStr fsSlice seed es' := by
  unfold Emitter.emitString usingCmp
  rw [h.sorted strCmp_lawful em unit]

/-- Reordering entries with different keys gives an input that says the same. -/
theorem c54_permutation {es es' : List (K × V)} {cmp : K → K → Ordering} (hc : LawfulCmp cmp) (hp : es.Perm es')
    (hd : Distinct (fun a b => cmp a b == .eq) (es.map (fun e => e.1))) : SameInput cmp es es' := by
  intro k
  rw [lastWith_eq, lastWith_eq]
  have hf := hp.filter (fun e => cmp k e.1 == .eq)
  have hd' : Distinct (entryEq (fun a b => cmp a b == .eq)) es := by
    unfold Distinct at hd ⊢
    rw [List.pairwise_map] at hd
    exact hd
  have hcl : IsClass (entryEq (V := V) (fun a b => cmp a b == .eq)) (fun e => cmp k e.1 == .eq) :=
    (LawfulCmp'.eqLawful hc).query.entryClass k
  have hk := filter_keepLast hcl es
  rw [keepLast_of_distinct hd'] at hk
  rw [hk] at hf
  cases hg : (es.filter (fun e => cmp k e.1 == .eq)).getLast? with
  | none =>
    rw [hg] at hf
    simp only [Option.toList_none] at hf
    rw [List.nil_perm.1 hf]
    rfl
  | some x =>
    rw [hg] at hf
    simp only [Option.toList_some] at hf
    rw [← List.singleton_perm.1 hf]
    rfl

/-- The entries of a hash map in iteration order, for a hash function with collisions. -/
def hashOrder [Target] (es : List (Nat × Char)) : Option (List (Nat × Char)) :=
  match FzHashMap.withHasher listFind slotSort natEq (fun _ => 0) es with
  | .ok m => some ((FzHashMap.impl (fun _ : Nat => 0) natEq).entries m)
  | .error _ => none

/-- Hash maps are different: their iteration order can depend on the order of the input. -/
theorem c54_hash_order_depends [T : Target] : ∃ es es' : List (Nat × Char), es.Perm es' ∧ (es.map (fun e => e.1)).Nodup ∧
    hashOrder es ≠ hashOrder es' ∧ (hashOrder es).isSome = true ∧ (hashOrder es').isSome = true  := by
  obtain ⟨_, rfl | rfl⟩ := T <;>
    exact ⟨[(1, 'a'), (2, 'b')], [(2, 'b'), (1, 'a')], List.Perm.swap _ _ _, by decide, by cbv; decide, by cbv, by cbv⟩

-- Duplicates with other values and another order.
example : SameInput natCmp [(1, 'x'), (2, 'b'), (1, 'a')] [(1, 'a'), (2, 'c'), (2, 'b')] := by
  intro k
  rcases Nat.lt_trichotomy k 1 with h | h | h
  · obtain rfl : k = 0 := by omega
    decide
  · subst h; decide
  · by_cases h2 : k = 2
    · subst h2; decide
    · have e1 : natCmp k 1 ≠ .eq := by simp [natCmp]; omega
      have e2 : natCmp k 2 ≠ .eq := by simp [natCmp]; omega
      simp [lastWith, e1, e2]

attribute [local instance] w64 in
example : FzOrderedMap.new natCmp [(1, 'x'), (2, 'b'), (1, 'a')] =
    FzOrderedMap.new natCmp [(1, 'a'), (2, 'b')] := by cbv

example : Distinct (fun a b => natCmp a b == .eq) ([(3, 'x'), (1, 'y'), (2, 'z')].map (fun e => e.1)) := by
  unfold Distinct; decide

end Frozen.Props
