import Verif.Lemmas.Iterators
import Verif.Props.Maps

/-! # C44: the iterators are exact-size and fused -/

namespace Frozen.Props

open Frozen Frozen.Spec Frozen.Model

variable {K V T M Q S A : Type}

/-- At every point of an iteration that started in state `s0`: some items `rest` are still to come; together with those
already given they are `items`; `size_hint`, `len` and `count` tell their number, `fold` visits them in order, and after
the `None` that ends them every further call answers `None`. -/
def ExactAndFused (I : IterImpl S A) (s0 : S) (items : List A) : Prop :=
  ∀ given s, Reaches (fun s => .ok (I.next s)) s0 given s →
    ∃ rest s', items = given ++ rest ∧ Yields (fun s => .ok (I.next s)) s rest s' ∧
      (∀ n, NoneFor (fun s => .ok (I.next s)) n s') ∧
      I.sizeHint s = (rest.length, some rest.length) ∧ I.len s = rest.length ∧ I.count s = rest.length ∧
      ∀ (B : Type) (init : B) (f : B → A → B), I.fold s init f = rest.foldl f init

theorem exactAndFused_of_walks {I : IterImpl S A} {toList : S → List A} (w : Walks I toList) (s0 : S) :
    ExactAndFused I s0 (toList s0) := by
  intro given s h
  obtain ⟨s', h1, h2⟩ := w.yields _ s rfl
  exact ⟨toList s, s', w.reaches h, h1, h2, w.sizeHint s, w.len s, w.count s, w.fold s⟩

/-- **C44** (borrowing map iterators) `iter`, `keys`, `values` of a map are exact-size and fused, and give the entries,
keys and values in one and the same order. -/
theorem c44_map_iterators_exact (I : MapImpl M Q K V) (m : M) :
    ExactAndFused mapIter (I.iter m) (I.entries m) ∧
    ExactAndFused mapKeys (I.iter m) ((I.entries m).map (fun e => e.1)) ∧
    ExactAndFused mapValues (I.iter m) ((I.entries m).map (fun e => e.2)) :=
  ⟨exactAndFused_of_walks walks_mapIter _, exactAndFused_of_walks walks_mapKeys _,
    exactAndFused_of_walks walks_mapValues _⟩

/-- **C44** (consuming map iterators). -/
theorem c44_map_into_iterators_exact (I : MapImpl M Q K V) (m : M) :
    ExactAndFused mapIntoIter (I.intoIter m) (I.entries m) ∧
    ExactAndFused mapIntoKeys (I.intoIter m) ((I.entries m).map (fun e => e.1)) ∧
    ExactAndFused mapIntoValues (I.intoIter m) ((I.entries m).map (fun e => e.2)) :=
  ⟨exactAndFused_of_walks walks_mapIntoIter _, exactAndFused_of_walks walks_mapIntoKeys _,
    exactAndFused_of_walks walks_mapIntoValues _⟩

/-- **C44** (mutable map iterators) `iter_mut` and `values_mut` are exact-size and fused; item number `i` is the key of
entry `i` with a reference to the value of entry `i`: no value is given twice and none is left out. -/
theorem c44_map_mut_iterators_exact (I : MapImpl M Q K V) (m : M) :
    ∃ items, ExactAndFused mapIterMut (I.iterMut m) items ∧
      ExactAndFused mapValuesMut (I.iterMut m) (List.range (I.entries m).length) ∧
      items.map (fun e => e.1) = (I.entries m).map (fun e => e.1) ∧
      items.map (fun e => e.2) = List.range (I.entries m).length := by
  have h := exactAndFused_of_walks walks_mapValuesMut (I.iterMut m)
  have h1 : (I.iterMut m).rest.map (fun e => e.2) = List.range (I.entries m).length := by
    simp only [MapImpl.iterMut, mapIterMutNew, List.map_map, Function.comp_def]
    rw [List.range_eq_range', ← List.zipIdx_map_snd]
  rw [h1] at h
  refine ⟨_, exactAndFused_of_walks walks_mapIterMut _, h, ?_, h1⟩
  simp only [MapImpl.iterMut, mapIterMutNew, List.map_map, Function.comp_def]
  conv_rhs => rw [← List.zipIdx_map_fst 0 (I.entries m)]
  rw [List.map_map]; rfl

/-- **C44** (sets) `iter` and `into_iter` of a set. -/
theorem c44_set_iterators_exact (I : MapImpl M Q T Unit) (m : M) :
    ExactAndFused setIter (I.iter m) ((I.entries m).map (fun e => e.1)) ∧
    ExactAndFused setIntoIter (I.intoIter m) ((I.entries m).map (fun e => e.1)) :=
  ⟨exactAndFused_of_walks walks_setIter _, exactAndFused_of_walks walks_setIntoIter _⟩

/-- **C44** (built maps) the length that a fresh iterator of a constructed map reports is the map's `len()`, and its
items are one entry per key, the last one given. -/
theorem c44_built_map_iteration [Target] {eqK : K → K → Bool} {mt : Q → K → Bool} {es : List (K × V)} {I : MapImpl M Q K V}
    {m : M} (hb : Built eqK mt es I m) :
    mapIter.len (I.iter m) = I.len m ∧ mapIntoIter.len (I.intoIter m) = I.len m ∧
    mapIterMut.len (I.iterMut m) = I.len m ∧
    ∃ items, ExactAndFused mapIter (I.iter m) items ∧ (∀ e, e ∈ items ↔ lastMatch eqK es e.1 = some e) ∧
      Distinct eqK (items.map (fun e => e.1)) := by
  obtain ⟨Inv, F⟩ := hb.facts
  have hl := F.lawful.len m F.inv
  refine ⟨?_, ?_, ?_, _, (c44_map_iterators_exact I m).1, F.contents.mem, F.contents.distinct⟩
  · rw [hl]; rfl
  · rw [hl]; rfl
  · rw [hl, walks_mapIterMut.len]; simp [MapImpl.iterMut, mapIterMutNew]

/-- After one call of `next` on the iterator of a map with entries 5 and 7, one item is left. -/
example : ∃ s, Reaches (fun s => .ok (mapIter.next s))
      ((ScanMap.impl natEq).iter (ScanMap.new natEq [(5, 'a'), (7, 'b')])) [(5, 'a')] s ∧
    mapIter.sizeHint s = (1, some 1) :=
  ⟨⟨[(7, 'b')]⟩, .step rfl .refl, rfl⟩

end Frozen.Props
