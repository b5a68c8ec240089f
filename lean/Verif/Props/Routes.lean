import Verif.Model.Routes
import Verif.Props.Serde
import Verif.Props.Sets

/-!
# C35: the routes to a set

A set made from an array, collected from an iterator or converted from a map has the contents of the set made by the constructor.
-/

namespace Frozen.Props

open Frozen Frozen.Spec Frozen.Model

variable {M Q T K A B S : Type}

/-- `Iterator::map` gives the images of the items. -/
theorem yields_map {f : A → B} {next : S → Res (Option A × S)} {s s' : S} {xs : List A} (h : Yields next s xs s') :
    Yields (mapNext f next) s (xs.map f) s' := by
  induction h with
  | nil h => exact .nil (by simp only [mapNext, h, bind, Except.bind, Option.map_none])
  | cons h _ ih => exact .cons (by simp only [mapNext, h, bind, Except.bind, Option.map_some]) ih

theorem yields_array (l : List A) : Yields arrayNext l l [] := by
  induction l with
  | nil => exact .nil rfl
  | cons a l ih => exact .cons rfl ih

theorem unitEntries_fst (es : List (T × Unit)) : unitEntries (es.map (fun e => e.1)) = es := by
  unfold unitEntries
  rw [List.map_map]
  exact (List.map_congr_left (fun _ _ => rfl)).trans (List.map_id _)

theorem fromIter_units [Target] (build : List (T × Unit) → Res M) (g : M → M) (hg : ∀ m, g m = m) {next : S → Res (Option T × S)} {s s' : S}
    {xs : List T} (hy : Yields next s xs s') {fuel : Nat} (hf : xs.length < fuel) :
    (do
      let m ← Model.fromIter build (mapNext (fun x => (x, ())) next) fuel s
      .ok (m.map g)) = (build (unitEntries xs)).map some := by
  have := (c35_routes (E := Unit) build (yields_map (f := fun x : T => (x, ())) hy) (fuel := fuel) (by simpa using hf) (size := 0) (hint := none)
    (by simp)).2.1
  rw [this]
  show _ = (build (xs.map (fun x => (x, ())))).map some
  cases build (xs.map (fun x => (x, ()))) with
  | error e => rfl
  | ok m => show Except.ok (some (g m)) = _; rw [hg]; rfl

/-- What a route has to lead to: a set with the contents `xs`, whenever it leads to a set, and the same outcome as the constructor `new`. -/
structure RouteTo (eqT : T → T → Bool) (mt : Q → T → Bool) (xs : List T) (I : SetImpl M Q T) (new : Res M) (r : Res (Option M)) : Prop where
  same : r = new.map some
  contents : ∀ m, r = .ok (some m) → SetContents eqT mt xs I m

theorem RouteTo.of [Target] {eqT : T → T → Bool} {mt : Q → T → Bool} {xs : List T} {I : SetImpl M Q T} {new : Res M} {r : Res (Option M)}
    (hs : r = new.map some) (hb : ∀ m, new = .ok m → BuiltSet eqT mt xs I m) : RouteTo eqT mt xs I new r := by
  refine ⟨hs, fun m hm => ?_⟩
  rw [hs] at hm
  cases hn : new with
  | error e => rw [hn] at hm; cases hm
  | ok m' => rw [hn] at hm; cases hm; exact c32_set_contents (hb _ hn)

/-- **C35** (`FzHashSet`)  From an array, and collected from any iterator that gives the elements. -/
theorem c35_hash_set [Target] {find : HbFind} {sort : Sorter (T × Unit)} {eqT : T → T → Bool} {mt : Q → T → Bool} {hT : T → Nat} {hQ : Q → Nat}
    (hfi : HbFindOk find) (hso : SorterOk sort) (he : LawfulEq' eqT) (hq : LawfulQuery eqT mt) (hh : LawfulHash eqT mt hT hQ) {xs : List T}
    (hn : xs.length < sizeLimit) {next : S → Res (Option T × S)} {s s' : S} (hy : Yields next s xs s') {fuel : Nat} (hf : xs.length < fuel) :
    RouteTo eqT mt xs (fzSetImpl (FzHashMap.impl hQ mt)) (FzHashSet.withHasher find sort eqT hT xs) (FzHashSet.fromArray find sort eqT hT xs) ∧
    RouteTo eqT mt xs (fzSetImpl (FzHashMap.impl hQ mt)) (FzHashSet.withHasher find sort eqT hT xs) (FzHashSet.fromIter find sort eqT hT next fuel s) :=
  ⟨.of (fromIter_units _ FzHashSet.ofMap (fun _ => rfl) (yields_array xs) (Nat.lt_succ_self _)) (fun _ h => .fzHash hfi hso he hq hh hn h),
    .of (fromIter_units _ FzHashSet.ofMap (fun _ => rfl) hy hf) (fun _ h => .fzHash hfi hso he hq hh hn h)⟩

/-- **C35** (`FzOrderedSet`) -/
theorem c35_ordered_set [Target] {cmp : T → T → Ordering} {qcmp : Q → T → Ordering} (hc : LawfulCmp cmp) (hq : LawfulQueryCmp cmp qcmp) {xs : List T}
    {next : S → Res (Option T × S)} {s s' : S} (hy : Yields next s xs s') {fuel : Nat} (hf : xs.length < fuel) :
    RouteTo (fun a b => cmp a b == .eq) (fun q k => qcmp q k == .eq) xs (fzSetImpl (FzOrderedMap.impl qcmp)) (FzOrderedSet.new cmp xs)
      (FzOrderedSet.fromArray cmp xs) ∧
    RouteTo (fun a b => cmp a b == .eq) (fun q k => qcmp q k == .eq) xs (fzSetImpl (FzOrderedMap.impl qcmp)) (FzOrderedSet.new cmp xs)
      (FzOrderedSet.fromIter cmp next fuel s) :=
  ⟨.of (fromIter_units _ FzOrderedSet.ofMap (fun _ => rfl) (yields_array xs) (Nat.lt_succ_self _)) (fun _ h => .fzOrdered hc hq h),
    .of (fromIter_units _ FzOrderedSet.ofMap (fun _ => rfl) hy hf) (fun _ h => .fzOrdered hc hq h)⟩

/-- **C35** (`FzScalarSet`) -/
theorem c35_scalar_set [Target] {b : Build} {sort : Sorter (T × Unit)} {cmp : T → T → Ordering} {index : T → Nat} {qindex : Q → Nat}
    (hso : SorterOk sort) (hs : LawfulScalar cmp index) {xs : List T} (hn : xs.length < tableLimit) {next : S → Res (Option T × S)} {s s' : S}
    (hy : Yields next s xs s') {fuel : Nat} (hf : xs.length < fuel) :
    RouteTo (fun a b => cmp a b == .eq) (scalarMatch index qindex) xs (fzSetImpl (FzScalarMap.impl qindex (scalarMatch index qindex)))
      (FzScalarSet.new b sort cmp index xs) (FzScalarSet.fromArray b sort cmp index xs) ∧
    RouteTo (fun a b => cmp a b == .eq) (scalarMatch index qindex) xs (fzSetImpl (FzScalarMap.impl qindex (scalarMatch index qindex)))
      (FzScalarSet.new b sort cmp index xs) (FzScalarSet.fromIter b sort cmp index next fuel s) :=
  ⟨.of (fromIter_units _ FzScalarSet.ofMap (fun _ => rfl) (yields_array xs) (Nat.lt_succ_self _)) (fun _ h => .fzScalar hso hs hn h),
    .of (fromIter_units _ FzScalarSet.ofMap (fun _ => rfl) hy hf) (fun _ h => .fzScalar hso hs hn h)⟩

/-- **C35** (`FzStringSet`, from elements of any type that is read as a string) -/
theorem c35_string_set [Target] {asRef : T → Str} {sort : Sorter (Str × Unit)} {bhStr bhSlice : Str → Nat} (hso : SorterOk sort) {xs : List T}
    (hn : xs.length < sizeLimit) {next : S → Res (Option T × S)} {s s' : S} (hy : Yields next s xs s') {fuel : Nat} (hf : xs.length < fuel) :
    RouteTo (fun a b => a == b) (fun a b => a == b) (xs.map asRef) (fzSetImpl (FzStringMap.impl bhStr bhSlice))
      (FzStringSet.withHasher sort bhStr bhSlice (xs.map asRef)) (FzStringSet.fromArray asRef sort bhStr bhSlice xs) ∧
    RouteTo (fun a b => a == b) (fun a b => a == b) (xs.map asRef) (fzSetImpl (FzStringMap.impl bhStr bhSlice))
      (FzStringSet.withHasher sort bhStr bhSlice (xs.map asRef)) (FzStringSet.fromIter asRef sort bhStr bhSlice next fuel s) := by
  have hn' : (xs.map asRef).length < sizeLimit := by simpa using hn
  have e : (unitEntries xs).map (fun e => (asRef e.1, e.2)) = unitEntries (xs.map asRef) := by
    unfold unitEntries
    rw [List.map_map, List.map_map]
    rfl
  refine ⟨.of ?_ (fun _ h => .fzString hso hn' h), .of ?_ (fun _ h => .fzString hso hn' h)⟩
  · exact (fromIter_units _ FzStringSet.ofMap (fun _ => rfl) (yields_array xs) (Nat.lt_succ_self _)).trans
      (by simp only [e]; rfl)
  · exact (fromIter_units _ FzStringSet.ofMap (fun _ => rfl) hy hf).trans (by simp only [e]; rfl)

/-- **C35** (`From<map>`)  A set made from a map to `()` has the keys of the map as its elements. -/
theorem c35_sets_of_maps [Target] :
    (∀ {find : HbFind} {sort : Sorter (T × Unit)} {eqT : T → T → Bool} {mt : Q → T → Bool} {hT : T → Nat} {hQ : Q → Nat} {es : List (T × Unit)}
      {m : HashMap T Unit}, HbFindOk find → SorterOk sort → LawfulEq' eqT → LawfulQuery eqT mt → LawfulHash eqT mt hT hQ → es.length < sizeLimit →
      FzHashMap.withHasher find sort eqT hT es = .ok m →
      SetContents eqT mt (es.map (fun e => e.1)) (fzSetImpl (FzHashMap.impl hQ mt)) (FzHashSet.ofMap m)) ∧
    (∀ {cmp : T → T → Ordering} {qcmp : Q → T → Ordering} {es : List (T × Unit)} {m : EytzingerMap T Unit}, LawfulCmp cmp → LawfulQueryCmp cmp qcmp →
      FzOrderedMap.new cmp es = .ok m →
      SetContents (fun a b => cmp a b == .eq) (fun q k => qcmp q k == .eq) (es.map (fun e => e.1)) (fzSetImpl (FzOrderedMap.impl qcmp))
        (FzOrderedSet.ofMap m)) ∧
    (∀ {b : Build} {sort : Sorter (T × Unit)} {cmp : T → T → Ordering} {index : T → Nat} {qindex : Q → Nat} {es : List (T × Unit)}
      {m : FzScalarMap T Unit}, SorterOk sort → LawfulScalar cmp index → es.length < tableLimit → FzScalarMap.new b sort cmp index es = .ok m →
      SetContents (fun a b => cmp a b == .eq) (scalarMatch index qindex) (es.map (fun e => e.1))
        (fzSetImpl (FzScalarMap.impl qindex (scalarMatch index qindex))) (FzScalarSet.ofMap m)) ∧
    (∀ {sort : Sorter (Str × Unit)} {bhStr bhSlice : Str → Nat} {es : List (Str × Unit)} {m : FzStringMap Unit}, SorterOk sort →
      es.length < sizeLimit → FzStringMap.withHasher sort bhStr bhSlice es = .ok m →
      SetContents (fun a b => a == b) (fun a b => a == b) (es.map (fun e => e.1)) (fzSetImpl (FzStringMap.impl bhStr bhSlice)) (FzStringSet.ofMap m)) := by
  refine ⟨?_, ?_, ?_, ?_⟩
  · intro find sort eqT mt hT hQ es m hf hso he hq hh hn h
    rw [← unitEntries_fst es] at h
    exact c32_set_contents (.fzHash hf hso he hq hh (by simpa using hn) h)
  · intro cmp qcmp es m hc hq h
    rw [← unitEntries_fst es] at h
    exact c32_set_contents (.fzOrdered hc hq h)
  · intro b sort cmp index qindex es m hso hs hn h
    rw [← unitEntries_fst es] at h
    exact c32_set_contents (.fzScalar hso hs (by simpa using hn) h)
  · intro sort bhStr bhSlice es m hso hn h
    rw [← unitEntries_fst es] at h
    exact c32_set_contents (.fzString hso (by simpa using hn) h)

attribute [local instance] w64 in
/-- An ordered set collected from an iterator that skips the odd numbers below 7. -/
example : ∃ m, FzOrderedSet.fromIter natCmp (fun n : Nat => .ok (if n < 7 then (some n, n + 2) else (none, n))) 9 0 = .ok (some m) ∧
    (fzSetImpl (FzOrderedMap.impl natCmp)).contains m 4 = .ok true ∧ (fzSetImpl (FzOrderedMap.impl natCmp)).contains m 5 = .ok false := by
  have hy : Yields (fun n : Nat => .ok (if n < 7 then (some n, n + 2) else (none, n))) 0 [0, 2, 4, 6] 8 :=
    .cons rfl (.cons rfl (.cons rfl (.cons rfl (.nil rfl))))
  have h := (c35_ordered_set natCmp_lawful natCmp_query hy (fuel := 9) (by decide)).2
  obtain ⟨m, hm⟩ : ∃ m, FzOrderedSet.new natCmp [0, 2, 4, 6] = .ok m := ⟨_, by cbv⟩
  have hr := h.same
  rw [hm] at hr
  have hc := h.contents m hr
  exact ⟨m, hr, by rw [hc.contains]; decide, by rw [hc.contains]; decide⟩

end Frozen.Props
