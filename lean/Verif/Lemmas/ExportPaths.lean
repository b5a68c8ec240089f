import Verif.Props.ExportSpec
import Verif.Lemmas.Tokens

/-! # Lemmas about the absolute paths in the generator's templates -/

namespace Frozen.Props

open Frozen.Spec Frozen.Model

variable {K V : Type}

/-- All paths are allowed. -/
def POk (A : List String → Prop) (p : PathPos) (cur : List String) (ts : List Tk) : Prop := ∀ q ∈ pathsIn p cur ts, A q

/-- All paths are allowed, whatever comes before. -/
def POkAny (A : List String → Prop) (ts : List Tk) : Prop := ∀ p cur, A cur → POk A p cur ts

variable {A : List String → Prop} {p : PathPos} {cur : List String} {ts : List Tk}

theorem pok_nil (h : A cur) : POk A p cur [] := fun q hq => by
  rw [pathsIn, List.mem_singleton] at hq
  rw [hq]
  exact h

theorem pok_flush {x : List (List String)} (hc : A cur) (h : ∀ q ∈ x, A q) : ∀ q ∈ cur :: x, A q := fun q hq => by
  rcases List.mem_cons.1 hq with rfl | hq
  · exact hc
  · exact h q hq

theorem pok_lit {s : String} (hc : A cur) (h : POk A .fresh [] ts) : POk A p cur (.lit s :: ts) := by
  unfold POk
  rw [pathsIn]
  exact pok_flush hc h

theorem pok_group {d : Delim} {inner : List Tk} (hc : A cur) (hi : POk A .fresh [] inner) (h : POk A .fresh [] ts) :
    POk A p cur (.group d inner :: ts) := by
  unfold POk
  rw [pathsIn]
  refine pok_flush hc fun q hq => ?_
  exact (List.mem_append.1 hq).elim (hi q) (h q)

/-- A name that is not part of an absolute path. -/
theorem pok_free {s : String} (h1 : p ≠ .sep true) (h2 : p ≠ .sep false) (hc : A cur) (h : POk A .segment [] ts) : POk A p cur (.ident s :: ts) := by
  unfold POk
  rw [pathsIn, if_neg h1, if_neg h2]
  exact pok_flush hc h

theorem pok_member {s : String} (h : POk A .segment (cur ++ [s]) ts) (hc : cur ≠ []) : POk A (.sep true) cur (.ident s :: ts) := by
  unfold POk
  rw [pathsIn, if_pos rfl, if_neg hc]
  exact h

theorem pok_member_nil {s : String} (h : POk A .segment [] ts) : POk A (.sep true) [] (.ident s :: ts) := by
  unfold POk
  rw [pathsIn, if_pos rfl, if_pos rfl]
  exact h

theorem pok_rooted {s : String} (hc : A cur) (h : POk A .segment [s] ts) : POk A (.sep false) cur (.ident s :: ts) := by
  unfold POk
  rw [pathsIn, if_neg (by simp), if_pos rfl]
  exact pok_flush hc h

theorem pok_continue (h : POk A (.sep true) cur ts) : POk A .segment cur (.punct ':' true :: .punct ':' false :: ts) := by
  unfold POk
  rw [pathsIn, if_pos (by simp)]
  have e : PathPos.next .segment (.punct ':' true) = .half true := rfl
  rw [e, pathsIn, if_pos (by simp)]
  exact h

theorem pok_start (h : POk A (.sep false) [] ts) (hn : A []) : POk A .fresh [] (.punct ':' true :: .punct ':' false :: ts) := by
  unfold POk
  rw [pathsIn, if_neg (by simp)]
  refine pok_flush hn ?_
  have e : PathPos.next .fresh (.punct ':' true) = .half false := rfl
  rw [e, pathsIn, if_pos (by simp)]
  exact h

theorem pokAny_nil : POkAny A [] := fun _ _ h => pok_nil h

theorem pokAny_punct {c : Char} (h1 : c ≠ ':') (h2 : c ≠ '>') {j : Bool} (h : POk A .fresh [] ts) : POkAny A (.punct c j :: ts) := by
  intro p cur hc
  unfold POk
  rw [pathsIn, if_neg (fun h => h1 h.1)]
  have : p.next (.punct c j) = .fresh := by cases p <;> simp [PathPos.next, h1, h2]
  rw [this]
  exact pok_flush hc h

theorem pokAny_gt {j : Bool} (h : POk A .segment [] ts) : POkAny A (.punct '>' j :: ts) := by
  intro p cur hc
  unfold POk
  rw [pathsIn, if_neg (by simp)]
  have : p.next (.punct '>' j) = .segment := by cases p <;> simp [PathPos.next]
  rw [this]
  exact pok_flush hc h

theorem pok_colon (hc : A cur) (h : POk A .fresh [] ts) : POk A .segment cur (.punct ':' false :: ts) := by
  unfold POk
  rw [pathsIn, if_neg (by simp)]
  exact pok_flush hc h

theorem pok_then : ∀ {a b : List Tk} {p : PathPos} {cur : List String}, POk A p cur a → POkAny A b → POk A p cur (a ++ b)
  | [], b, p, cur, ha, hb => hb p cur (ha cur (by simp [pathsIn]))
  | .ident s :: a, b, p, cur, ha, hb => by
    unfold POk at ha ⊢
    rw [List.cons_append]
    rw [pathsIn] at ha ⊢
    split
    · rename_i h
      rw [if_pos h] at ha
      exact pok_then (a := a) ha hb
    · rename_i h
      rw [if_neg h] at ha
      split
      · rename_i h
        rw [if_pos h] at ha
        exact pok_flush (ha _ (by simp)) (pok_then (a := a) (fun q hq => ha q (List.mem_cons_of_mem _ hq)) hb)
      · rename_i h
        rw [if_neg h] at ha
        exact pok_flush (ha _ (by simp)) (pok_then (a := a) (fun q hq => ha q (List.mem_cons_of_mem _ hq)) hb)
  | .lit s :: a, b, p, cur, ha, hb => by
    unfold POk at ha ⊢
    rw [List.cons_append]
    rw [pathsIn] at ha ⊢
    exact pok_flush (ha _ (by simp)) (pok_then (a := a) (fun q hq => ha q (List.mem_cons_of_mem _ hq)) hb)
  | .group d inner :: a, b, p, cur, ha, hb => by
    unfold POk at ha ⊢
    rw [List.cons_append]
    rw [pathsIn] at ha ⊢
    refine pok_flush (ha _ (by simp)) fun q hq => ?_
    rcases List.mem_append.1 hq with hq | hq
    · exact ha q (by simp [hq])
    · exact pok_then (a := a) (fun q hq => ha q (by simp [hq])) hb q hq
  | .punct c j :: a, b, p, cur, ha, hb => by
    unfold POk at ha ⊢
    rw [List.cons_append]
    rw [pathsIn] at ha ⊢
    split
    · rename_i h
      rw [if_pos h] at ha
      exact pok_then (a := a) ha hb
    · rename_i h
      rw [if_neg h] at ha
      exact pok_flush (ha _ (by simp)) (pok_then (a := a) (fun q hq => ha q (List.mem_cons_of_mem _ hq)) hb)

/-- Tokens of a path, after which the path `cur` can be continued with `::`. -/
def PPath (A : List String → Prop) (cur : List String) (ts : List Tk) : Prop := ∀ rest, POk A .segment cur rest → POk A .fresh [] (ts ++ rest)

theorem pok_members : ∀ (segs : List String) {cur : List String} {rest : List Tk}, cur ≠ [] → POk A .segment (cur ++ segs) rest →
    POk A .segment cur (absPath segs ++ rest)
  | [], cur, rest, _, h => by simpa [absPath] using h
  | s :: segs, cur, rest, hc, h => by
    refine pok_continue (pok_member (pok_members segs (by simp) ?_) hc)
    simpa using h

theorem ppath_abs (hn : A []) {s : String} (segs : List String) : PPath A (s :: segs) (absPath (s :: segs)) := fun rest h =>
  pok_start (pok_rooted hn (pok_members segs (by simp) h)) hn

theorem ppath_ok (hn : A cur) (h : PPath A cur ts) : POk A .fresh [] ts := by
  have := h [] (pok_nil hn)
  rwa [List.append_nil] at this

theorem pok_commaSep (hn : A []) : ∀ {args : List (List Tk)} {rest : List Tk}, (∀ x ∈ args, POk A .fresh [] x) → POkAny A rest →
    POk A .fresh [] (commaSep args ++ rest)
  | [], _, _, hr => hr _ _ hn
  | [x], _, h, hr => pok_then (h x (by simp)) hr
  | x :: y :: xs, rest, h, hr => by
    rw [commaSep, List.append_assoc]
    refine pok_then (h x (by simp)) ?_
    refine pokAny_punct (by decide) (by decide) ?_
    exact pok_commaSep hn (fun z hz => h z (List.mem_cons_of_mem _ hz)) hr

theorem pok_angle (hn : A []) {args : List (List Tk)} {rest : List Tk} (h : ∀ x ∈ args, POk A .fresh [] x) (hr : POk A .segment [] rest) :
    POkAny A (angle args ++ rest) := by
  rw [angle, List.cons_append, List.append_assoc]
  exact pokAny_punct (by decide) (by decide) (pok_commaSep hn h (pokAny_gt hr))

theorem pok_commaTerm (hn : A []) : ∀ {xs : List (List Tk)}, (∀ x ∈ xs, POk A .fresh [] x) → POk A .fresh [] (commaTerm xs)
  | [], _ => pok_nil hn
  | x :: xs, h => pok_then (h x (by simp))
      (pokAny_punct (by decide) (by decide) (pok_commaTerm hn fun z hz => h z (List.mem_cons_of_mem _ hz)))

theorem ppath_sig (hn : A []) {s : String} {segs : List String} (hs : A (s :: segs)) {args : List (List Tk)} (h : ∀ x ∈ args, POk A .fresh [] x) :
    PPath A [] (sigOf (s :: segs) args) := fun rest hr => by
  rw [sigOf, List.append_assoc, List.append_assoc]
  exact ppath_abs hn segs _ (pok_continue (pok_angle hn h hr _ _ hs))

/-- A function of a type with type arguments. -/
theorem pok_call (hn : A []) {sig args : List Tk} {f : String} (h : PPath A [] sig) (ha : POk A .fresh [] args) : POk A .fresh [] (callOf sig f args) := by
  rw [callOf, List.append_assoc]
  exact h _ (pok_continue (pok_member_nil (pok_group hn ha (pok_nil hn))))

/-- A function of a type without type arguments. -/
theorem pok_callPath (hn : A []) {sig args : List Tk} {f : String} (h : PPath A cur sig) (hc : cur ≠ []) (hf : A (cur ++ [f])) (ha : POk A .fresh [] args) :
    POk A .fresh [] (callOf sig f args) := by
  rw [callOf, List.append_assoc]
  exact h _ (pok_continue (pok_member (pok_group hf ha (pok_nil hn)) hc))

/-! ## The templates -/

/-- The paths that the generator writes. -/
def generatorPaths : List (List String) :=
  [["frozen_collections", "SmallCollection"], ["frozen_collections", "MediumCollection"], ["frozen_collections", "LargeCollection"],
   ["frozen_collections", "foldhash", "FixedState"], ["frozen_collections", "hashers", "BridgeHasher"], ["frozen_collections", "hashers", "ScalarHasher"],
   ["frozen_collections", "hashers", "LengthHasher"], ["frozen_collections", "hashers", "InlineLeftRangeHasher"],
   ["frozen_collections", "hashers", "InlineRightRangeHasher"], ["frozen_collections", "hash_tables", "HashTableSlot"],
   ["frozen_collections", "hash_tables", "InlineHashTable"], ["frozen_collections", "hash_tables", "InlineHashTableNoCollisions"],
   ["frozen_collections", "inline_maps", "InlineScanMap"], ["frozen_collections", "inline_maps", "InlineEytzingerSearchMap"],
   ["frozen_collections", "inline_maps", "InlineDenseScalarLookupMap"], ["frozen_collections", "inline_maps", "InlineSparseScalarLookupMap"],
   ["frozen_collections", "inline_maps", "InlineHashMap"], ["frozen_collections", "inline_maps", "InlineHashMapNoCollisions"],
   ["frozen_collections", "inline_sets", "InlineScanSet"], ["frozen_collections", "inline_sets", "InlineEytzingerSearchSet"],
   ["frozen_collections", "inline_sets", "InlineDenseScalarLookupSet"], ["frozen_collections", "inline_sets", "InlineSparseScalarLookupSet"],
   ["frozen_collections", "inline_sets", "InlineHashSet"], ["frozen_collections", "inline_sets", "InlineHashSetNoCollisions"],
   ["frozen_collections", "FzHashMap"], ["frozen_collections", "FzScalarMap"], ["frozen_collections", "FzStringMap"],
   ["frozen_collections", "FzHashSet"], ["frozen_collections", "FzScalarSet"], ["frozen_collections", "FzStringSet"]]

/-- The functions of types without type arguments that the generator calls. -/
def generatorFns : List (List String × String) :=
  [(["frozen_collections", "foldhash", "FixedState"], "with_seed"), (["frozen_collections", "hashers", "BridgeHasher"], "new"),
   (["frozen_collections", "hash_tables", "HashTableSlot"], "new")]

/-- What the allowed paths have to include. -/
structure PAllows (A : List String → Prop) : Prop where
  none : A []
  path : ∀ q ∈ generatorPaths, A q
  fn : ∀ q ∈ generatorFns, A (q.1 ++ [q.2])

theorem pok_num (hA : PAllows A) (t : Tok) : POk A .fresh [] [numTk t] := pok_lit hA.none (pok_nil hA.none)

theorem pok_mag (hA : PAllows A) (cm : Magnitude) : POk A .fresh [] cm.tokens := by
  cases cm <;> exact ppath_ok (hA.path _ (by simp [generatorPaths])) (ppath_abs hA.none _)

theorem pok_fixed (hA : PAllows A) : POk A .fresh [] fixedStatePath := ppath_ok (hA.path _ (by simp [generatorPaths])) (ppath_abs hA.none _)

theorem pok_seed (hA : PAllows A) (seed : Tok) : POk A .fresh [] (fixedStateCtor seed) :=
  pok_callPath hA.none (ppath_abs hA.none _) (by simp) (hA.fn (["frozen_collections", "foldhash", "FixedState"], "with_seed") (by simp [generatorFns])) (pok_num hA _)

theorem pok_hasherTy (hA : PAllows A) (h : HasherTok) : POk A .fresh [] h.tyTokens := by
  cases h with
  | bridge seed =>
    have := ppath_abs hA.none ["hashers", "BridgeHasher"] (angle [fixedStatePath] ++ [])
      (pok_angle hA.none (fun x hx => by rw [List.mem_singleton.1 hx]; exact pok_fixed hA) (pok_nil hA.none) _ _
        (hA.path ["frozen_collections", "hashers", "BridgeHasher"] (by simp [generatorPaths])))
    rwa [List.append_nil] at this
  | scalar => exact ppath_ok (hA.path _ (by simp [generatorPaths])) (ppath_abs hA.none _)
  | length => exact ppath_ok (hA.path _ (by simp [generatorPaths])) (ppath_abs hA.none _)
  | left a b seed =>
    refine ppath_ok hA.none (ppath_sig hA.none (hA.path _ (by simp [generatorPaths])) fun x hx => ?_)
    simp only [List.mem_cons, List.not_mem_nil, or_false] at hx
    rcases hx with rfl | rfl | rfl
    · exact pok_num hA _
    · exact pok_num hA _
    · exact pok_fixed hA
  | right a b seed =>
    refine ppath_ok hA.none (ppath_sig hA.none (hA.path _ (by simp [generatorPaths])) fun x hx => ?_)
    simp only [List.mem_cons, List.not_mem_nil, or_false] at hx
    rcases hx with rfl | rfl | rfl
    · exact pok_num hA _
    · exact pok_num hA _
    · exact pok_fixed hA

theorem pok_hasher (hA : PAllows A) (h : HasherTok) : POk A .fresh [] h.ctorTokens := by
  cases h with
  | bridge seed => exact pok_callPath hA.none (ppath_abs hA.none _) (by simp) (hA.fn (["frozen_collections", "hashers", "BridgeHasher"], "new") (by simp [generatorFns])) (pok_seed hA _)
  | scalar =>
    exact ppath_abs hA.none _ _ (pok_group (hA.path _ (by simp [generatorPaths])) (pok_nil hA.none) (pok_nil hA.none))
  | length => exact ppath_ok (hA.path _ (by simp [generatorPaths])) (ppath_abs hA.none _)
  | left a b seed =>
    refine pok_call hA.none (ppath_sig hA.none (hA.path _ (by simp [generatorPaths])) fun x hx => ?_) (pok_seed hA _)
    simp only [List.mem_cons, List.not_mem_nil, or_false] at hx
    rcases hx with rfl | rfl | rfl
    · exact pok_num hA _
    · exact pok_num hA _
    · exact pok_fixed hA
  | right a b seed =>
    refine pok_call hA.none (ppath_sig hA.none (hA.path _ (by simp [generatorPaths])) fun x hx => ?_) (pok_seed hA _)
    simp only [List.mem_cons, List.not_mem_nil, or_false] at hx
    rcases hx with rfl | rfl | rfl
    · exact pok_num hA _
    · exact pok_num hA _
    · exact pok_fixed hA

theorem pok_slot (hA : PAllows A) (s : Tok × Tok) : POk A .fresh [] (slotTokens s) :=
  pok_callPath hA.none (ppath_abs hA.none _) (by simp) (hA.fn (["frozen_collections", "hash_tables", "HashTableSlot"], "new") (by simp [generatorFns]))
    (pok_lit hA.none (pokAny_punct (by decide) (by decide) (pok_num hA _) _ _ hA.none))

/-- The paths in the caller's types are allowed. -/
structure POkTypes (A : List String → Prop) (g : GenTypes) : Prop where
  key : POk A .fresh [] g.keyType
  value : POk A .fresh [] g.value

theorem pok_entries (hA : PAllows A) {t : ExprToks K V} {es : List (K × V)}
    (h : ∀ e ∈ es, POk A .fresh [] (t.key e.1) ∧ POk A .fresh [] (t.value e.2)) : POk A .fresh [] (t.entries es) := by
  refine pok_commaTerm hA.none (fun x hx => ?_)
  obtain ⟨e, he, rfl⟩ := List.mem_map.1 hx
  exact pok_group hA.none (pok_then (h e he).1 (pokAny_punct (by decide) (by decide) (h e he).2)) (pok_nil hA.none)

theorem ppath_mapSig (hA : PAllows A) {g : GenTypes} (hg : POkTypes A g) (e : Emitted K V) : PPath A [] (e.mapSig g) := by
  cases e
  case fz kind es =>
    refine ppath_sig hA.none (hA.path _ (by cases kind <;> simp [generatorPaths, FzKind.mapName])) (fun x hx => ?_)
    simp only [List.mem_cons, List.not_mem_nil, or_false] at hx
    rcases hx with rfl | rfl
    · exact hg.key
    · exact hg.value
  all_goals refine ppath_sig hA.none (hA.path _ (by simp [generatorPaths])) (fun x hx => ?_)
  all_goals simp only [List.mem_cons, List.not_mem_nil, or_false] at hx
  case hash | hashNC =>
    rcases hx with rfl | rfl | rfl | rfl | rfl | rfl
    · exact hg.key
    · exact hg.value
    · exact pok_num hA _
    · exact pok_num hA _
    · exact pok_mag hA _
    · exact pok_hasherTy hA _
  case sparse =>
    rcases hx with rfl | rfl | rfl | rfl | rfl
    · exact hg.key
    · exact hg.value
    · exact pok_num hA _
    · exact pok_num hA _
    · exact pok_mag hA _
  all_goals
    rcases hx with rfl | rfl | rfl
    · exact hg.key
    · exact hg.value
    · exact pok_num hA _

theorem ppath_setSig (hA : PAllows A) {g : GenTypes} (hg : POkTypes A g) (e : Emitted K V) : PPath A [] (e.setSig g) := by
  cases e
  case fz kind es =>
    refine ppath_sig hA.none (hA.path _ (by cases kind <;> simp [generatorPaths, FzKind.setName])) (fun x hx => ?_)
    simp only [List.mem_cons, List.not_mem_nil, or_false] at hx
    rcases hx with rfl
    exact hg.key
  all_goals refine ppath_sig hA.none (hA.path _ (by simp [generatorPaths])) (fun x hx => ?_)
  all_goals simp only [List.mem_cons, List.not_mem_nil, or_false] at hx
  case hash | hashNC =>
    rcases hx with rfl | rfl | rfl | rfl | rfl
    · exact hg.key
    · exact pok_num hA _
    · exact pok_num hA _
    · exact pok_mag hA _
    · exact pok_hasherTy hA _
  case sparse =>
    rcases hx with rfl | rfl | rfl | rfl
    · exact hg.key
    · exact pok_num hA _
    · exact pok_num hA _
    · exact pok_mag hA _
  all_goals
    rcases hx with rfl | rfl
    · exact hg.key
    · exact pok_num hA _

theorem pok_table (hA : PAllows A) {g : GenTypes} (hg : POkTypes A g) {t : ExprToks K V} {es : List (K × V)} (he : POk A .fresh [] (t.entries es))
    {name : String} (hn : ["frozen_collections", "hash_tables", name] ∈ generatorPaths) (len numSlots : Tok) (cm : Magnitude) {slots : List (List Tk)}
    (hs : ∀ x ∈ slots, POk A .fresh [] x) : POk A .fresh [] (tableTokens g t name len numSlots cm slots es) := by
  have hz := hA.none
  refine pok_call hz (ppath_sig hz (hA.path _ hn) fun x hx => ?_) ?_
  · simp only [List.mem_cons, List.not_mem_nil, or_false] at hx
    rcases hx with rfl | rfl | rfl | rfl
    · exact pok_group hz (pok_then hg.key (pokAny_punct (by decide) (by decide) hg.value)) (pok_nil hz)
    · exact pok_num hA _
    · exact pok_num hA _
    · exact pok_mag hA _
  · exact pok_group hz (pok_commaTerm hz hs) (pokAny_punct (by decide) (by decide)
      (pok_group hz he (pokAny_punct (by decide) (by decide) (pok_nil hz) _ _ hz)) _ _ hz)

theorem pok_vec (hA : PAllows A) {inner : List Tk} (h : POk A .fresh [] inner) : POk A .fresh [] (vecMacro inner) :=
  pok_free (by simp) (by simp) hA.none (pokAny_punct (by decide) (by decide) (pok_group hA.none h (pok_nil hA.none)) _ _ hA.none)

theorem pok_mapCtor (hA : PAllows A) {g : GenTypes} (hg : POkTypes A g) {t : ExprToks K V} {e : Emitted K V}
    (he : ∀ x ∈ e.entries, POk A .fresh [] (t.key x.1) ∧ POk A .fresh [] (t.value x.2)) : POk A .fresh [] (e.mapCtor g t) := by
  have hes := pok_entries hA he
  have hz := hA.none
  have hc : ∀ {ts : List Tk}, POk A .fresh [] ts → POk A .fresh [] (comma :: ts) := fun h => pokAny_punct (by decide) (by decide) h _ _ hz
  cases e with
  | scanRaw len es => exact pok_call hz (ppath_mapSig hA hg _) (pok_group hz hes (pok_nil hz))
  | scanNew len es => exact pok_call hz (ppath_mapSig hA hg _) (pok_vec hA hes)
  | eytzingerRaw len es => exact pok_call hz (ppath_mapSig hA hg _) (pok_group hz hes (pok_nil hz))
  | eytzingerNew len es => exact pok_call hz (ppath_mapSig hA hg _) (pok_vec hA hes)
  | dense len es min max => exact pok_call hz (ppath_mapSig hA hg _) (pok_group hz hes (hc (pok_lit hz (hc (pok_num hA _)))))
  | sparse len numSlots cm es lookup min max =>
    refine pok_call hz (ppath_mapSig hA hg _) (pok_group hz hes (hc (pok_group hz (pok_commaTerm hz fun x hx => ?_)
      (hc (pok_lit hz (hc (pok_num hA _)))))))
    obtain ⟨y, -, rfl⟩ := List.mem_map.1 hx
    exact pok_num hA _
  | hash len numSlots cm slots es hasher =>
    refine pok_call hz (ppath_mapSig hA hg _) (pok_then (pok_table hA hg hes (by simp [generatorPaths]) _ _ _ fun x hx => ?_)
      (pokAny_punct (by decide) (by decide) (pok_hasher hA _)))
    obtain ⟨y, -, rfl⟩ := List.mem_map.1 hx
    exact pok_slot hA _
  | hashNC len numSlots cm slots es hasher =>
    refine pok_call hz (ppath_mapSig hA hg _) (pok_then (pok_table hA hg hes (by simp [generatorPaths]) _ _ _ fun x hx => ?_)
      (pokAny_punct (by decide) (by decide) (pok_hasher hA _)))
    obtain ⟨y, -, rfl⟩ := List.mem_map.1 hx
    exact pok_num hA _
  | fz kind es => exact pok_call hz (ppath_mapSig hA hg _) (pok_vec hA hes)

theorem pok_sig (hA : PAllows A) {g : GenTypes} (hg : POkTypes A g) (e : Emitted K V) : POk A .fresh [] (e.sigTokens g) := by
  unfold Emitted.sigTokens
  split
  · exact ppath_ok hA.none (ppath_setSig hA hg e)
  · exact ppath_ok hA.none (ppath_mapSig hA hg e)

theorem pok_ctor (hA : PAllows A) {g : GenTypes} (hg : POkTypes A g) {t : ExprToks K V} {e : Emitted K V}
    (he : ∀ x ∈ e.entries, POk A .fresh [] (t.key x.1) ∧ POk A .fresh [] (t.value x.2)) : POk A .fresh [] (e.ctorTokens g t) := by
  unfold Emitted.ctorTokens
  split
  · exact pok_call hA.none (ppath_setSig hA hg e) (pok_mapCtor hA hg he)
  · exact pok_mapCtor hA hg he

theorem pok_lazyPath (hA : PAllows A) {rest : List Tk} (h : POk A .segment [] rest) : POk A .fresh [] (lazyLockPath ++ rest) :=
  pok_free (by simp) (by simp) hA.none (pok_continue (pok_member_nil (pok_continue (pok_member_nil h))))

theorem pok_vis (hA : PAllows A) {vis : Vis} (hvis : POk A .fresh [] vis.tokens) {s : String} {rest : List Tk} (h : POk A .segment [] rest) :
    POk A .fresh [] (vis.tokens ++ .ident s :: rest) := by
  have hz := hA.none
  cases vis with
  | restricted inner =>
    refine pok_free (by simp) (by simp) hz ?_
    refine pok_group hz (fun q hq => hvis q ?_) (pok_free (by simp) (by simp) hz h)
    simp [Vis.tokens, pathsIn, hq]
  | inherited => exact pok_free (by simp) (by simp) hz h
  | _ => exact pok_free (by simp) (by simp) hz (pok_free (by simp) (by simp) hz h)

theorem pok_decl {α : Type} (hA : PAllows A) {vis : Vis} (hvis : POk A .fresh [] vis.tokens) {sig : List Tk} (hsig : POk A .fresh [] sig)
    {ctor : α → List Tk} {item : Item α} (hctor : POk A .fresh [] (ctor item.ctor)) : POk A .fresh [] (declTokens vis sig ctor item) := by
  have hz := hA.none
  have hvt : ∀ {s : String} {rest : List Tk}, POk A .segment [] rest → POk A .fresh [] (vis.tokens ++ .ident s :: rest) := fun h => pok_vis hA hvis h
  have hid : ∀ {p : PathPos} {s : String} {rest : List Tk}, p ≠ .sep true → p ≠ .sep false → POk A .segment [] rest → POk A p [] (.ident s :: rest) :=
    fun h1 h2 h => pok_free h1 h2 hz h
  have hids : ∀ {s : String} {rest : List Tk}, POk A .segment [] rest → POk A .segment [] (.ident s :: rest) := fun h => hid (by simp) (by simp) h
  have hidf : ∀ {s : String} {rest : List Tk}, POk A .segment [] rest → POk A .fresh [] (.ident s :: rest) := fun h => hid (by simp) (by simp) h
  have hend : ∀ {x : List Tk}, POk A .fresh [] x → POk A .fresh [] (x ++ [.punct ';' false]) :=
    fun h => pok_then h (pokAny_punct (by decide) (by decide) (pok_nil hz))
  have hcolon : ∀ {ts : List Tk}, POk A .fresh [] ts → POk A .segment [] (.punct ':' false :: ts) := fun h => pok_colon hz h
  have heq : ∀ {ts : List Tk}, POk A .fresh [] ts → POkAny A (.punct '=' false :: ts) := fun h => pokAny_punct (by decide) (by decide) h
  have hlt : ∀ {ts : List Tk}, POk A .fresh [] ts → POkAny A (.punct '<' false :: ts) := fun h => pokAny_punct (by decide) (by decide) h
  have hsemi : ∀ {ts : List Tk}, POk A .fresh [] ts → POkAny A (.punct ';' false :: ts) := fun h => pokAny_punct (by decide) (by decide) h
  have hcl : POk A .fresh [] [.punct '|' true, .punct '|' false, .group .brace (ctor item.ctor)] :=
    pokAny_punct (by decide) (by decide) (pokAny_punct (by decide) (by decide) (pok_group hz hctor (pok_nil hz)) _ _ hz) _ _ hz
  have hlz : POk A .fresh [] (lazyLockPath ++ [.punct ':' true, .punct ':' false, .ident "new",
      .group .paren [.punct '|' true, .punct '|' false, .group .brace (ctor item.ctor)], .punct ';' false]) :=
    pok_lazyPath hA (pok_continue (pok_member_nil (pok_group hz hcl (hsemi (pok_nil hz) _ _ hz))))
  cases item with
  | staticConst s a out =>
    cases a with
    | some al =>
      simp only [declTokens, List.append_assoc, List.cons_append, List.nil_append]
      refine hvt (hids (heq (pok_then hsig (hsemi ?_)) _ _ hz))
      exact hvt (hids (hcolon (hidf (heq (hend hctor) _ _ hz))))
    | none =>
      simp only [declTokens, List.append_assoc, List.cons_append, List.nil_append]
      exact hvt (hids (hcolon (pok_then hsig (heq (hend hctor)))))
  | staticLazy s a out =>
    cases a with
    | some al =>
      simp only [declTokens, List.append_assoc, List.cons_append, List.nil_append]
      refine hvt (hids (heq (pok_then hsig (hsemi ?_)) _ _ hz))
      exact hvt (hids (hcolon (pok_lazyPath hA (hlt (hidf (pokAny_gt (heq hlz _ _ hz) _ _ hz)) _ _ hz))))
    | none =>
      simp only [declTokens, List.append_assoc, List.cons_append, List.nil_append]
      exact hvt (hids (hcolon (pok_lazyPath hA (hlt (pok_then hsig (pokAny_gt (heq hlz _ _ hz))) _ _ hz))))
  | letStmt mu s a out =>
    have hmut : ∀ {rest : List Tk}, POk A .segment [] rest → POk A .segment [] ((if mu then [.ident "mut"] else []) ++ .ident s :: rest) := by
      intro rest h
      cases mu
      · exact hids h
      · exact hids (hids h)
    cases a with
    | some al =>
      simp only [declTokens, List.append_assoc, List.cons_append, List.nil_append]
      refine hidf (hids (heq (pok_then hsig (hsemi ?_)) _ _ hz))
      exact hidf (hmut (hcolon (hidf (heq (hend hctor) _ _ hz))))
    | none =>
      simp only [declTokens, List.append_assoc, List.cons_append, List.nil_append]
      exact hidf (hmut (hcolon (pok_then hsig (heq (hend hctor)))))
  | expr out => exact hctor

end Frozen.Props
