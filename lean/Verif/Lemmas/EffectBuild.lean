import Verif.Props.EffectBuildSpec
import Verif.Lemmas.Effects
import Verif.Lemmas.SliceAnalyzer
import Verif.Lemmas.Maps
import Verif.Lemmas.Facts

/-!
# Lemmas on constructors that run user code with effects
-/

namespace Frozen.Props

open Frozen Frozen.Spec Frozen.Model

variable {W A B R T M Q K V : Type}

namespace EffRel

variable (E : EffRel W)

theorem dialog {f : A → Eff W B} {g : A → B} (h : ∀ a, E.R _ (f a) (.ok (g a))) (d : Dialog A B R) :
    E.R _ (d.answerE f) (.ok (d.answer g)) := by
  induction d with
  | done r => exact E.pure r
  | ask a next ih => exact E.bindOk (h a) (ih _)

theorem mapE {f : A → Eff W B} {g : A → B} (h : ∀ a, E.R _ (f a) (.ok (g a))) (l : List A) : E.R _ (Model.mapE f l) (.ok (l.map g)) := by
  induction l with
  | nil => exact E.pure _
  | cons x l ih => exact E.bindOk (h x) (E.bindOk ih (E.pure _))

/-! ## Deduplication -/

theorem anyEq {f : T → T → Eff W Bool} {g : T → T → Bool} (h : ∀ a b, E.R _ (f a b) (.ok (g a b))) (x : T) (l : List T) :
    E.R _ (anyEqE f x l) (.ok (l.any (g x))) := by
  induction l with
  | nil => exact E.pure _
  | cons y l ih =>
    refine E.bindOk (h x y) ?_
    cases hg : g x y with
    | true => simpa [hg] using E.pure true
    | false => simpa [hg] using ih

theorem usingEqDupes {f : T → T → Eff W Bool} {g : T → T → Bool} (h : ∀ a b, E.R _ (f a b) (.ok (g a b))) (l : List T) :
    ∀ i, E.R _ (usingEqDupesE f l i) (.ok (Model.usingEqDupes g l i)) := by
  induction l with
  | nil => intro i; exact E.pure _
  | cons y l ih =>
    intro i
    refine E.bindOk (E.anyEq h y l) (E.bindOk (ih (i + 1)) ?_)
    rw [Model.usingEqDupes]
    exact E.pure _

theorem usingEq {f : T → T → Eff W Bool} {g : T → T → Bool} (h : ∀ a b, E.R _ (f a b) (.ok (g a b))) (l : List T) :
    E.R _ (usingEqE l f) (.ok (Model.usingEq l g)) := by
  unfold usingEqE Model.usingEq
  split
  · exact E.bindOk (E.usingEqDupes h l 0) (E.pure _)
  · exact E.pure _

theorem adjacentDupes {f : T → T → Eff W Ordering} {g : T → T → Ordering} (h : ∀ a b, E.R _ (f a b) (.ok (g a b))) (l : List T) :
    ∀ i, E.R _ (adjacentDupesE f l i) (.ok (Model.adjacentDupes g l i)) := by
  induction l with
  | nil => intro i; exact E.pure _
  | cons x l ih =>
    intro i
    cases l with
    | nil => exact E.pure _
    | cons y l =>
      refine E.bindOk (h x y) (E.bindOk (ih (i + 1)) ?_)
      rw [Model.adjacentDupes]
      exact E.pure _

theorem sortedAndDedupped {st : SortBy T} (hst : SortByOk st) {f : T → T → Eff W Ordering} {g : T → T → Ordering} (hg : LawfulCmp g)
    (h : ∀ a b, E.R _ (f a b) (.ok (g a b))) (l : List T) : E.R _ (sortedAndDeduppedE st l f) (.ok (Model.sortedAndDedupped l g)) := by
  have hd := E.dialog (f := fun p : T × T => f p.1 p.2) (g := fun p : T × T => g p.1 p.2) (fun p => h p.1 p.2) (st l)
  rw [hst g hg] at hd
  refine E.bindOk hd (E.bindOk (E.lift _) ?_)
  unfold Model.sortedAndDedupped
  simp only []
  split
  · exact E.bindOk (E.adjacentDupes h _ 0) (E.pure _)
  · exact E.pure _

theorem usingHashLoop {find : HbFindDialog} {rehash : HbRehash} {f : T → Eff W Nat} {g : T → Nat} (hf : ∀ a, E.R _ (f a) (.ok (g a)))
    {e : T → T → Eff W Bool} {eq : T → T → Bool} (he : ∀ a b, E.R _ (e a b) (.ok (eq a b))) (entries : List T) (l : List T) :
    ∀ i keep dupes, E.R _ (usingHashLoopE find rehash f e entries l i keep dupes) (Model.usingHashLoop find.find g eq entries l i keep dupes) := by
  induction l with
  | nil => intro i keep dupes; exact E.pure _
  | cons x l ih =>
    intro i keep dupes
    rw [usingHashLoopE, Model.usingHashLoop]
    refine E.bindOk (hf x) (E.ite (fun _ => ?_) (fun _ => E.lift _))
    have hp : ∀ p, E.R _ (atPosE entries (e x) false p) (.ok ((entries[p]?).any (eq x))) := by
      intro p
      unfold atPosE
      cases entries[p]? with
      | none => exact E.pure _
      | some y => exact he x y
    have hr : ∀ p, E.R _ (atPosE entries f 0 p) (.ok (((entries[p]?).map g).getD 0)) := by
      intro p
      unfold atPosE
      cases entries[p]? with
      | none => exact E.pure _
      | some y => exact hf y
    refine E.bindOk (E.dialog hp (find i keep (g x))) ?_
    show E.R _ _ (match (find i keep (g x)).answer (fun other => (entries[other]?).any (eq x)) with | some other => _ | none => _)
    cases (find i keep (g x)).answer (fun other => (entries[other]?).any (eq x)) with
    | none => exact E.bindOk (E.mapE hr _) (ih _ _ _)
    | some other => exact E.bindOk (E.mapE hr _) (ih _ _ _)

theorem usingHash {find : HbFindDialog} {rehash : HbRehash} {f : T → Eff W Nat} {g : T → Nat} (hf : ∀ a, E.R _ (f a) (.ok (g a)))
    {e : T → T → Eff W Bool} {eq : T → T → Bool} (he : ∀ a b, E.R _ (e a b) (.ok (eq a b))) (entries : List T) :
    E.R _ (usingHashE find rehash entries f e) (Model.usingHash find.find entries g eq) :=
  E.ite (fun _ => E.bind (E.usingHashLoop hf he entries entries 0 [] []) (fun _ _ => E.pure _)) (fun _ => E.pure _)

/-! ## Maps without hashing -/

theorem newScan {f : K → K → Eff W Bool} {g : K → K → Bool} (h : ∀ a b, E.R _ (f a b) (.ok (g a b))) (es : List (K × V)) :
    E.R _ (ScanMap.newE f es) (.ok (ScanMap.new g es)) :=
  E.bindOk (E.usingEq (f := fun x y : K × V => f x.1 y.1) (fun a b => h a.1 b.1) es) (E.pure _)

theorem newOrdered [Target] {st : SortBy (K × V)} (hst : SortByOk st) {f : K → K → Eff W Ordering} {g : K → K → Ordering} (hg : LawfulCmp g)
    (h : ∀ a b, E.R _ (f a b) (.ok (g a b))) (es : List (K × V)) : E.R _ (EytzingerMap.newE st f es) (EytzingerMap.new g es) :=
  E.bindOk (E.sortedAndDedupped hst (f := fun x y : K × V => f x.1 y.1) hg.entry (fun a b => h a.1 b.1) es) (E.lift _)

theorem fromDense [Target] {b : Build} {f : K → Eff W Nat} {g : K → Nat} (h : ∀ a, E.R _ (f a) (.ok (g a))) (es : List (K × V)) :
    E.R _ (DenseMap.fromSortedAndDeduppedE b f es) (DenseMap.fromSortedAndDedupped b g es) :=
  E.bind (E.lift _) (fun _ _ => E.bindOk (h _) (E.bind (E.lift _) (fun _ _ => E.bind (E.lift _) (fun _ _ => E.bindOk (h _) (E.pure _)))))

theorem newDense [Target] {b : Build} {st : SortBy (K × V)} (hst : SortByOk st) {c : K → K → Eff W Ordering} {cmp : K → K → Ordering}
    (hc : LawfulCmp cmp) (h : ∀ a b, E.R _ (c a b) (.ok (cmp a b))) {f : K → Eff W Nat} {g : K → Nat} (hi : ∀ a, E.R _ (f a) (.ok (g a)))
    (es : List (K × V)) : E.R _ (DenseMap.newE b st c f es) (DenseMap.new b cmp g es) := by
  refine E.bindOk (E.sortedAndDedupped hst (f := fun x y : K × V => c x.1 y.1) hc.entry (fun a b => h a.1 b.1) es) ?_
  refine E.ite (fun _ => E.pure _) (fun _ => E.bind (E.lift _) (fun _ _ => E.bindOk (hi _) (E.bind (E.lift _) (fun _ _ => E.bind (E.lift _) (fun _ _ =>
    E.bindOk (hi _) (E.bind (E.lift _) (fun _ _ => E.bind (E.lift _) (fun _ _ => E.ite (fun _ => E.bind (E.fromDense hi _) (fun _ _ => E.pure _))
      (fun _ => E.pure _)))))))))

theorem fillLookup [Target] {b : Build} {f : K → Eff W Nat} {g : K → Nat} (hi : ∀ a, E.R _ (f a) (.ok (g a))) (mn : Nat) (es : List (K × V)) :
    ∀ i lookup, E.R _ (fillLookupE b f mn es i lookup) (Model.fillLookup b g mn es i lookup) := by
  induction es with
  | nil => intro i lookup; exact E.pure _
  | cons e es ih => intro i lookup; exact E.bindOk (hi _) (E.bind (E.lift _) (fun _ _ => E.bind (E.lift _) (fun _ _ => ih _ _)))

theorem fromSparse [Target] {b : Build} {f : K → Eff W Nat} {g : K → Nat} (h : ∀ a, E.R _ (f a) (.ok (g a))) (es : List (K × V)) :
    E.R _ (SparseMap.fromSortedAndDeduppedE b f es) (SparseMap.fromSortedAndDedupped b g es) :=
  E.bind (E.lift _) (fun _ _ => E.bindOk (h _) (E.bind (E.lift _) (fun _ _ => E.bind (E.lift _) (fun _ _ => E.bindOk (h _)
    (E.bind (E.lift _) (fun _ _ => E.bind (E.lift _) (fun _ _ => E.bind (E.lift _) (fun _ _ => E.bind (E.fillLookup h _ _ _ _) (fun _ _ => E.pure _)))))))))

theorem newSparse [Target] {b : Build} {st : SortBy (K × V)} (hst : SortByOk st) {c : K → K → Eff W Ordering} {cmp : K → K → Ordering}
    (hc : LawfulCmp cmp) (h : ∀ a b, E.R _ (c a b) (.ok (cmp a b))) {f : K → Eff W Nat} {g : K → Nat} (hi : ∀ a, E.R _ (f a) (.ok (g a)))
    (es : List (K × V)) : E.R _ (SparseMap.newE b st c f es) (SparseMap.new b cmp g es) := by
  refine E.bindOk (E.sortedAndDedupped hst (f := fun x y : K × V => c x.1 y.1) hc.entry (fun a b => h a.1 b.1) es) ?_
  exact E.ite (fun _ => E.pure _) (fun _ => E.fromSparse hi _)

/-! ## Maps with hashing -/

theorem prepItems {f : T → Eff W Nat} {g : T → Nat} (h : ∀ a, E.R _ (f a) (.ok (g a))) (n : Nat) (l : List T) :
    E.R _ (prepItemsE f n l) (Model.prepItems g n l) := by
  induction l with
  | nil => exact E.pure _
  | cons e l ih => exact E.bindOk (h e) (E.bind (E.lift _) (fun _ _ => E.bind ih (fun _ _ => E.pure _)))

theorem newTable [Target] {cm : Magnitude} {sort : Sorter T} {f : T → Eff W Nat} {g : T → Nat} (h : ∀ a, E.R _ (f a) (.ok (g a)))
    (entries : List T) : E.R _ (HashTable.newE cm sort entries f) (HashTable.new cm sort entries g) := by
  refine E.ite (fun _ => E.pure _) (fun _ => E.ite (fun _ => E.pure _) (fun _ => E.bindOk (E.mapE h entries) ?_))
  refine E.bind (E.lift _) (fun a _ => ?_)
  exact E.bind (E.prepItems h _ _) (fun p _ => E.bind (E.lift _) (fun q _ => E.bind (E.lift _) (fun _ _ => E.pure _)))

theorem fromHash [Target] {cm : Magnitude} {sort : Sorter (K × V)} {f : K → Eff W Nat} {hK : K → Res Nat} {g : K → Nat}
    (hg : ∀ k, hK k = .ok (g k)) (h : ∀ a, E.R _ (f a) (.ok (g a))) (es : List (K × V)) :
    E.R _ (HashMap.fromDeduppedE cm sort f es) (HashMap.fromDedupped cm sort hK es) := by
  unfold HashMap.fromDeduppedE HashMap.fromDedupped
  rw [hashAll_ok hg, hashVal_ok hg]
  refine E.bind (E.newTable (f := fun e : K × V => f e.1) (fun a => h a.1) es) (fun r _ => ?_)
  cases r with
  | ok t => exact E.pure _
  | error e => exact E.pure _

theorem newHash [Target] {cm : Magnitude} {find : HbFindDialog} {rehash : HbRehash} {sort : Sorter (K × V)} {e : K → K → Eff W Bool}
    {eq : K → K → Bool} (he : ∀ a b, E.R _ (e a b) (.ok (eq a b))) {f : K → Eff W Nat} {g : K → Nat} (h : ∀ a, E.R _ (f a) (.ok (g a)))
    (es : List (K × V)) :
    E.R _ (HashMap.withHasherE cm find rehash sort e f es) (HashMap.withHasher cm find.find sort eq (bridgeHash g) es) := by
  have hg : ∀ k, bridgeHash g k = .ok (g k) := fun _ => rfl
  unfold HashMap.withHasherE HashMap.withHasher
  rw [hashAll_ok hg, hashVal_ok hg]
  exact E.bind (E.usingHash (f := fun e : K × V => f e.1) (fun a => h a.1) (e := fun x y : K × V => e x.1 y.1) (fun a b => he a.1 b.1) es)
    (fun _ _ => E.fromHash hg h _)

theorem newFzHash [Target] {find : HbFindDialog} {rehash : HbRehash} {sort : Sorter (K × V)} {e : K → K → Eff W Bool}
    {eq : K → K → Bool} (he : ∀ a b, E.R _ (e a b) (.ok (eq a b))) {f : K → Eff W Nat} {g : K → Nat} (h : ∀ a, E.R _ (f a) (.ok (g a)))
    (es : List (K × V)) : E.R _ (FzHashMap.withHasherE find rehash sort e f es) (FzHashMap.withHasher find.find sort eq g es) :=
  E.bind (E.usingHash (f := fun e : K × V => f e.1) (fun a => h a.1) (e := fun x y : K × V => e x.1 y.1) (fun a b => he a.1 b.1) es)
    (fun _ _ => E.bind (E.fromHash (fun _ => rfl) h _) (fun _ _ => E.lift _))

theorem newFzScalar [Target] {b : Build} {st : SortBy (K × V)} (hst : SortByOk st) {sort : Sorter (K × V)} {c : K → K → Eff W Ordering}
    {cmp : K → K → Ordering} (hc : LawfulCmp cmp) (h : ∀ a b, E.R _ (c a b) (.ok (cmp a b))) {f : K → Eff W Nat} {g : K → Nat}
    (hi : ∀ a, E.R _ (f a) (.ok (g a))) (es : List (K × V)) : E.R _ (FzScalarMap.newE b st sort c f es) (FzScalarMap.new b sort cmp g es) := by
  refine E.bindOk (E.sortedAndDedupped hst (f := fun x y : K × V => c x.1 y.1) hc.entry (fun a b => h a.1 b.1) es) ?_
  refine E.bindOk (E.mapE (f := fun x : K × V => f x.1) (fun a => hi a.1) _) (E.bind (E.lift _) (fun a _ => ?_))
  cases a with
  | denseRange => exact E.bind (E.fromDense hi _) (fun _ _ => E.pure _)
  | sparseRange => exact E.bind (E.fromSparse hi _) (fun _ _ => E.pure _)
  | general => exact E.bind (E.fromHash (fun _ => rfl) hi _) (fun _ _ => E.bind (E.lift _) (fun _ _ => E.pure _))

/-! ## Strings -/

theorem uniqueLoop {f : List T → Eff W Nat} {g : List T → Nat} (h : ∀ a, E.R _ (f a) (.ok (g a))) (lj : Bool) (si sl : Nat) (keys : List (List T)) :
    ∀ set acc, E.R _ (uniqueLoopE f lj si sl keys set acc) (Model.uniqueLoop g lj si sl keys set acc) := by
  induction keys with
  | nil => intro set acc; exact E.pure _
  | cons s keys ih =>
    intro set acc
    exact E.bind (E.lift _) (fun _ _ => E.bindOk (h _) (E.ite (fun _ => E.ite (fun _ => E.pure _) (fun _ => ih _ _)) (fun _ => ih _ _)))

theorem searchIndex {f : List T → Eff W Nat} {g : List T → Nat} (h : ∀ a, E.R _ (f a) (.ok (g a))) (keys : List (List T)) (sl : Nat) (lj : Bool)
    (acc limit : Nat) : ∀ (n i : Nat), limit + 1 - i ≤ n → E.R _ (searchIndexE f keys sl lj acc limit i) (Model.searchIndex g keys sl lj acc limit i) := by
  intro n
  induction n with
  | zero =>
    intro i hn
    rw [searchIndexE, Model.searchIndex]
    exact E.ite (fun hi => absurd hi (by omega)) (fun _ => E.pure _)
  | succ n ih =>
    intro i hn
    rw [searchIndexE, Model.searchIndex]
    refine E.ite (fun hi => E.bind (E.uniqueLoop h _ _ _ _ _ _) (fun c _ => ?_)) (fun _ => E.pure _)
    exact E.ite (fun _ => E.pure _) (fun _ => ih _ (by omega))

theorem subLenLoop {f : List T → Eff W Nat} {g : List T → Nat} (h : ∀ a, E.R _ (f a) (.ok (g a))) (keys : List (List T)) (st : SliceStats)
    (acc mx : Nat) : ∀ (n i : Nat), mx + 1 - i ≤ n → E.R _ (subLenLoopE f keys st acc mx i) (Model.subLenLoop g keys st acc mx i) := by
  intro n
  induction n with
  | zero =>
    intro i hn
    rw [subLenLoopE, Model.subLenLoop]
    exact E.ite (fun hi => absurd hi (by omega)) (fun _ => E.pure _)
  | succ n ih =>
    intro i hn
    rw [subLenLoopE, Model.subLenLoop]
    refine E.ite (fun hi => E.bind (E.lift _) (fun limit _ => E.bind (E.searchIndex h _ _ _ _ _ _ _ (Nat.le_refl _)) (fun r _ => ?_))) (fun _ => E.pure _)
    cases r with
    | some i => exact E.pure _
    | none =>
      refine E.bind (r := Model.searchRight g keys st acc i limit) ?_ (fun r _ => ?_)
      · exact E.ite (fun _ => E.searchIndex h _ _ _ _ _ _ _ (Nat.le_refl _)) (fun _ => E.pure _)
      · cases r with
        | some i => exact E.pure _
        | none => exact ih _ (by omega)

theorem analyzeSliceKeys [Target] {eqT : T → T → Bool} {f : List T → Eff W Nat} {g : List T → Nat} (h : ∀ a, E.R _ (f a) (.ok (g a)))
    (keys : List (List T)) : E.R _ (analyzeSliceKeysE eqT f keys) (Model.analyzeSliceKeys eqT g keys) := by
  unfold analyzeSliceKeysE Model.analyzeSliceKeys
  cases analyzeLengths keys with
  | general => exact E.bind (E.lift _) (fun _ _ => E.subLenLoop h _ _ _ _ _ _ (Nat.le_refl _))
  | left r => exact E.pure _
  | right r => exact E.pure _
  | length => exact E.pure _

theorem newFzString [Target] {sort : Sorter (Str × V)} {b1 b2 : Str → Eff W Nat} {bhStr bhSlice : Str → Nat}
    (h1 : ∀ s, E.R _ (b1 s) (.ok (bhStr s))) (h2 : ∀ s, E.R _ (b2 s) (.ok (bhSlice s))) (es : List (Str × V)) :
    E.R _ (FzStringMap.withHasherE sort b1 b2 es) (FzStringMap.withHasher sort bhStr bhSlice es) := by
  obtain ⟨r, hr, _, hl, hri⟩ := analyzeSliceKeys_spec (fun x y => x == y) bhSlice
    ((usingCmp es (fun x y => strCmp x.1 y.1)).map (fun x => x.1))
  refine E.bind (E.analyzeSliceKeys h2 _) (fun a ha => ?_)
  rw [hr] at ha
  cases ha
  cases r with
  | general => exact E.bind (E.fromHash (fun _ => rfl) h1 _) (fun _ _ => E.bind (E.lift _) (fun _ _ => E.pure _))
  | length => exact E.bind (E.fromHash (fun _ => rfl) h1 _) (fun _ _ => E.bind (E.lift _) (fun _ _ => E.pure _))
  | left rg =>
    have hg := leftRangeHash_ok bhSlice rg (Nat.le_of_lt (hl rg rfl).1)
    exact E.bind (E.fromHash hg (fun s => hg s ▸ E.leftRange h2 rg s) _) (fun _ _ => E.bind (E.lift _) (fun _ _ => E.pure _))
  | right rg =>
    have hg := rightRangeHash_ok bhSlice rg (Nat.le_of_lt (hri rg rfl).1)
    exact E.bind (E.fromHash hg (fun s => hg s ▸ E.rightRange h2 rg s) _) (fun _ _ => E.bind (E.lift _) (fun _ _ => E.pure _))

/-! ## Inline maps -/

theorem newInlineScan {sz : Nat} {f : K → K → Eff W Bool} {g : K → K → Bool} (h : ∀ a b, E.R _ (f a b) (.ok (g a b))) (es : List (K × V)) :
    E.R _ (InlineMap.scanNewE sz f es) (InlineMap.scanNew sz g es) :=
  E.bindOk (E.usingEq (f := fun x y : K × V => f x.1 y.1) (fun a b => h a.1 b.1) es) (E.bind (E.lift _) (fun _ _ => E.pure _))

theorem newInlineOrdered [Target] {sz : Nat} {st : SortBy (K × V)} (hst : SortByOk st) {f : K → K → Eff W Ordering} {g : K → K → Ordering}
    (hg : LawfulCmp g) (h : ∀ a b, E.R _ (f a b) (.ok (g a b))) (es : List (K × V)) :
    E.R _ (InlineMap.eytzingerNewE sz st f es) (InlineMap.eytzingerNew sz g es) :=
  E.bindOk (E.sortedAndDedupped hst (f := fun x y : K × V => f x.1 y.1) hg.entry (fun a b => h a.1 b.1) es)
    (E.bind (E.lift _) (fun _ _ => E.bind (E.lift _) (fun _ _ => E.pure _)))

end EffRel

/-- With pure trait functions, the constructors give maps when the entries fit. -/
theorem ConstructsWith.pure [Target] (E : EffRel W) {eqK : K → K → Bool} {mt : Q → K → Bool} {es : List (K × V)} {I : MapImpl M Q K V} {x : Eff W A}
    {good : A → Option M} {fits : Prop} (h : ConstructsWith (fun A x a => E.R A x (.ok a)) eqK mt es I x good fits) :
    ∃ r, E.R _ x r ∧ (∀ a m, r = .ok a → good a = some m → Built eqK mt es I m) ∧ (fits → ∃ a m, r = .ok a ∧ good a = some m) := by
  cases h with
  | scan he hq h => exact ⟨_, E.newScan h es, by rintro a m ⟨⟩ ⟨⟩; exact .scan he hq, fun _ => ⟨_, _, rfl, rfl⟩⟩
  | ordered hst hc hq h =>
    refine ⟨_, E.newOrdered hst hc h es, by rintro a m ha ⟨⟩; exact .eytzinger hc hq ha, fun _ => ?_⟩
    obtain ⟨m, hm, -⟩ := EytzingerMap.new_spec hc es
    exact ⟨m, m, hm, rfl⟩
  | dense hst hs hn h hi =>
    refine ⟨_, E.newDense hst hs.lawfulCmp h hi es, ?_, ?_⟩
    · intro a m ha hg
      cases a with
      | error e => cases hg
      | ok m' => cases hg; exact .dense hs hn ha
    · rintro ⟨hc, hsp⟩
      obtain ⟨m, hm, -⟩ := (c19_dense_new (Q := Q) _ hs (fun _ => 0) es hn hsp).1 hc
      exact ⟨.ok m, m, hm, rfl⟩
  | @sparse _ _ _ b cmp index _ _ st _ _ hst hs h hi =>
    refine ⟨_, E.newSparse hst hs.lawfulCmp h hi es, by rintro a m ha ⟨⟩; exact .sparse hs ha, fun hf => ?_⟩
    have hp := sortedAndDedupped_survivors hs.lawfulCmp es
    have hst := sortedAndDedupped_strict (hs.lawfulCmp.entry (V := V)) es
    unfold SparseMap.new
    have hmem : ∀ e ∈ sortedAndDedupped es (fun x y => cmp x.1 y.1), e ∈ es := fun e he => survivors_mem (hp.mem_iff.1 he)
    generalize sortedAndDedupped es (fun x y => cmp x.1 y.1) = S at *
    cases S with
    | nil => exact ⟨_, _, rfl, rfl⟩
    | cons e S =>
      obtain ⟨f, l, hf', hl, -⟩ := ascending_ends hs hst (by simp)
      obtain ⟨m, hm, -⟩ := SparseMap.fromSortedAndDedupped_spec b hs hst hf' hl
        (hf _ (hmem _ (List.mem_of_getElem? hl)) _ (hmem _ (List.mem_of_getElem? hf')))
      exact ⟨m, m, hm, rfl⟩
  | @hash _ _ _ cm _ _ _ _ _ _ _ _ _ _ hf hs he hq hh hn h hk =>
    refine ⟨_, E.newHash h hk es, ?_, fun hc => ?_⟩
    · intro a m ha hg
      cases a with
      | error e => cases hg
      | ok m' => cases hg; exact .hash hf hs he hq hh hn ha
    · obtain ⟨m, hm, -⟩ := (HashMap.withHasher_spec cm hf hs he (hK := bridgeHash _) (fun _ => rfl) hh.key es hn).1 hc
      exact ⟨.ok m, m, hm, rfl⟩
  | fzHash hf hs he hq hh hn h hk =>
    refine ⟨_, E.newFzHash h hk es, by rintro a m ha ⟨⟩; exact .fzHash hf hs he hq hh hn ha, fun _ => ?_⟩
    obtain ⟨m, hm, -⟩ := FzHashMap.withHasher_spec hf hs he hh.key es hn
    exact ⟨m, m, hm, rfl⟩
  | fzScalar hst hso hs hn h hi =>
    refine ⟨_, E.newFzScalar hst hs.lawfulCmp h hi es, by rintro a m ha ⟨⟩; exact .fzScalar hso hs hn ha, fun hf => ?_⟩
    obtain ⟨m, hm, -⟩ := FzScalarMap.new_spec _ hso hs es hn hf
    exact ⟨m, m, hm, rfl⟩
  | fzString hso hn h1 h2 =>
    refine ⟨_, E.newFzString h1 h2 es, by rintro a m ha ⟨⟩; exact .fzString hso hn ha, fun _ => ?_⟩
    obtain ⟨m, hm, -⟩ := FzStringMap.withHasher_spec hso _ _ es hn
    exact ⟨m, m, hm, rfl⟩
  | @fzStringAs S V _ _ _ text es asRef _ _ hso hn h0 h1 h2 =>
    refine ⟨_, E.bindOk (E.mapE (g := fun e : S × V => (text e.1, e.2)) (fun e => E.bindOk (h0 e.1) (E.pure _)) es) (E.newFzString h1 h2 _),
      by rintro a m ha ⟨⟩; exact .fzString hso (by simpa using hn) ha, fun _ => ?_⟩
    obtain ⟨m, hm, -⟩ := FzStringMap.withHasher_spec hso _ _ (es.map (fun e => (text e.1, e.2))) (by simpa using hn)
    exact ⟨m, m, hm, rfl⟩
  | inlineScan he hq h =>
    refine ⟨_, E.newInlineScan h es, by rintro a m ha ⟨⟩; exact .inlineScan he hq ha, ?_⟩
    rintro rfl
    unfold InlineMap.scanNew
    rw [usingEq_eq_keepLast]
    unfold intoArray
    rw [if_pos (by rfl)]
    exact ⟨_, _, rfl, rfl⟩
  | @inlineOrdered _ _ _ t cmp _ _ _ _ hst hc hq h =>
    refine ⟨_, E.newInlineOrdered hst hc h es, by rintro a m ha ⟨⟩; exact .inlineEytzinger hc hq ha, ?_⟩
    rintro rfl
    have hp := (sortedAndDedupped_survivors hc es).length_eq
    obtain ⟨A, hA, hl, -⟩ := eytzingerLayout_spec (Model.sortedAndDedupped es (fun x y => cmp x.1 y.1))
    unfold InlineMap.eytzingerNew
    simp only [hA, bind, Except.bind]
    unfold intoArray
    rw [if_pos (by rw [hl, hp])]
    exact ⟨_, _, rfl, rfl⟩

end Frozen.Props
