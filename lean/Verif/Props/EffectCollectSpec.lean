import Verif.Model.EffectCollect
import Verif.Props.EffectSerdeSpec

/-!
# Specification of `FromIterator` with effects
-/

namespace Frozen.Props

open Frozen Frozen.Model

variable {W A M : Type}

/-- `RoomFor p hint i w r w'`: in state `w`, room is made for item `i`, or not if there is a fault `r`; in the end the state is `w'`. -/
inductive RoomFor (p : RoomPolicy) (hint : Eff W Nat) (i : Nat) : W → Option Fault → W → Prop
  | enough {w : W} (h : p i = none) : RoomFor p hint i w none w
  | granted {w w' : W} {g : Nat → Bool} {n : Nat} (h : p i = some g) (hh : hint w = (.ok n, w')) (hg : g n = true) : RoomFor p hint i w none w'
  | refused {w w' : W} {g : Nat → Bool} {n : Nat} (h : p i = some g) (hh : hint w = (.ok n, w')) (hg : g n = false) :
      RoomFor p hint i w (some (.panic "capacity overflow")) w'
  | broke {w w' : W} {g : Nat → Bool} {f : Fault} (h : p i = some g) (hh : hint w = (.error f, w')) : RoomFor p hint i w (some f) w'

/-- `TakesAll p it i w xs r w'`: asked again and again from state `w` on, when it has given `i` items before, the iterator gives the items `xs` for which room is
made, and then ends, or a fault `r` ends it; the state is `w'` in the end. -/
inductive TakesAll (p : RoomPolicy) (it : UserIter W A) : Nat → W → List A → Option Fault → W → Prop
  | finished {i : Nat} {w w' : W} (h : it.next w = (.ok none, w')) : TakesAll p it i w [] none w'
  | broke {i : Nat} {w w' : W} {f : Fault} (h : it.next w = (.error f, w')) : TakesAll p it i w [] (some f) w'
  | noRoom {i : Nat} {w w₁ w' : W} {x : A} {f : Fault} (h : it.next w = (.ok (some x), w₁)) (hr : RoomFor p it.sizeHint i w₁ (some f) w') :
      TakesAll p it i w [] (some f) w'
  | more {i : Nat} {w w₁ w₂ w' : W} {x : A} {xs : List A} {r : Option Fault} (h : it.next w = (.ok (some x), w₁))
      (hr : RoomFor p it.sizeHint i w₁ none w₂) (hs : TakesAll p it (i + 1) w₂ xs r w') : TakesAll p it i w (x :: xs) r w'

/-- `CollectsInto p it dflt build w r w'`: what `collect` should do.  It takes all items of the iterator, and then makes the hasher and the collection,
once and from all items; a panic ends it. -/
inductive CollectsInto (p : RoomPolicy) (it : UserIter W A) (dflt : Eff W Unit) (build : List A → Eff W M) : W → Res M → W → Prop
  | noIter {w w' : W} {f : Fault} (h : it.start w = (.error f, w')) : CollectsInto p it dflt build w (.error f) w'
  | broke {w w₁ w' : W} {xs : List A} {f : Fault} (h : it.start w = (.ok (), w₁)) (hs : TakesAll p it 0 w₁ xs (some f) w') :
      CollectsInto p it dflt build w (.error f) w'
  | noHasher {w w₁ w₂ w' : W} {xs : List A} {f : Fault} (h : it.start w = (.ok (), w₁)) (hs : TakesAll p it 0 w₁ xs none w₂)
      (hd : dflt w₂ = (.error f, w')) : CollectsInto p it dflt build w (.error f) w'
  | made {w w₁ w₂ w₃ w' : W} {xs : List A} {r : Res M} (h : it.start w = (.ok (), w₁)) (hs : TakesAll p it 0 w₁ xs none w₂)
      (hd : dflt w₂ = (.ok (), w₃)) (hb : build xs w₃ = (r, w')) : CollectsInto p it dflt build w r w'

/-- `Collector x p it dflt build`: the computation `x` is `from_iter` of a type with the iterator `it`; `build` is the constructor of the type, called with items of the
iterator, and `dflt` the function that makes its hasher. -/
inductive Collector [Target] : {W A M : Type} → (Nat → Eff W (Option M)) → RoomPolicy → UserIter W A → Eff W Unit → (List A → Eff W M) → Prop
  | hashMap {W K V : Type} (p : RoomPolicy) (find : HbFindDialog) (rehash : HbRehash) (sort : Sorter (K × V)) (eqK : K → K → Eff W Bool)
      (bh : K → Eff W Nat) (dflt : Eff W Unit) (it : UserIter W (K × V)) :
      Collector (FzHashMap.fromIterE p find rehash sort eqK bh dflt it) p it dflt (fun es => FzHashMap.withHasherE find rehash sort eqK bh es)
  | orderedMap {W K V : Type} (p : RoomPolicy) (st : SortBy (K × V)) (cmp : K → K → Eff W Ordering) (it : UserIter W (K × V)) :
      Collector (FzOrderedMap.fromIterE p st cmp it) p it (pure ()) (fun es => EytzingerMap.newE st cmp es)
  | scalarMap {W K V : Type} (p : RoomPolicy) (b : Build) (st : SortBy (K × V)) (sort : Sorter (K × V)) (cmp : K → K → Eff W Ordering)
      (index : K → Eff W Nat) (it : UserIter W (K × V)) :
      Collector (FzScalarMap.fromIterE p b st sort cmp index it) p it (pure ()) (fun es => FzScalarMap.newE b st sort cmp index es)
  | stringMap {W S V : Type} (p : RoomPolicy) (sort : Sorter (Str × V)) (asRef : S → Eff W Str) (bhStr bhSlice : Str → Eff W Nat) (dflt : Eff W Unit)
      (it : UserIter W (S × V)) :
      Collector (FzStringMap.fromIterE p sort asRef bhStr bhSlice dflt it) p it dflt (fun es => FzStringMap.withHasherAsE sort asRef bhStr bhSlice es)
  | hashSet {W T : Type} (p : RoomPolicy) (find : HbFindDialog) (rehash : HbRehash) (sort : Sorter (T × Unit)) (eqT : T → T → Eff W Bool)
      (bh : T → Eff W Nat) (dflt : Eff W Unit) (it : UserIter W T) :
      Collector (FzHashSet.fromIterE p find rehash sort eqT bh dflt it) p it dflt
        (fun xs => FzHashMap.withHasherE find rehash sort eqT bh (xs.map (fun x => (x, ()))))
  | orderedSet {W T : Type} (p : RoomPolicy) (st : SortBy (T × Unit)) (cmp : T → T → Eff W Ordering) (it : UserIter W T) :
      Collector (FzOrderedSet.fromIterE p st cmp it) p it (pure ()) (fun xs => EytzingerMap.newE st cmp (xs.map (fun x => (x, ()))))
  | scalarSet {W T : Type} (p : RoomPolicy) (b : Build) (st : SortBy (T × Unit)) (sort : Sorter (T × Unit)) (cmp : T → T → Eff W Ordering)
      (index : T → Eff W Nat) (it : UserIter W T) :
      Collector (FzScalarSet.fromIterE p b st sort cmp index it) p it (pure ())
        (fun xs => FzScalarMap.newE b st sort cmp index (xs.map (fun x => (x, ()))))
  | stringSet {W S : Type} (p : RoomPolicy) (sort : Sorter (Str × Unit)) (asRef : S → Eff W Str) (bhStr bhSlice : Str → Eff W Nat) (dflt : Eff W Unit)
      (it : UserIter W S) :
      Collector (FzStringSet.fromIterE p sort asRef bhStr bhSlice dflt it) p it dflt
        (fun xs => FzStringMap.withHasherAsE sort asRef bhStr bhSlice (xs.map (fun x => (x, ()))))

/-- `Converts asRef es w r w'`: the keys of the entries `es` are converted to strings, each once and in order, up to the first that panics. -/
inductive Converts {S V : Type} (asRef : S → Eff W Str) : List (S × V) → W → Res (List (Str × V)) → W → Prop
  | all {w : W} : Converts asRef [] w (.ok []) w
  | broke {w w' : W} {s : S} {v : V} {es : List (S × V)} {f : Fault} (h : asRef s w = (.error f, w')) : Converts asRef ((s, v) :: es) w (.error f) w'
  | step {w w₁ w' : W} {s : S} {v : V} {t : Str} {es : List (S × V)} {ts : List (Str × V)} (h : asRef s w = (.ok t, w₁))
      (hs : Converts asRef es w₁ (.ok ts) w') : Converts asRef ((s, v) :: es) w (.ok ((t, v) :: ts)) w'
  | later {w w₁ w' : W} {s : S} {v : V} {t : Str} {es : List (S × V)} {f : Fault} (h : asRef s w = (.ok t, w₁))
      (hs : Converts asRef es w₁ (.error f) w') : Converts asRef ((s, v) :: es) w (.error f) w'

/-- There is always room. -/
def Roomy (p : RoomPolicy) : Prop := ∀ i g n, p i = some g → g n = true

end Frozen.Props
