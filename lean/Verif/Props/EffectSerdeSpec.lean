import Verif.Model.EffectSerde
import Verif.Props.EffectBuildSpec

/-!
# Specification of serialization and deserialization with effects
-/

namespace Frozen.Props

open Frozen Frozen.Model

variable {W E O A M : Type}

/-- `Performed steps last w r w'`: run in state `w`, the steps and then `last` are performed until one fails or panics, with the outcome `r` and in the end the
state `w'`. -/
inductive Performed (last : Eff W (Except E O)) : List (Eff W (Except E Unit)) → W → Res (Except E O) → W → Prop
  | last {w w' : W} {r : Res (Except E O)} (h : last w = (r, w')) : Performed last [] w r w'
  | step {s : Eff W (Except E Unit)} {l : List (Eff W (Except E Unit))} {w w₁ w' : W} {r : Res (Except E O)} (h : s w = (.ok (.ok ()), w₁))
      (hl : Performed last l w₁ r w') : Performed last (s :: l) w r w'
  | failed {s : Eff W (Except E Unit)} {l : List (Eff W (Except E Unit))} {w w' : W} {e : E} (h : s w = (.ok (.error e), w')) :
      Performed last (s :: l) w (.ok (.error e)) w'
  | broke {s : Eff W (Except E Unit)} {l : List (Eff W (Except E Unit))} {w w' : W} {f : Fault} (h : s w = (.error f, w')) :
      Performed last (s :: l) w (.error f) w'

/-- How a source of items comes to its end. -/
inductive Ending (E : Type)
  /-- it says that there are no more -/
  | finished
  /-- it returns an error -/
  | failed (e : E)
  /-- it panics -/
  | broke (f : Fault)

/-- `Supplies next w xs r w'`: asked again and again from state `w` on, the source gives the items `xs` and then ends with `r`, in state `w'`. -/
inductive Supplies (next : Eff W (Except E (Option A))) : W → List A → Ending E → W → Prop
  | finished {w w' : W} (h : next w = (.ok (.ok none), w')) : Supplies next w [] .finished w'
  | failed {w w' : W} {e : E} (h : next w = (.ok (.error e), w')) : Supplies next w [] (.failed e) w'
  | broke {w w' : W} {f : Fault} (h : next w = (.error f, w')) : Supplies next w [] (.broke f) w'
  | more {w w₁ w' : W} {x : A} {xs : List A} {r : Ending E} (h : next w = (.ok (.ok (some x)), w₁)) (hs : Supplies next w₁ xs r w') :
      Supplies next w (x :: xs) r w'

/-- `Restores size acc dflt build w r w'`: what a deserialization should do.  It asks the source how many items there will be, takes all of them, and then makes the
hasher and the collection, once and from all the items; it ends with the first thing that goes wrong. -/
inductive Restores [Target] (size : Nat) (acc : AccessE W E A) (dflt : Eff W Unit) (build : List A → Eff W M) : W → Res (Except E M) → W → Prop
  | noHint {w w' : W} {f : Fault} (h : acc.sizeHint w = (.error f, w')) : Restores size acc dflt build w (.error f) w'
  | tooMany {w w' : W} {n : Option Nat} (h : acc.sizeHint w = (.ok n, w')) (hn : allocLimit ≤ n.getD 0 * size) :
      Restores size acc dflt build w (.error (.panic "capacity overflow")) w'
  | failed {w w₁ w' : W} {n : Option Nat} {xs : List A} {e : E} (h : acc.sizeHint w = (.ok n, w₁)) (hn : n.getD 0 * size < allocLimit)
      (hs : Supplies acc.next w₁ xs (.failed e) w') : Restores size acc dflt build w (.ok (.error e)) w'
  | broke {w w₁ w' : W} {n : Option Nat} {xs : List A} {f : Fault} (h : acc.sizeHint w = (.ok n, w₁)) (hn : n.getD 0 * size < allocLimit)
      (hs : Supplies acc.next w₁ xs (.broke f) w') : Restores size acc dflt build w (.error f) w'
  | noHasher {w w₁ w₂ w' : W} {n : Option Nat} {xs : List A} {f : Fault} (h : acc.sizeHint w = (.ok n, w₁)) (hn : n.getD 0 * size < allocLimit)
      (hs : Supplies acc.next w₁ xs .finished w₂) (hd : dflt w₂ = (.error f, w')) : Restores size acc dflt build w (.error f) w'
  | notBuilt {w w₁ w₂ w₃ w' : W} {n : Option Nat} {xs : List A} {f : Fault} (h : acc.sizeHint w = (.ok n, w₁))
      (hn : n.getD 0 * size < allocLimit) (hs : Supplies acc.next w₁ xs .finished w₂) (hd : dflt w₂ = (.ok (), w₃))
      (hb : build xs w₃ = (.error f, w')) : Restores size acc dflt build w (.error f) w'
  | built {w w₁ w₂ w₃ w' : W} {n : Option Nat} {xs : List A} {m : M} (h : acc.sizeHint w = (.ok n, w₁))
      (hn : n.getD 0 * size < allocLimit) (hs : Supplies acc.next w₁ xs .finished w₂) (hd : dflt w₂ = (.ok (), w₃))
      (hb : build xs w₃ = (.ok m, w')) : Restores size acc dflt build w (.ok (.ok m)) w'

/-- The computation, which takes a number of steps to be allowed, ends in state `w'` with outcome `r`. -/
def EndsWith (x : Nat → Eff W (Option A)) (w : W) (r : Res A) (w' : W) : Prop :=
  ∃ fuel, match r with
    | .ok a => x fuel w = (.ok (some a), w')
    | .error f => x fuel w = (.error f, w')

/-- `Deserializer x size acc dflt build`: the computation `x` is `visit_map` or `visit_seq` of a type with the source `acc`, whose entries have `size` bytes;
`build` is the constructor of the type, called with items of the source, and `dflt` the function that makes its hasher. -/
inductive Deserializer [Target] : {W E A M : Type} → (Nat → Eff W (Option (Except E M))) → Nat → AccessE W E A → Eff W Unit →
    (List A → Eff W M) → Prop
  | hashMap {W E K V : Type} (size : Nat) (find : HbFindDialog) (rehash : HbRehash) (sort : Sorter (K × V)) (eqK : K → K → Eff W Bool)
      (bh : K → Eff W Nat) (dflt : Eff W Unit) (acc : AccessE W E (K × V)) :
      Deserializer (FzHashMap.visitMapE size find rehash sort eqK bh dflt acc) size acc dflt (fun es => FzHashMap.withHasherE find rehash sort eqK bh es)
  | orderedMap {W E K V : Type} (size : Nat) (st : SortBy (K × V)) (cmp : K → K → Eff W Ordering) (acc : AccessE W E (K × V)) :
      Deserializer (FzOrderedMap.visitMapE size st cmp acc) size acc (pure ()) (fun es => EytzingerMap.newE st cmp es)
  | scalarMap {W E K V : Type} (size : Nat) (b : Build) (st : SortBy (K × V)) (sort : Sorter (K × V)) (cmp : K → K → Eff W Ordering)
      (index : K → Eff W Nat) (acc : AccessE W E (K × V)) :
      Deserializer (FzScalarMap.visitMapE size b st sort cmp index acc) size acc (pure ()) (fun es => FzScalarMap.newE b st sort cmp index es)
  | stringMap {W E V : Type} (size : Nat) (sort : Sorter (Str × V)) (bhStr bhSlice : Str → Eff W Nat) (dflt : Eff W Unit)
      (acc : AccessE W E (Str × V)) :
      Deserializer (FzStringMap.visitMapE size sort bhStr bhSlice dflt acc) size acc dflt (fun es => FzStringMap.withHasherE sort bhStr bhSlice es)
  | hashSet {W E T : Type} (size : Nat) (find : HbFindDialog) (rehash : HbRehash) (sort : Sorter (T × Unit)) (eqT : T → T → Eff W Bool)
      (bh : T → Eff W Nat) (dflt : Eff W Unit) (acc : AccessE W E T) :
      Deserializer (FzHashSet.visitSeqE size find rehash sort eqT bh dflt acc) size acc dflt
        (fun xs => FzHashMap.withHasherE find rehash sort eqT bh (xs.map (fun x => (x, ()))))
  | orderedSet {W E T : Type} (size : Nat) (st : SortBy (T × Unit)) (cmp : T → T → Eff W Ordering) (acc : AccessE W E T) :
      Deserializer (FzOrderedSet.visitSeqE size st cmp acc) size acc (pure ()) (fun xs => EytzingerMap.newE st cmp (xs.map (fun x => (x, ()))))
  | scalarSet {W E T : Type} (size : Nat) (b : Build) (st : SortBy (T × Unit)) (sort : Sorter (T × Unit)) (cmp : T → T → Eff W Ordering)
      (index : T → Eff W Nat) (acc : AccessE W E T) :
      Deserializer (FzScalarSet.visitSeqE size b st sort cmp index acc) size acc (pure ())
        (fun xs => FzScalarMap.newE b st sort cmp index (xs.map (fun x => (x, ()))))
  | stringSet {W E : Type} (size : Nat) (sort : Sorter (Str × Unit)) (bhStr bhSlice : Str → Eff W Nat) (dflt : Eff W Unit)
      (acc : AccessE W E Str) :
      Deserializer (FzStringSet.visitSeqE size sort bhStr bhSlice dflt acc) size acc dflt
        (fun xs => FzStringMap.withHasherE sort bhStr bhSlice (xs.map (fun x => (x, ()))))

/-- The state records in `bad` whether user code has panicked, and the call has this code panic exactly if it leaves a mark. -/
def MarksPanics (bad : W → Prop) (x : Eff W A) : Prop := ∀ w, ¬ bad w → (bad (x w).2 ↔ Panics (x w).1)

end Frozen.Props
