import Verif.Model.EffectSets
import Verif.Model.DebugFmt

/-!
# `Debug` with sinks that fail and elements whose `Debug` has effects

`{:?}` runs `Debug` of keys, values and elements, which is code of the user, and writes to a sink, which may be one of the user (`core::fmt::Write`) and refuse
text.  Both run in the state `W` of the program, may panic and may return `Err(fmt::Error)`: a call of type `Eff W Bool`, with `true` for `Ok(())` and `false`
for `Err`.  The set operations also look elements up while they are formatted.

The builders of `core::fmt` (`library/core/src/fmt/builders.rs`) are not part of the repository; they are transcribed here, with what they write as
a parameter `DebugStyle`.  Only the types are treated whose `fmt` is written in the crate, not those that pass the call on to an iterator of std.
-/

namespace Frozen.Model

variable {W S A K V T : Type}

/-- What a builder writes around the entries.  In the alternate mode `{:#?}` the text goes through a `PadAdapter` that indents it; it is part of
the state of the program here. -/
structure DebugStyle (W : Type) where
  /-- the opening bracket -/
  opening : Eff W Bool
  /-- before an entry; `true` if there was one before.  A comma, or in the alternate mode a new line before the first one -/
  before : Bool → Eff W Bool
  /-- between key and value -/
  colon : Eff W Bool
  /-- after an entry: nothing, or in the alternate mode a comma and a new line -/
  after : Eff W Bool
  /-- the closing bracket -/
  closing : Eff W Bool

/-- `a?; b`. -/
def thenE (a b : Eff W Bool) : Eff W Bool := do
  let c ← a
  if c then b else pure false

/-- `self.result.and_then(|_| a)`. -/
def andThenE (ok : Bool) (a : Eff W Bool) : Eff W Bool := if ok then a else pure false

/-- `DebugInner::entry`, for lists and sets: the new `self.result`. -/
def listEntryE (st : DebugStyle W) (dA : A → Eff W Bool) (ok hasFields : Bool) (a : A) : Eff W Bool :=
  andThenE ok (thenE (st.before hasFields) (thenE (dA a) st.after))

/-- `DebugMap::entry`: `key`, then `value`; the new `self.result`.  The assertions on the order of keys and values hold, since nothing else calls them. -/
def mapEntryE (st : DebugStyle W) (dK : K → Eff W Bool) (dV : V → Eff W Bool) (ok hasFields : Bool) (e : K × V) : Eff W Bool := do
  let ok ← andThenE ok (thenE (st.before hasFields) (thenE (dK e.1) st.colon))
  andThenE ok (thenE (dV e.2) st.after)

/-- `entries`: `for e in entries { self.entry(&e); }`, which does not stop at an error.  A panic ends it.  The fuel is a device of the model (`none` if it did
not suffice). -/
def entriesE (entry : Bool → Bool → A → Eff W Bool) (next : S → W → Res (Option A) × S × W) : Nat → S → Bool → Bool → Eff W (Option Bool)
  | 0, _, _, _ => pure none
  | fuel + 1, s, ok, hasFields => fun w =>
    match next s w with
    | (.ok none, _, w') => (.ok (some ok), w')
    | (.ok (some a), s', w') => (entry ok hasFields a >>= fun ok' => entriesE entry next fuel s' ok' true) w'
    | (.error e, _, w') => (.error e, w')

/-- `f.debug_map().entries(iter).finish()`, likewise `debug_set` and `debug_list`. -/
def debugE (st : DebugStyle W) (entry : Bool → Bool → A → Eff W Bool) (next : S → W → Res (Option A) × S × W) (fuel : Nat) (s : S) : Eff W (Option Bool) := do
  let ok ← st.opening
  let r ← entriesE entry next fuel s ok false
  match r with
  | none => pure none
  | some ok => andThenE ok st.closing >>= fun b => pure (some b)

/-- An iterator whose `next` runs no user code. -/
def quietNext (I : IterImpl S A) (s : S) (w : W) : Res (Option A) × S × W := (.ok (I.next s).1, (I.next s).2, w)

/-- `Debug` of every map type: `debug_trait_funcs!` (core/maps/decl_macros.rs l.90-97), see `debugMap`. -/
def debugMapE {M Q : Type} (st : DebugStyle W) (dK : K → Eff W Bool) (dV : V → Eff W Bool) (I : MapImpl M Q K V) (m : M) : Eff W (Option Bool) :=
  debugE st (mapEntryE st dK dV) (quietNext mapIter) ((I.entries m).length + 1) (I.iter m)

/-- `Debug` of every set type: `debug_trait_funcs!` (core/sets/decl_macros.rs l.64-70), see `debugSet`. -/
def debugSetE {M Q : Type} (st : DebugStyle W) (dT : T → Eff W Bool) (I : SetImpl M Q T) (m : M) : Eff W (Option Bool) :=
  debugE st (listEntryE st dT) (quietNext setIter) ((I.items m).length + 1) ⟨(I.items m).map (fun x => (x, ()))⟩

/-- `Debug` of `maps::Iter` (core/maps/iterators.rs l.53-61), see `debugIter`.  `dE` is `Debug` of a pair, which std makes from those of keys and values. -/
def debugIterE (st : DebugStyle W) (dE : K × V → Eff W Bool) (s : StdIter (K × V)) : Eff W (Option Bool) :=
  debugE st (listEntryE st dE) (quietNext mapIter) (s.rest.length + 1) s

/-- `Debug` of `maps::Keys` (core/maps/iterators.rs l.164-171), see `debugKeys`. -/
def debugKeysE (st : DebugStyle W) (dK : K → Eff W Bool) (s : StdIter (K × V)) : Eff W (Option Bool) :=
  debugE st (listEntryE st dK) (quietNext mapKeys) (s.rest.length + 1) s

/-- `Debug` of `maps::Values` (core/maps/iterators.rs l.222-229), see `debugValues`. -/
def debugValuesE (st : DebugStyle W) (dV : V → Eff W Bool) (s : StdIter (K × V)) : Eff W (Option Bool) :=
  debugE st (listEntryE st dV) (quietNext mapValues) (s.rest.length + 1) s

/-- `Debug` of `sets::Iter` (core/sets/iterators.rs l.54-61), see `debugSetIter`. -/
def debugSetIterE (st : DebugStyle W) (dT : T → Eff W Bool) (s : StdIter (T × Unit)) : Eff W (Option Bool) :=
  debugE st (listEntryE st dT) (quietNext setIter) (s.rest.length + 1) s

/-- `Debug` of `sets::Union` (core/sets/iterators.rs l.208-220), see `debugUnion`. -/
def debugUnionE (st : DebugStyle W) (dT : T → Eff W Bool) (u : UnionE W T) : Eff W (Option Bool) :=
  debugE st (listEntryE st dT) UnionE.next (u.iter1.length + u.iter2.length + 1) u

/-- `Debug` of `sets::Intersection` (core/sets/iterators.rs l.463-474), see `debugIntersection`. -/
def debugIntersectionE (st : DebugStyle W) (dT : T → Eff W Bool) (u : IntersectionE W T) : Eff W (Option Bool) :=
  debugE st (listEntryE st dT) IntersectionE.next (u.iter1.length + u.iter2.length + 1) u

/-- `Debug` of `sets::Difference` (core/sets/iterators.rs l.367-378), see `debugDifference`. -/
def debugDifferenceE (st : DebugStyle W) (dT : T → Eff W Bool) (d : DifferenceE W T) : Eff W (Option Bool) :=
  debugE st (listEntryE st dT) DifferenceE.next (d.iter1.length + 1) d

end Frozen.Model
