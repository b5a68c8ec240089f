import Verif.Model.MapImpl

/-!
# The iterators over maps and sets (core/maps/iterators.rs, core/sets/iterators.rs l.1-104)

All of them wrap `core::slice::Iter`, `core::slice::IterMut` or `alloc::vec::IntoIter`.  The wrapped iterator is
modelled by the list of items it still has to give (the documented behaviour of the standard library).
-/

namespace Frozen.Model

variable {K V T A : Type}

/-- A standard-library slice or vector iterator: the items that are still to come. -/
structure StdIter (A : Type) where
  rest : List A

/-- std `next`. -/
def StdIter.next (s : StdIter A) : Option A × StdIter A :=
  match s.rest with
  | [] => (none, s)
  | a :: r => (some a, ⟨r⟩)

/-- std `size_hint` (exact). -/
def StdIter.sizeHint (s : StdIter A) : Nat × Option Nat := (s.rest.length, some s.rest.length)

/-- std `count`. -/
def StdIter.count (s : StdIter A) : Nat := s.rest.length

/-- std `len`. -/
def StdIter.len (s : StdIter A) : Nat := s.rest.length

/-- std `fold`. -/
def StdIter.fold {B : Type} (s : StdIter A) (init : B) (f : B → A → B) : B := s.rest.foldl f init

/-- The functions that an exact-size iterator type provides: `Iterator::{next, size_hint, count, fold}` and
`ExactSizeIterator::len`. -/
structure IterImpl (S A : Type) where
  next : S → Option A × S
  sizeHint : S → Nat × Option Nat
  count : S → Nat
  fold : {B : Type} → S → B → (B → A → B) → B
  len : S → Nat

/-- `maps::Iter` (core/maps/iterators.rs l.7-45).  State: a slice iterator over the entries. -/
def mapIter : IterImpl (StdIter (K × V)) (K × V) where
  next s := let (x, s') := s.next; (x.map (fun entry => (entry.1, entry.2)), s')
  sizeHint s := s.sizeHint
  count s := s.count
  fold s init f := s.fold init (fun acc e => f acc (e.1, e.2))
  len s := s.len

/-- `Iter::new` (core/maps/iterators.rs l.12-16), from `iter()` (core/maps/decl_macros.rs l.5). -/
def mapIterNew (entries : List (K × V)) : StdIter (K × V) := ⟨entries⟩

/-- `maps::IterMut` (core/maps/iterators.rs l.63-103).  An item is the key and the position of the entry whose
value the `&mut V` points at. -/
def mapIterMut : IterImpl (StdIter (K × Nat)) (K × Nat) where
  next s := let (x, s') := s.next; (x.map (fun entry => (entry.1, entry.2)), s')
  sizeHint s := s.sizeHint
  count s := s.count
  fold s init f := s.fold init (fun acc e => f acc (e.1, e.2))
  len s := s.len

/-- `IterMut::new` (core/maps/iterators.rs l.63-72), from `iter_mut()` (core/maps/decl_macros.rs l.11). -/
def mapIterMutNew (entries : List (K × V)) : StdIter (K × Nat) := ⟨entries.zipIdx.map (fun p => (p.1.1, p.2))⟩

/-- `maps::Keys` (core/maps/iterators.rs l.115-156); wraps `Iter`. -/
def mapKeys : IterImpl (StdIter (K × V)) K where
  next s := let (x, s') := mapIter.next s; (x.map (fun x => x.1), s')
  sizeHint s := mapIter.sizeHint s
  count s := mapIter.count s
  fold s init f := mapIter.fold s init (fun acc e => f acc e.1)
  len s := mapIter.len s

/-- `maps::Values` (core/maps/iterators.rs l.173-214); wraps `Iter`. -/
def mapValues : IterImpl (StdIter (K × V)) V where
  next s := let (x, s') := mapIter.next s; (x.map (fun x => x.2), s')
  sizeHint s := mapIter.sizeHint s
  count s := mapIter.count s
  fold s init f := mapIter.fold s init (fun acc e => f acc e.2)
  len s := mapIter.len s

/-- `maps::ValuesMut` (core/maps/iterators.rs l.231-273); wraps `IterMut`. -/
def mapValuesMut : IterImpl (StdIter (K × Nat)) Nat where
  next s := let (x, s') := mapIterMut.next s; (x.map (fun entry => entry.2), s')
  sizeHint s := mapIterMut.sizeHint s
  count s := mapIterMut.count s
  fold s init f := mapIterMut.fold s init (fun acc e => f acc e.2)
  len s := mapIterMut.len s

/-- `maps::IntoIter` (core/maps/iterators.rs l.285-327): owning iterator over the boxed entries. -/
def mapIntoIter : IterImpl (StdIter (K × V)) (K × V) where
  next s := s.next
  sizeHint s := s.sizeHint
  count s := s.count
  fold s init f := s.fold init (fun acc e => f acc (e.1, e.2))
  len s := s.len

/-- `maps::IntoKeys` (core/maps/iterators.rs l.340-382). -/
def mapIntoKeys : IterImpl (StdIter (K × V)) K where
  next s := let (x, s') := mapIntoIter.next s; (x.map (fun x => x.1), s')
  sizeHint s := mapIntoIter.sizeHint s
  count s := mapIntoIter.count s
  fold s init f := mapIntoIter.fold s init (fun acc e => f acc e.1)
  len s := mapIntoIter.len s

/-- `maps::IntoValues` (core/maps/iterators.rs l.385-427). -/
def mapIntoValues : IterImpl (StdIter (K × V)) V where
  next s := let (x, s') := mapIntoIter.next s; (x.map (fun x => x.2), s')
  sizeHint s := mapIntoIter.sizeHint s
  count s := mapIntoIter.count s
  fold s init f := mapIntoIter.fold s init (fun acc e => f acc e.2)
  len s := mapIntoIter.len s

/-- `sets::Iter` (core/sets/iterators.rs l.7-45): wraps the `Iter` of the map from elements to `()`. -/
def setIter : IterImpl (StdIter (T × Unit)) T where
  next s := let (x, s') := mapIter.next s; (x.map (fun entry => entry.1), s')
  sizeHint s := mapIter.sizeHint s
  count s := mapIter.count s
  fold s init f := mapIter.fold s init (fun acc e => f acc e.1)
  len s := mapIter.len s

/-- `sets::IntoIter` (core/sets/iterators.rs l.63-104). -/
def setIntoIter : IterImpl (StdIter (T × Unit)) T where
  next s := let (x, s') := mapIntoIter.next s; (x.map (fun entry => entry.1), s')
  sizeHint s := mapIntoIter.sizeHint s
  count s := mapIntoIter.count s
  fold s init f := mapIntoIter.fold s init (fun acc e => f acc e.1)
  len s := mapIntoIter.len s

/-! ## The functions of a map that make iterators (core/maps/decl_macros.rs l.1-52)

`IntoIter`, `IntoKeys`, `IntoValues` own the entries; the others borrow them. -/

variable {M Q : Type}

/-- `iter` (core/maps/decl_macros.rs l.5-8). -/
def MapImpl.iter (I : MapImpl M Q K V) (m : M) : StdIter (K × V) := mapIterNew (I.entries m)

/-- `iter_mut` (core/maps/decl_macros.rs l.11-14). -/
def MapImpl.iterMut (I : MapImpl M Q K V) (m : M) : StdIter (K × Nat) := mapIterMutNew (I.entries m)

/-- `into_iter` (core/maps/decl_macros.rs l.16-19). -/
def MapImpl.intoIter (I : MapImpl M Q K V) (m : M) : StdIter (K × V) := ⟨I.entries m⟩

end Frozen.Model
