import Verif.Model.Iterators
import Verif.Model.Sets
import Verif.Model.DebugFmt

/-!
# The tests of core/maps/iterators.rs and core/sets/iterators.rs, run on the model

As in `Conformance/Units.lean` every `example` is the transcription of a test of /repo.  The tests of `clone` are those of the original: the model's
iterators are values.
-/

namespace Frozen.Conformance

attribute [local instance] w64

open Frozen.Model

/-- `iter.collect::<Vec<_>>()`. -/
def collectAll {S A : Type} (I : IterImpl S A) (s : S) : List A := I.fold s [] (fun acc a => acc ++ [a])

/-- A loop over the iterator by `next`, at most `fuel` times. -/
def collectNext {S A : Type} (I : IterImpl S A) : Nat → S → List A
  | 0, _ => []
  | fuel + 1, s =>
    match I.next s with
    | (none, _) => []
    | (some a, s) => a :: collectNext I fuel s

/-- `haystack.contains(needle)`, on characters. -/
def containsChars (needle : List Char) : List Char → Bool
  | [] => needle.isEmpty
  | c :: cs => needle.isPrefixOf (c :: cs) || containsChars needle cs

/-- `haystack.contains(needle)`. -/
def contains (haystack needle : String) : Bool := containsChars needle.toList haystack.toList

/-- The entries of the tests. -/
def four : List (String × Nat) := [("Alice", 1), ("Bob", 2), ("Sandy", 3), ("Tom", 4)]

/-- The entries of the other tests. -/
def two : List (String × Nat) := [("Alice", 1), ("Bob", 2)]

/-! ## core/maps/iterators.rs -/

/-- `test_iter`, `test_iter_count`, `test_iter_empty`, `test_iter_size_hint`, `test_iter_clone` (l.435-458, l.499-522). -/
example : mapIter.len (mapIterNew four) = 4 ∧ collectAll mapIter (mapIterNew four) = four ∧ collectNext mapIter 9 (mapIterNew four) = four ∧
    mapIter.count (mapIterNew four) = 4 ∧ mapIter.len (mapIterNew ([] : List (String × Nat))) = 0 ∧
    (mapIter.next (mapIterNew ([] : List (String × Nat)))).1 = none ∧ mapIter.sizeHint (mapIterNew two) = (2, some 2) := by decide +kernel

/-- `test_iter_mut`, `test_iter_mut_count`, `test_iter_mut_empty`, `test_iter_mut_size_hint` (l.471-496, l.507-512): every value is increased through
the reference that the iterator gives out. -/
example : mapIterMut.fold (mapIterMutNew four) four (fun es x => writeAt es x.2 ((es[x.2]?.map (fun e => e.2)).getD 0 + 1)) =
      [("Alice", 2), ("Bob", 3), ("Sandy", 4), ("Tom", 5)] ∧
    mapIterMut.count (mapIterMutNew four) = 4 ∧ mapIterMut.len (mapIterMutNew ([] : List (String × Nat))) = 0 ∧
    (mapIterMut.next (mapIterMutNew ([] : List (String × Nat)))).1 = none ∧ mapIterMut.sizeHint (mapIterMutNew two) = (2, some 2) := by
  decide +kernel

/-- The tests of `Keys` (l.535-575). -/
example : mapKeys.len (mapIterNew two) = 2 ∧ collectAll mapKeys (mapIterNew two) = ["Alice", "Bob"] ∧
    collectNext mapKeys 9 (mapIterNew two) = ["Alice", "Bob"] ∧ mapKeys.count (mapIterNew two) = 2 ∧
    mapKeys.len (mapIterNew ([] : List (String × Nat))) = 0 ∧ (mapKeys.next (mapIterNew ([] : List (String × Nat)))).1 = none ∧
    mapKeys.sizeHint (mapIterNew two) = (2, some 2) := by decide +kernel

/-- The tests of `Values` (l.588-628). -/
example : mapValues.len (mapIterNew two) = 2 ∧ collectAll mapValues (mapIterNew two) = [1, 2] ∧
    collectNext mapValues 9 (mapIterNew two) = [1, 2] ∧ mapValues.count (mapIterNew two) = 2 ∧
    mapValues.len (mapIterNew ([] : List (String × Nat))) = 0 ∧ (mapValues.next (mapIterNew ([] : List (String × Nat)))).1 = none ∧
    mapValues.sizeHint (mapIterNew two) = (2, some 2) := by decide +kernel

/-- The tests of `IntoKeys` and `IntoValues` (l.641-703). -/
example : mapIntoKeys.len ⟨two⟩ = 2 ∧ collectAll mapIntoKeys ⟨two⟩ = ["Alice", "Bob"] ∧ collectNext mapIntoKeys 9 ⟨two⟩ = ["Alice", "Bob"] ∧
    mapIntoKeys.count ⟨two⟩ = 2 ∧ mapIntoKeys.len (⟨[]⟩ : StdIter (String × Nat)) = 0 ∧
    (mapIntoKeys.next (⟨[]⟩ : StdIter (String × Nat))).1 = none ∧ mapIntoKeys.sizeHint ⟨two⟩ = (2, some 2) := by decide +kernel
example : mapIntoValues.len ⟨two⟩ = 2 ∧ collectAll mapIntoValues ⟨two⟩ = [1, 2] ∧ collectNext mapIntoValues 9 ⟨two⟩ = [1, 2] ∧
    mapIntoValues.count ⟨two⟩ = 2 ∧ mapIntoValues.len (⟨[]⟩ : StdIter (String × Nat)) = 0 ∧
    (mapIntoValues.next (⟨[]⟩ : StdIter (String × Nat))).1 = none ∧ mapIntoValues.sizeHint ⟨two⟩ = (2, some 2) := by decide +kernel

/-- The tests of `ValuesMut` (l.706-739). -/
example : mapValuesMut.fold (mapIterMutNew two) two (fun es x => writeAt es x ((es[x]?.map (fun e => e.2)).getD 0 + 1)) = [("Alice", 2), ("Bob", 3)] ∧
    mapValuesMut.len (mapIterMutNew two) = 2 ∧ mapValuesMut.count (mapIterMutNew two) = 2 ∧
    mapValuesMut.len (mapIterMutNew ([] : List (String × Nat))) = 0 ∧
    (mapValuesMut.next (mapIterMutNew ([] : List (String × Nat)))).1 = none ∧
    mapValuesMut.sizeHint (mapIterMutNew two) = (2, some 2) := by decide +kernel

/-- The tests of `IntoIter` (l.752-782). -/
example : mapIntoIter.len ⟨four⟩ = 4 ∧ collectAll mapIntoIter ⟨four⟩ = four ∧ collectNext mapIntoIter 9 ⟨four⟩ = four ∧ mapIntoIter.count ⟨four⟩ = 4 ∧
    mapIntoIter.len (⟨[]⟩ : StdIter (String × Nat)) = 0 ∧ (mapIntoIter.next (⟨[]⟩ : StdIter (String × Nat))).1 = none ∧
    mapIntoIter.sizeHint ⟨two⟩ = (2, some 2) := by decide +kernel

/-- The text of a string and of a number in `Debug` output. -/
def dS (s : String) : String := "\"" ++ s ++ "\""

/-- The text of a number in `Debug` output. -/
def dN (n : Nat) : String := String.ofList (Nat.toDigits 10 n)

/-- The texts contain the names. -/
def shows (r : Res (Option String)) (names : List String) : Bool :=
  match r with
  | .ok (some s) => names.all (contains s)
  | _ => false

/-- The seven `.._debug` tests (l.461-468, l.525-532, l.578-585, l.631-638, l.742-749, l.785-792). -/
example : shows (debugIter plainFmt dS dN (mapIterNew two)) ["Alice", "Bob"] = true ∧
    shows (debugIterMut plainFmt dS dN (fun i => i + 1) (mapIterMutNew two)) ["Alice", "Bob"] = true ∧
    shows (debugKeys plainFmt dS (mapIterNew two)) ["Alice", "Bob"] = true ∧
    shows (debugValues plainFmt dN (mapIterNew two)) ["1", "2"] = true ∧
    shows (debugValuesMut plainFmt dS dN (fun i => i + 1) (mapIterMutNew two)) ["Alice", "Bob"] = true ∧
    shows (debugIntoIter plainFmt dS dN ⟨two⟩) ["Alice", "Bob"] = true := by decide +kernel

/-! ## core/sets/iterators.rs -/

/-- The entries of the sets. -/
def names : List (String × Unit) := [("Alice", ()), ("Bob", ())]

/-- `test_iter` to `test_iter_clone`, `test_iter_fold`, `test_iter_len` (l.484-520, l.739-758). -/
example : collectAll setIter (mapIterNew names) = ["Alice", "Bob"] ∧ collectNext setIter 9 (mapIterNew names) = ["Alice", "Bob"] ∧
    (setIter.next (mapIterNew ([] : List (String × Unit)))).1 = none ∧ setIter.sizeHint (mapIterNew names) = (2, some 2) ∧
    setIter.fold (mapIterNew names) "" (fun acc n => acc ++ n) = "AliceBob" ∧ setIter.len (mapIterNew names) = 2 := by decide +kernel

/-- The tests of `IntoIter` (l.534-559, l.761-780). -/
example : collectAll setIntoIter ⟨names⟩ = ["Alice", "Bob"] ∧ collectNext setIntoIter 9 ⟨names⟩ = ["Alice", "Bob"] ∧
    (setIntoIter.next (⟨[]⟩ : StdIter (String × Unit))).1 = none ∧ setIntoIter.sizeHint ⟨names⟩ = (2, some 2) ∧
    setIntoIter.fold ⟨names⟩ "" (fun acc n => acc ++ n) = "AliceBob" ∧ setIntoIter.len ⟨names⟩ = 2 := by decide +kernel

/-- A `hashbrown::HashSet` of strings. -/
def hb (l : List String) : SetView String := (HbSet.fromIter (· == ·) l).view (· == ·)

/-- The first set of the tests. -/
def set1 : SetView String := hb ["Alice", "Bob"]

/-- The second set of the tests. -/
def set2 : SetView String := hb ["Bob", "Charlie"]

/-- `test_union`, `test_union_empty`, `test_union_clone` (l.562-582, l.684-693; the test sorts what it collects). -/
example : (Union.new set1 set2).sizeHint = (2, some 4) ∧
    (collect Union.next 9 (Union.new set1 set2)).toOption.map (fun l => l.map (fun l => l.isPerm ["Alice", "Bob", "Charlie"])) = some (some true) ∧
    collect Union.next 9 (Union.new (hb []) (hb [])) = .ok (some []) := by decide +kernel

/-- `test_symmetric_difference` and its variants (l.585-604, l.673-681). -/
example : (SymmetricDifference.new set1 set2).sizeHint = (0, some 4) ∧
    collect SymmetricDifference.next 9 (SymmetricDifference.new set1 set2) = .ok (some ["Alice", "Charlie"]) ∧
    collect SymmetricDifference.next 9 (SymmetricDifference.new (hb []) (hb [])) = .ok (some []) := by decide +kernel

/-- `test_difference` and its variants (l.607-626, l.651-659). -/
example : (Difference.new set1 set2).sizeHint = (0, some 2) ∧
    collect Difference.next 9 (Difference.new set1 set2) = .ok (some ["Alice"]) ∧
    collect Difference.next 9 (Difference.new (hb []) (hb [])) = .ok (some []) := by decide +kernel

/-- `test_intersection` and its variants (l.629-648, l.662-670). -/
example : (Intersection.new set1 set2).sizeHint = (0, some 2) ∧
    collect Intersection.next 9 (Intersection.new set1 set2) = .ok (some ["Bob"]) ∧
    collect Intersection.next 9 (Intersection.new (hb []) (hb [])) = .ok (some []) := by decide +kernel

/-- `test_iter_debug` (l.523-531) and the four `.._fmt` tests (l.696-736). -/
example : shows (debugSetIter plainFmt dS (mapIterNew names)) ["Alice", "Bob"] = true ∧
    shows (debugUnion plainFmt dS (Union.new set1 set2)) ["Alice", "Bob", "Charlie"] = true ∧
    shows (debugSymmetricDifference plainFmt dS (SymmetricDifference.new set1 set2)) ["Alice", "Charlie"] = true ∧
    shows (debugDifference plainFmt dS (Difference.new set1 set2)) ["Alice"] = true ∧
    shows (debugIntersection plainFmt dS (Intersection.new set1 set2)) ["Bob"] = true := by decide +kernel

end Frozen.Conformance
