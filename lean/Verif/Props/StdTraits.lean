import Mathlib.Tactic.Tauto
import Verif.Model.StdTraits

/-!
# C85: the standard collections can be used through the traits with the queries they answer themselves
-/

namespace Frozen.Props

open Frozen.Model

/-- The query types of `get` and `contains` of the collections themselves, as documented: `std::collections::HashMap::get` and `HashSet::contains` ask for
`K: Borrow<Q>`, `Q: Hash + Eq + ?Sized`, `BTreeMap::get` and `BTreeSet::contains` for `K: Borrow<Q> + Ord`, `Q: Ord + ?Sized`, those of `hashbrown` for
`Q: Hash + Equivalent<K> + ?Sized`; the maps and sets that hash have keys that are `Eq` and `Hash`. -/
def Answers (c : PairCaps) : StdType → Prop
  | .hashMap | .hashSet => c.keyHash = true ∧ c.keyEq = true ∧ c.borrow = true ∧ c.hash = true ∧ c.eq = true
  | .btreeMap | .btreeSet => c.keyOrd = true ∧ c.borrow = true ∧ c.ord = true
  | .hashbrownMap | .hashbrownSet => c.keyHash = true ∧ c.keyEq = true ∧ c.hash = true ∧ c.equivalent = true

/-- **C85, partial.**  The traits are implemented for no other queries than those the collection answers itself; for all of these if the query type is sized
and `Eq`.  Missing: unsized query types and query types that are not `Eq`, see `c85_violated`. -/
theorem c85_queries_partial (c : PairCaps) (t : StdType) (r : QueryTrait) :
    (t.implements c r = true → Answers c t) ∧ (Answers c t → c.sized = true → c.eq = true → t.implements c r = true) := by
  cases t <;> cases r <;> simp only [StdType.implements, Answers, Bool.and_eq_true] <;> tauto

/-- **C85, exactly.**  A query that the collection answers itself is missing from a trait exactly in these cases: the query type is unsized (as `str` is) and
the trait is `Map` of a `BTreeMap`, `Set` of a `HashSet`, or any of those of a `BTreeSet`; or the query type is not `Eq` and the trait is `MapQuery` or `Map` of
a `hashbrown::HashMap`. -/
theorem c85_missing_iff (c : PairCaps) (t : StdType) (r : QueryTrait) (h : Answers c t) :
    t.implements c r = false ↔
      (c.sized = false ∧ ((t = .btreeMap ∧ r = .whole) ∨ (t = .hashSet ∧ r = .whole) ∨ t = .btreeSet)) ∨
      (c.eq = false ∧ t = .hashbrownMap ∧ (r = .query ∨ r = .whole)) := by
  cases t <;> cases r <;> simp only [Answers] at h <;> simp [StdType.implements, h]

/-- `String` keys and `str` queries. -/
def stringStr : PairCaps := ⟨true, true, true, true, false, true, true, true, true⟩

/-- **C85, violated.**  A `HashSet<String>`, a `BTreeSet<String>` and a `BTreeMap<String, V>` answer `str` queries, but the first two are no `Set<String, str>`
and the last no `Map<String, V, str>`; a `HashMap<String, V>` and the collections of `hashbrown` are. -/
theorem c85_violated :
    (∀ t, Answers stringStr t) ∧ StdType.hashSet.implements stringStr .whole = false ∧ StdType.btreeSet.implements stringStr .whole = false ∧
    StdType.btreeSet.implements stringStr .query = false ∧ StdType.btreeMap.implements stringStr .whole = false ∧
    StdType.hashMap.implements stringStr .whole = true ∧ StdType.hashbrownMap.implements stringStr .whole = true ∧
    StdType.hashbrownSet.implements stringStr .whole = true := by
  refine ⟨fun t => ?_, rfl, rfl, rfl, rfl, rfl, rfl, rfl⟩
  cases t <;> simp [Answers, stringStr]

/-- What `Map` and `Set` extend is implemented wherever they are. -/
theorem c85_supertraits (c : PairCaps) (t : StdType) (h : t.implements c .whole = true) :
    t.implements c .query = true ∧ t.implements c .extras = true := by
  cases t <;> simp only [StdType.implements, Bool.and_eq_true] at h ⊢ <;> tauto

example : Answers { stringStr with sized := true } .btreeSet ∧ StdType.btreeSet.implements { stringStr with sized := true } .whole = true := by
  simp [Answers, stringStr, StdType.implements]

end Frozen.Props
