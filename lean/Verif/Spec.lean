import Verif.Basic

/-!
# Specification

What a frozen collection is supposed to mean, stated without reference to any of the modelled
code.  A collection is specified by the list of entries it was built from.
-/

namespace Frozen.Spec

/-- The entry a query `q` designates in the construction input: the **last** entry whose key
matches (`m q key`). -/
def lastMatch {Q K V : Type _} (m : Q → K → Bool) (es : List (K × V)) (q : Q) : Option (K × V) :=
  es.foldl (fun acc e => if m q e.1 then some e else acc) none

/-- Generic keep-last deduplication: an element survives iff no later element equals it. The order
of the survivors is that of the input. -/
def keepLast {α : Type _} (eq : α → α → Bool) : List α → List α
  | [] => []
  | x :: xs => if xs.any (eq x) then keepLast eq xs else x :: keepLast eq xs

/-- Keep-last deduplication of entries by key. -/
def survivors {K V : Type _} (eqK : K → K → Bool) (es : List (K × V)) : List (K × V) :=
  keepLast (fun a b => eqK a.1 b.1) es

/-- No two positions of the list hold equal elements. -/
def Distinct {α : Type _} (eq : α → α → Bool) (xs : List α) : Prop :=
  xs.Pairwise (fun a b => eq a b = false)

/-- `eq` is an equivalence relation (the contract of Rust's `Eq`). -/
structure LawfulEq' {K : Type _} (eq : K → K → Bool) : Prop where
  refl : ∀ a, eq a a = true
  symm : ∀ a b, eq a b = true → eq b a = true
  trans : ∀ a b c, eq a b = true → eq b c = true → eq a c = true

/-- A query type matches keys consistently with key equality (contract of `Equivalent`):
a query that matches a key matches exactly the keys equal to it. -/
structure LawfulQuery {Q K : Type _} (eqK : K → K → Bool) (m : Q → K → Bool) : Prop where
  congr : ∀ q a b, m q a = true → (m q b = true ↔ eqK a b = true)

/-- Equal keys hash equally, and a query hashes like the keys it matches (contract of
`Hash` / `Equivalent`). -/
structure LawfulHash {Q K : Type _} (eqK : K → K → Bool) (m : Q → K → Bool)
    (hK : K → Nat) (hQ : Q → Nat) : Prop where
  key : ∀ a b, eqK a b = true → hK a = hK b
  query : ∀ q a, m q a = true → hQ q = hK a

/-- A total order given by a comparison function (contract of `Ord`). -/
structure LawfulCmp {K : Type _} (cmp : K → K → Ordering) : Prop where
  refl : ∀ a, cmp a a = .eq
  swap : ∀ a b, cmp a b = (cmp b a).swap
  trans : ∀ a b c, cmp a b ≠ .gt → cmp b c ≠ .gt → cmp a c ≠ .gt

/-- A query type is ordered consistently with the keys (contract of `Comparable`): the position of a
query relative to keys is monotone and respects equality of keys. -/
structure LawfulQueryCmp {Q K : Type _} (cmp : K → K → Ordering) (qcmp : Q → K → Ordering) : Prop where
  congr : ∀ q a b, qcmp q a = .eq → qcmp q b = cmp a b
  lt : ∀ q a b, qcmp q a = .lt → cmp a b ≠ .gt → qcmp q b = .lt
  gt : ∀ q a b, qcmp q a = .gt → cmp b a ≠ .gt → qcmp q b = .gt

/-- Contract of the `Scalar` key types: ordered and compared by index, and indices fit in a `usize`. -/
structure LawfulScalar [Target] {K : Type _} (cmp : K → K → Ordering) (index : K → Nat) : Prop where
  cmp : ∀ a b, cmp a b = compare (index a) (index b)
  bound : ∀ a, index a ≤ usizeMax

/-- A scalar query matches the keys with its index. -/
def scalarMatch {Q K : Type _} (index : K → Nat) (qindex : Q → Nat) (q : Q) (k : K) : Bool := qindex q == index k

/-- Number of different values in a list. -/
def distinctCount (xs : List Nat) : Nat := (keepLast (fun a b => a == b) xs).length

/-- In-order traversal of the implicit binary tree with `n` nodes (children of `i`: `2i+1`, `2i+2`), from node
`i`: the left subtree, then `i`, then the right subtree. -/
def inorder (n i : Nat) : List Nat :=
  if i < n then inorder n (2 * i + 1) ++ i :: inorder n (2 * i + 2) else []
termination_by n - i

/-! ## Iterators

What a sequence of `next` calls does.  `next s` is the result of one call in iterator state `s`, together with the
state after the call. -/

/-- The items obtained by calling `next` until it first answers `None`, and the state after that. -/
inductive Yields {S A : Type _} (next : S → Res (Option A × S)) : S → List A → S → Prop
  | nil {s s' : S} : next s = .ok (none, s') → Yields next s [] s'
  | cons {s s1 s' : S} {a : A} {as : List A} : next s = .ok (some a, s1) → Yields next s1 as s' →
      Yields next s (a :: as) s'

/-- `s'` is reached from `s` by calls of `next` that gave the items `as`. -/
inductive Reaches {S A : Type _} (next : S → Res (Option A × S)) : S → List A → S → Prop
  | refl {s : S} : Reaches next s [] s
  | step {s s1 s' : S} {a : A} {as : List A} : next s = .ok (some a, s1) → Reaches next s1 as s' →
      Reaches next s (a :: as) s'

/-- The next `n` calls all answer `None`. -/
def NoneFor {S A : Type _} (next : S → Res (Option A × S)) : Nat → S → Prop
  | 0, _ => True
  | n + 1, s => ∃ s', next s = .ok (none, s') ∧ NoneFor next n s'

end Frozen.Spec
