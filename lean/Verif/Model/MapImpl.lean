import Verif.Model.Dedup

/-!
# The map traits, and the functions every map derives from its primary functions

`MapImpl M Q K V` bundles the primary functions of a map type `M` with keys `K` and values `V` when
queried with `Q`: `Map`, `MapQuery`, `MapExtras`, `MapIteration`, `Len`
(core/traits/map.rs, map_query.rs, map_extras.rs, map_iteration.rs, len.rs).
-/

namespace Frozen.Model

variable {M Q K V : Type}

/-- The primary functions of a map type (core/maps/decl_macros.rs l.407-479 forward the traits to the inherent
functions of the same names).  `getMut` returns the position (in iteration order) of the entry whose value the
returned reference points at; `write m i v` is the effect of storing `v` through such a reference;
`entries` is the slice that all the iterators walk (l.1-52). -/
structure MapImpl (M Q K V : Type) where
  get : M → Q → Res (Option V)
  getMut : M → Q → Res (Option Nat)
  getKeyValue : M → Q → Res (Option (K × V))
  containsKey : M → Q → Res Bool
  len : M → Nat
  entries : M → List (K × V)
  write : M → Nat → V → M

/-- Store through a `&mut V` that points into an entry slice: only the value of that entry changes.  (Rust reference
semantics; used for `get_mut`, `iter_mut`, `values_mut`, core/maps/decl_macros.rs l.11, l.42.) -/
def writeAt (es : List (K × V)) (i : Nat) (v : V) : List (K × V) := es.modify i (fun e => (e.1, v))

/-- `is_empty` (core/maps/decl_macros.rs l.65-70, l.81-86). -/
def MapImpl.isEmpty (I : MapImpl M Q K V) (m : M) : Bool := I.len m == 0

/-- `Index::index` (core/maps/decl_macros.rs l.349-358): `get(..).expect("index should be valid")`. -/
def MapImpl.index (I : MapImpl M Q K V) (m : M) (q : Q) : Res V := do
  match ← I.get m q with
  | some v => .ok v
  | none => .error (.panic "index should be valid")

/-- `get_disjoint_unchecked_mut` (core/maps/decl_macros.rs l.265-277): `array::from_fn` calls `get_mut` for each key
in order. -/
def MapImpl.getDisjointUncheckedMut (I : MapImpl M Q K V) (m : M) : List Q → Res (List (Option Nat))
  | [] => .ok []
  | q :: qs => do
    let p ← I.getMut m q
    let ps ← I.getDisjointUncheckedMut m qs
    .ok (p :: ps)

/-- `get_disjoint_mut` (core/maps/decl_macros.rs l.255-263).  `eqQ` is the `Eq` of the query type. -/
def MapImpl.getDisjointMut (I : MapImpl M Q K V) (eqQ : Q → Q → Bool) (m : M) (qs : List Q) :
    Res (List (Option Nat)) := do
  if ← hasDuplicates eqQ qs then .error (.panic "duplicate keys found")
  else I.getDisjointUncheckedMut m qs

/-- `self.iter().all(|(key, value)| other.get(key).map_or(false, |v| *value == *v))`
(core/maps/decl_macros.rs l.488); stops at the first failure. -/
def allEntriesIn {M' V' : Type} (J : MapImpl M' K K V') (eqV : V → V' → Bool) (other : M') : List (K × V) → Res Bool
  | [] => .ok true
  | e :: es => do
    match ← J.get other e.1 with
    | some v => if eqV e.2 v then allEntriesIn J eqV other es else .ok false
    | none => .ok false

/-- `PartialEq::eq` between two map types (core/maps/decl_macros.rs l.481-491).  The second map is queried with the
first one's keys. -/
def MapImpl.eq {M' V' : Type} (I : MapImpl M Q K V) (J : MapImpl M' K K V') (eqV : V → V' → Bool) (self : M)
    (other : M') : Res Bool :=
  if I.len self != J.len other then .ok false
  else allEntriesIn J eqV other (I.entries self)

end Frozen.Model
