import Verif.Model.Iterators

/-!
# Programs that use a map

A client program is a sequence of operations (`Op`) on one map.  The functions of the operations are those of
`MapImpl`; this file only adds what the client does with the references it gets back.
-/

namespace Frozen.Model

variable {M Q K V : Type}

/-- One step of a client program. -/
inductive Op (Q K V : Type) where
  /-- `m.get(&q).cloned()` -/
  | get (q : Q)
  /-- `m.get_key_value(&q)` -/
  | getKeyValue (q : Q)
  /-- `m.contains_key(&q)` -/
  | containsKey (q : Q)
  /-- `m[&q]` -/
  | index (q : Q)
  /-- `m.len()` -/
  | len
  /-- `m.iter().collect()` -/
  | iterate
  /-- `if let Some(v) = m.get_mut(&q) { let old = *v; *v = f(old); Some(old) } else { None }` -/
  | update (q : Q) (f : V → V)
  /-- `for (i, (k, v)) in m.iter_mut().enumerate() { *v = f(i, k, *v) }` -/
  | iterMut (f : Nat → K → V → V)
  /-- `for (i, v) in m.values_mut().enumerate() { *v = f(i, *v) }` -/
  | valuesMut (f : Nat → V → V)
  /-- `let refs = m.get_disjoint_mut(qs)`, read all the values, then store `f(i, old)` through reference number `i` -/
  | disjointMut (qs : List Q) (f : Nat → V → V)

/-- What a client observes of one step.  `ub` is undefined behaviour: an out-of-bounds access, or two live mutable
references to the same value. -/
inductive Out (K V : Type) where
  | value (v : Option V)
  | entry (e : Option (K × V))
  | bool (b : Bool)
  | nat (n : Nat)
  | entries (es : List (K × V))
  | values (vs : List (Option V))
  | unit
  | panic
  | ub
deriving DecidableEq

/-- A failed call, as seen by the client. -/
def Out.ofFault : Fault → Out K V
  | .panic _ => .panic
  | .ub _ => .ub

/-- Turn the result of a read-only call into an observation. -/
def Out.ofRes {A : Type} (f : A → Out K V) : Res A → Out K V
  | .ok a => f a
  | .error e => Out.ofFault e

/-- Read the value that a reference returned by `get_mut`/`iter_mut` points at. -/
def MapImpl.readRef (I : MapImpl M Q K V) (m : M) (i : Nat) : Option V := ((I.entries m)[i]?).map (fun e => e.2)

/-- `*r = f(*r)` through the reference to the value of entry `i`. -/
def MapImpl.modifyRef (I : MapImpl M Q K V) (m : M) (i : Nat) (f : V → V) : M :=
  match I.readRef m i with
  | some v => I.write m i (f v)
  | none => m

/-- The `iter_mut` loop over the items that are still to come; `n` is the `enumerate` counter. -/
def MapImpl.forMut (I : MapImpl M Q K V) (f : Nat → K → V → V) : Nat → List (K × Nat) → M → M
  | _, [], m => m
  | n, (k, i) :: items, m => I.forMut f (n + 1) items (I.modifyRef m i (f n k))

/-- Store through the references of `get_disjoint_mut`, in order. -/
def MapImpl.storeAll (I : MapImpl M Q K V) (f : Nat → V → V) : Nat → List (Option Nat) → M → M
  | _, [], m => m
  | n, none :: ps, m => I.storeAll f (n + 1) ps m
  | n, some i :: ps, m => I.storeAll f (n + 1) ps (I.modifyRef m i (f n))

/-- One step: the observation and the map afterwards.  After a panic the map is as it was. -/
def MapImpl.step (I : MapImpl M Q K V) (eqQ : Q → Q → Bool) (m : M) : Op Q K V → Out K V × M
  | .get q => (Out.ofRes .value (I.get m q), m)
  | .getKeyValue q => (Out.ofRes .entry (I.getKeyValue m q), m)
  | .containsKey q => (Out.ofRes .bool (I.containsKey m q), m)
  | .index q => (Out.ofRes (fun v => .value (some v)) (I.index m q), m)
  | .len => (.nat (I.len m), m)
  | .iterate => (.entries (I.iter m).rest, m)
  | .update q f =>
    match I.getMut m q with
    | .error e => (Out.ofFault e, m)
    | .ok none => (.value none, m)
    | .ok (some i) => (.value (I.readRef m i), I.modifyRef m i f)
  | .iterMut f => (.unit, I.forMut f 0 (I.iterMut m).rest m)
  | .valuesMut f => (.unit, I.forMut (fun n _ => f n) 0 (I.iterMut m).rest m)
  | .disjointMut qs f =>
    match I.getDisjointMut eqQ m qs with
    | .error e => (Out.ofFault e, m)
    | .ok ps =>
      if (ps.filterMap id).Nodup then (.values (ps.map (fun p => p.bind (I.readRef m))), I.storeAll f 0 ps m)
      else (.ub, m)

/-- Run a program: all the observations and the final map. -/
def MapImpl.run (I : MapImpl M Q K V) (eqQ : Q → Q → Bool) (m : M) : List (Op Q K V) → List (Out K V) × M
  | [] => ([], m)
  | op :: ops =>
    let (o, m') := I.step eqQ m op
    let (os, m'') := I.run eqQ m' ops
    (o :: os, m'')

end Frozen.Model
