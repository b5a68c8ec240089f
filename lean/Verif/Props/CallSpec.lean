import Verif.Model.Calls
import Mathlib.Data.Finset.Card
import Mathlib.Data.Finset.Dedup

/-!
# Specification of the calls of user code made by lookups
-/

namespace Frozen.Props

open Frozen.Model

variable {M Q K V : Type}

/-- The stored keys that the query was compared with, in order. -/
def compared (calls : List (Call K)) : List K :=
  calls.filterMap fun
    | .equivalent k => some k
    | .compare k => some k
    | _ => none

/-- The number of times the query was hashed or asked for its index. -/
def hashings (calls : List (Call K)) : Nat :=
  (calls.filter fun
    | .equivalent _ => false
    | .compare _ => false
    | _ => true).length

/-- The entry at an optional position. -/
def entryAt (es : List (K × V)) : Option Nat → Res (Option (K × V))
  | some i => (getUnchecked es i).map some
  | none => .ok none

/-- `s` is a search that explains all four lookup functions: they find the entry that `s` finds (and fail only if it
fails). -/
structure SearchOf (I : MapImpl M Q K V) (m : M) (q : Q) (s : Res (Option Nat × List (Call K))) : Prop where
  getMut : I.getMut m q = s.map (fun r => r.1)
  getKeyValue : I.getKeyValue m q = s.bind (fun r => entryAt (I.entries m) r.1)
  get : I.get m q = s.bind (fun r => (entryAt (I.entries m) r.1).map (fun e => e.map Prod.snd))
  containsKey : I.containsKey m q = s.bind (fun r => (entryAt (I.entries m) r.1).map Option.isSome)

/-- What a hash lookup compares: `keys` are the stored keys, `ks` the keys compared with the query, whose hash is `h`,
before answering; `s` is the number of slots. -/
structure BucketProbes (hk : K → Nat) (s h : Nat) (matches? : K → Bool) (keys ks : List K) : Prop where
  /-- every stored key is compared at most once -/
  once : ks.Sublist keys
  /-- only keys in the slot of the query are compared -/
  slot : ∀ k ∈ ks, hk k % s = h % s
  /-- the search stops at the first match -/
  stop : ∀ k ∈ ks.dropLast, matches? k = false
  /-- all keys in the slot are compared unless a match is found -/
  all : (∀ k ∈ ks, matches? k = false) → ∀ k ∈ keys, hk k % s = h % s → k ∈ ks
  /-- the number of comparisons is at most one more than the number of collisions among the stored keys -/
  few : ks.length + ((keys.map (fun k => hk k % s)).toFinset).card ≤ keys.length + 1

/-- The number `s` of slots is reasonable for keys with hash codes `codes`: a power of two, at most 20 (14, 6) times
their number, and without collisions if there are fewer than 128 keys and some power of two between twice and ten times
their number is free of collisions. -/
structure SlotCount (codes : List Nat) (s : Nat) : Prop where
  pow : ∃ b, s = 2 ^ b
  size : codes ≠ [] →
    s < 2 * (codes.length * (if codes.length < 128 then 10 else if codes.length < 1000 then 7 else 3))
  perfect : codes.length < 128 → ∀ b, 2 * codes.length ≤ 2 ^ b → 2 ^ b ≤ 10 * codes.length →
    (codes.map (· % 2 ^ b)).Nodup → (codes.map (· % s)).Nodup

end Frozen.Props
