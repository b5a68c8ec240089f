import Verif.Model.Emit

/-!
# What the Rust compiler makes of emitted code

This file is not a model of code in /repo: it is the (trusted) meaning of the Rust fragment that the generator emits -- integer
literals, array literals checked against const generics, and calls of the constructors modelled in `Model/InlineMaps.lean`.
-/

namespace Frozen.Model

variable {K V F : Type}

/-! ## Integer literals -/

/-- Characters of the numeric part of a decimal literal. -/
def isLitChar (c : Char) : Bool := c.isDigit || c == '_'

/-- The value and the suffix of a decimal integer literal, `none` if the token is not one. -/
def litEval (t : Tok) : Option (Nat × Tok) :=
  match t with
  | [] => none
  | c :: _ =>
    if c.isDigit then
      some (Nat.ofDigitChars 10 ((t.takeWhile isLitChar).filter (fun c => c.isDigit)) 0, t.dropWhile isLitChar)
    else none

/-- A literal where a value of an unsigned type with the given name and maximum is expected (`none`: type error, or
the deny-by-default lint `overflowing_literals`). -/
def litAs (ty : String) (max : Nat) (t : Tok) : Option Nat :=
  match litEval t with
  | none => none
  | some (n, suffix) => if (suffix == [] || suffix == ty.toList) && decide (n ≤ max) then some n else none

/-- A literal of type `usize`. -/
def litUsize [Target] (t : Tok) : Option Nat := litAs "usize" usizeMax t

/-- A literal of type `u64`. -/
def litU64 (t : Tok) : Option Nat := litAs "u64" (2 ^ 64 - 1) t

/-- The Rust type of a magnitude (core/traits/collection_magnitude.rs l.14, l.22, l.30). -/
def Magnitude.typeName : Magnitude → String
  | .small => "u8"
  | .medium => "u16"
  | .large => "usize"

/-- A literal of the type of a magnitude. -/
def litMag [Target] (cm : Magnitude) (t : Tok) : Option Nat := litAs cm.typeName cm.maxCapacity t

/-- An array literal of magnitude literals. -/
def litMags [Target] (cm : Magnitude) : List Tok → Option (List Nat)
  | [] => some []
  | t :: ts =>
    match litMag cm t, litMags cm ts with
    | some n, some ns => some (n :: ns)
    | _, _ => none

/-- An array literal of `HashTableSlot::new(min, max)`. -/
def litSlots [Target] (cm : Magnitude) : List (Tok × Tok) → Option (List Slot)
  | [] => some []
  | t :: ts =>
    match litMag cm t.1, litMag cm t.2, litSlots cm ts with
    | some a, some b, some ss => some (⟨a, b⟩ :: ss)
    | _, _, _ => none

/-- An array literal where the array length is the const generic `len`. -/
def arrayLen [Target] {α : Type} (len : Tok) (xs : List α) : Option Nat :=
  match litUsize len with
  | some n => if n = xs.length then some n else none
  | none => none

/-- The hasher constructor. -/
def HasherTok.eval [Target] : HasherTok → Option InlineHasher
  | .bridge seed => (litU64 seed).map .bridge
  | .scalar => some .scalar
  | .length => some .length
  | .left start stop seed =>
    match litUsize start, litUsize stop, litU64 seed with
    | some a, some b, some s => some (.left a b s)
    | _, _, _ => none
  | .right start stop seed =>
    match litUsize start, litUsize stop, litU64 seed with
    | some a, some b, some s => some (.right a b s)
    | _, _, _ => none

/-! ## Constructor expressions -/

/-- The constructor of the colliding inline hash map. -/
def runHash (sz : Nat) (slots : List Slot) (entries : List (K × V)) (h : InlineHasher) : Res (InlineMap K V) := do
  let t ← HashTable.newRaw slots entries
  .ok { sz := sz, repr := .hash h { table := t } }

/-- The constructor of the collision-free inline hash map. -/
def runHashNC (sz : Nat) (slots : List Nat) (entries : List (K × V)) (h : InlineHasher) : Res (InlineMap K V) := do
  let t ← HashTableNC.newRaw slots entries
  .ok { sz := sz, repr := .hashNC h { table := t } }

/-- `Sum.inl` under the panic monad. -/
def inlRes (r : Res (InlineMap K V)) : Res (InlineMap K V ⊕ F) := do
  let m ← r
  .ok (Sum.inl m)

/-- `Sum.inr` under the panic monad. -/
def inrRes (r : Res F) : Res (InlineMap K V ⊕ F) := do
  let m ← r
  .ok (Sum.inr m)

/-- Compiling and evaluating a constructor expression: `none` if it does not compile, otherwise the result of
evaluating it.  `eqK` and `cmp` are `Eq` and `Ord` of the key type and `fz` the `new` functions of the `Fz*` types
(`none` if the key type does not fit). -/
def Emitted.compile [Target] (eqK : K → K → Bool) (cmp : K → K → Ordering) (fz : FzKind → List (K × V) → Option (Res F)) :
    Emitted K V → Option (Res (InlineMap K V ⊕ F))
  | .scanRaw len es => (arrayLen len es).map fun n => .ok (.inl { sz := n, repr := .scan { entries := es } })
  | .scanNew len es => (litUsize len).map fun n => inlRes (InlineMap.scanNew n eqK es)
  | .eytzingerRaw len es => (arrayLen len es).map fun n => .ok (.inl { sz := n, repr := .eytzinger { entries := es } })
  | .eytzingerNew len es => (litUsize len).map fun n => inlRes (InlineMap.eytzingerNew n cmp es)
  | .dense len es min max =>
    match arrayLen len es, litUsize min, litUsize max with
    | some n, some a, some b => some (.ok (.inl { sz := n, repr := .dense { min := a, max := b, entries := es } }))
    | _, _, _ => none
  | .sparse len numSlots cm es lookup min max =>
    match arrayLen len es, arrayLen numSlots lookup, litMags cm lookup, litUsize min, litUsize max with
    | some n, some _, some l, some a, some b =>
      some (.ok (.inl { sz := n, repr := .sparse { min := a, max := b, lookup := l, entries := es } }))
    | _, _, _, _, _ => none
  | .hash len numSlots cm slots es hasher =>
    match arrayLen len es, arrayLen numSlots slots, litSlots cm slots, hasher.eval with
    | some n, some _, some ss, some h => some (inlRes (runHash n ss es h))
    | _, _, _, _ => none
  | .hashNC len numSlots cm slots es hasher =>
    match arrayLen len es, arrayLen numSlots slots, litMags cm slots, hasher.eval with
    | some n, some _, some ss, some h => some (inlRes (runHashNC n ss es h))
    | _, _, _, _ => none
  | .fz kind es => (fz kind es).map inrRes

end Frozen.Model
