import Verif.Props.ParseSpec
import Verif.Props.SizeSpec
import Verif.Model.Emit
import Verif.Model.ConstEval

/-! # Specification: how much space a collection or a piece of code takes -/

namespace Frozen.Props

open Frozen.Model

variable {K V : Type}

/-! ## Code -/

mutual
/-- The number of tokens in a token tree; a pair of delimiters counts as one. -/
def tokensIn : Tk → Nat
  | .ident _ => 1
  | .punct _ _ => 1
  | .lit _ => 1
  | .group _ ts => 1 + tokens ts
/-- The number of tokens in a piece of code. -/
def tokens : List Tk → Nat
  | [] => 0
  | t :: ts => tokensIn t + tokens ts
end

/-- The length of the array that the code lists beside the array of entries, if any. -/
def sideArray : Emitted K V → Nat
  | .sparse _ _ _ _ lookup _ _ => lookup.length
  | .hash _ _ _ slots _ _ => slots.length
  | .hashNC _ _ _ slots _ _ => slots.length
  | _ => 0

/-- The code lists some of the entries `es`, each at most as often as `es` does, and beside them an array that is at most twenty times as long
(or has at most 128 cells). -/
structure CompactCode (es : List (K × V)) (c : Emitted K V) : Prop where
  entries : c.entries.Subperm es
  side : sideArray c ≤ max 128 (20 * c.entries.length)

/-- Whoever prints an expression or a type that has been read from some code does not need more tokens. -/
def PrintsShort {α : Type} (p : TkParser α) (print : α → List Tk) : Prop := ∀ ts a, ReadsAsIn p ts a → tokens (print a) ≤ tokens ts

/-! ## Collections in memory -/

/-- The number of cells, of entries and slots, of a hash table. -/
def HashCells {T : Type} (t : HashTable T) : Nat := t.slots.length + t.entries.length

/-- The number of cells, of entries and lookup tables, of an integer map. -/
def ScalarCells : FzScalarMap K V → Nat
  | .hash m => HashCells m.table
  | .dense m => m.entries.length
  | .sparse m => m.lookup.length + m.entries.length

/-- The number of cells, of entries and slots, of a string map. -/
def StringCells : FzStringMap V → Nat
  | .leftRange _ m => HashCells m.table
  | .rightRange _ m => HashCells m.table
  | .hash m => HashCells m.table

end Frozen.Props
