import Verif.Basic

/-!
# Integer literals in emitted code

A token that is a number is the list of its characters.
-/

namespace Frozen.Model

/-- A numeric token. -/
abbrev Tok := List Char

/-- `Literal::usize_unsuffixed(n)` and `n.to_token_stream()` without the suffix: the decimal digits (used all over
core/emit/generator.rs). -/
def digits (n : Nat) : Tok := Nat.toDigits 10 n

/-- `n.to_token_stream()` for a `usize`: a literal with suffix (core/emit/generator.rs l.118-119, l.304, l.316). -/
def usizeTok (n : Nat) : Tok := digits n ++ "usize".toList

/-- `n.to_token_stream()` for a `u64` (core/emit/collection_emitter.rs l.251, l.355, l.368, l.391). -/
def u64Tok (n : Nat) : Tok := digits n ++ "u64".toList

/-- The loop that looks for the suffix (core/emit/generator.rs l.409-415): the position of the first character that is not
an ASCII digit. -/
def suffixIndex (full : Tok) : Option Nat := full.findIdx? (fun c => !c.isDigit)

/-- The loop that copies the reversed number and inserts `_` (core/emit/generator.rs l.424-430), from position `index`. -/
def pushGroups : Tok → Nat → Tok → Tok
  | [], _, output => output
  | c :: rest, index, output =>
    if index % 3 == 0 && index != 0 then pushGroups rest (index + 1) (output ++ ['_', c])
    else pushGroups rest (index + 1) (output ++ [c])

/-- `Generator::inject_underscores` (core/emit/generator.rs l.407-438), without the final re-parsing of the characters as a
token. -/
def injectUnderscores (full : Tok) : Tok :=
  match suffixIndex full with
  | some index => (pushGroups (full.take index).reverse 0 []).reverse ++ full.drop index
  | none => (pushGroups full.reverse 0 []).reverse

end Frozen.Model
