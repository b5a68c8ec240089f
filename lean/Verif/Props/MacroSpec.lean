import Verif.Props.MapSpec
import Verif.Model.Macros

/-! # Vocabulary for the properties of the emitter and of the macros -/

namespace Frozen.Props

open Frozen.Spec Frozen.Model

/-- The emitter options fit together. -/
def ValidOptions (em : Emitter) : Prop :=
  ¬ (em.isStatic = true ∧ em.isMutable = true) ∧
  (em.isStatic = true ∨ em.isMutable = true ∨ em.aliasName.isSome = true → em.symbolName.isSome = true)

/-- The key expression is the literal `l`, possibly inside an invisible group. -/
inductive KeyIs : KeySyntax → Lit → Prop
  | lit (l : Lit) : KeyIs (.lit l) l
  | group (l : Lit) : KeyIs (.group (.lit l)) l

/-- The names of the integer types; the undecided type is the empty suffix. -/
def suffixName : ScalarType → String
  | .i8 => "i8" | .i16 => "i16" | .i32 => "i32" | .i64 => "i64" | .isize => "isize"
  | .u8 => "u8" | .u16 => "u16" | .u32 => "u32" | .u64 => "u64" | .usize => "usize"
  | .undecided => ""

/-- A key that no `fz_*` macro accepts: a literal that is neither a string nor an integer, or an integer with a suffix that
names none of the ten integer types. -/
def BadLiteral (k : KeySyntax) : Prop :=
  KeyIs k .other ∨ ∃ n s, KeyIs k (.int n s) ∧ s ∉ ["", "i8", "i16", "i32", "i64", "isize", "u8", "u16", "u32", "u64", "usize"]

/-- The key is a string literal. -/
def IsStrLit (k : KeySyntax) : Prop := ∃ v, KeyIs k (.str v)

/-- The key is an integer literal. -/
def IsIntLit (k : KeySyntax) : Prop := ∃ n s, KeyIs k (.int n s)

/-- The keys that a macro of the given kind cannot accept together. -/
def Incompatible (kind : MacroKind) (keys : List KeySyntax) : Prop :=
  (∃ k ∈ keys, BadLiteral k) ∨
  (kind = .scalar ∧ ∃ k ∈ keys, IsStrLit k) ∨
  (kind = .string ∧ ∃ k ∈ keys, IsIntLit k) ∨
  (∃ k ∈ keys, ∃ k' ∈ keys, ∃ n s n' s', KeyIs k (.int n s) ∧ KeyIs k' (.int n' s') ∧ s ≠ "" ∧ s' ≠ "" ∧ s ≠ s')

/-- Every key is an integer literal, with no suffix or the one of the type `t`, which is the type of some key unless no key has a
suffix. -/
def AllInts (kind : MacroKind) (keys : List KeySyntax) (t : ScalarType) : Prop :=
  kind ≠ .string ∧ (∀ k ∈ keys, ∃ n s, KeyIs k (.int n s) ∧ (s = "" ∨ s = suffixName t)) ∧
  (t = .undecided ∨ ∃ k ∈ keys, ∃ n, KeyIs k (.int n (suffixName t)))

/-- Every key is a string literal. -/
def AllStrs (kind : MacroKind) (keys : List KeySyntax) : Prop := kind ≠ .scalar ∧ ∀ k ∈ keys, IsStrLit k

/-- Scalar keys of which some are not literals. -/
def MixedInts (kind : MacroKind) (keys : List KeySyntax) : Prop :=
  ¬ Incompatible kind keys ∧ (∀ k ∈ keys, ¬ IsStrLit k) ∧ (∃ k ∈ keys, ¬ IsIntLit k) ∧
  (kind = .scalar ∨ ∃ k ∈ keys, IsIntLit k)

/-- String keys of which some are not string literals. -/
def MixedStrs (kind : MacroKind) (keys : List KeySyntax) : Prop :=
  ¬ Incompatible kind keys ∧ (∃ k ∈ keys, ¬ IsStrLit k) ∧ (kind = .string ∨ ∃ k ∈ keys, IsStrLit k)

/-- No key is a literal. -/
def NoLits (keys : List KeySyntax) : Prop := ∀ k ∈ keys, ∀ l, ¬ KeyIs k l

/-- The largest value of a literal of the type; literals without suffix are of type `i32`. -/
def litMax : ScalarType → Nat
  | .i8 => 127 | .i16 => 32767 | .i32 => 2147483647 | .i64 => 9223372036854775807 | .isize => 9223372036854775807
  | .u8 => 255 | .u16 => 65535 | .u32 => 4294967295 | .u64 => 18446744073709551615 | .usize => 18446744073709551615
  | .undecided => 2147483647

/-- The entries of a macro call, evaluated. -/
def macroWritten {K V : Type} (isMap : Bool) (unit : V) (entries : List (MacroEntry K V)) : List (K × V) :=
  entries.map (fun e => (e.keyValue, if isMap then e.value.getD unit else unit))

/-- The map answers queries, iterates and counts according to the entries `es` (the last entry of each key). -/
structure Behaves {M Q K V : Type} (I : MapImpl M Q K V) (m : M) (eqK : K → K → Bool) (mt : Q → K → Bool)
    (es : List (K × V)) : Prop where
  lookups : Lookups I m mt es
  contents : Contents I m eqK es
  len : ∀ R, Representatives eqK es R → I.len m = R.length

/-- The functions of a value that is either of two map types. -/
def sumImpl {M F Q K V : Type} (I : MapImpl M Q K V) (J : MapImpl F Q K V) : MapImpl (M ⊕ F) Q K V where
  get m := m.elim I.get J.get
  getMut m := m.elim I.getMut J.getMut
  getKeyValue m := m.elim I.getKeyValue J.getKeyValue
  containsKey m := m.elim I.containsKey J.containsKey
  len m := m.elim I.len J.len
  entries m := m.elim I.entries J.entries
  write m i v := m.elim (fun m => .inl (I.write m i v)) (fun m => .inr (J.write m i v))

/-- The item is declared as asked for: static items hold their value directly if keys and values are constant and a lazily initialised
value otherwise; with a name it is a `let` statement; else an expression. -/
def ItemShape {α : Type} (em : Emitter) : Item α → Prop
  | .staticConst s a _ => em.isStatic = true ∧ em.constKeys = true ∧ em.constValues = true ∧ em.symbolName = some s ∧ em.aliasName = a
  | .staticLazy s a _ => em.isStatic = true ∧ ¬ (em.constKeys = true ∧ em.constValues = true) ∧ em.symbolName = some s ∧ em.aliasName = a
  | .letStmt mu s a _ => em.isStatic = false ∧ em.isMutable = mu ∧ em.symbolName = some s ∧ em.aliasName = a
  | .expr _ => em.isStatic = false ∧ em.symbolName = none ∧ em.isMutable = false ∧ em.aliasName = none

/-- The token is an integer literal of value `n` that can stand where the unsigned type named `ty` with maximum `max` is
expected. -/
def NumLit (ty : String) (max : Nat) (t : Tok) (n : Nat) : Prop :=
  ∃ suffix, litEval t = some (n, suffix) ∧ (suffix = [] ∨ suffix = ty.toList) ∧ n ≤ max

/-- The token is a `usize` literal of value `n`. -/
def UsizeLit [Target] (t : Tok) (n : Nat) : Prop := NumLit "usize" usizeMax t n

/-- The token is a literal, of value `n`, for the integer type that belongs to the magnitude. -/
def MagLit [Target] (cm : Magnitude) (t : Tok) (n : Nat) : Prop := NumLit cm.typeName cm.maxCapacity t n

/-- The hasher expression is well typed. -/
def HasherTyped [Target] : HasherTok → Prop
  | .bridge seed => ∃ n, NumLit "u64" (2 ^ 64 - 1) seed n
  | .scalar => True
  | .length => True
  | .left start stop seed => ∃ a b n, UsizeLit start a ∧ UsizeLit stop b ∧ a ≤ b ∧ NumLit "u64" (2 ^ 64 - 1) seed n
  | .right start stop seed => ∃ a b n, UsizeLit start a ∧ UsizeLit stop b ∧ a ≤ b ∧ NumLit "u64" (2 ^ 64 - 1) seed n

/-- The emitted constructor is well typed: array lengths given as const generics are the lengths of the arrays, literals fit their
types; moreover table slots point into the entries. -/
def WellTyped [Target] {K V : Type} : Emitted K V → Prop
  | .scanRaw len es => UsizeLit len es.length
  | .scanNew len es => UsizeLit len es.length
  | .eytzingerRaw len es => UsizeLit len es.length
  | .eytzingerNew len es => UsizeLit len es.length
  | .dense len es min max => UsizeLit len es.length ∧ ∃ a b, UsizeLit min a ∧ UsizeLit max b ∧ b + 1 = a + es.length
  | .sparse len numSlots cm es lookup min max =>
    UsizeLit len es.length ∧ UsizeLit numSlots lookup.length ∧ (∀ t ∈ lookup, ∃ v, MagLit cm t v ∧ v ≤ es.length) ∧
    ∃ a b, UsizeLit min a ∧ UsizeLit max b ∧ b + 1 = a + lookup.length
  | .hash len numSlots cm slots es hasher =>
    UsizeLit len es.length ∧ UsizeLit numSlots slots.length ∧ (∃ k, slots.length = 2 ^ k) ∧
    (∀ s ∈ slots, ∃ a b, MagLit cm s.1 a ∧ MagLit cm s.2 b ∧ a ≤ b ∧ b ≤ es.length) ∧ HasherTyped hasher
  | .hashNC len numSlots cm slots es hasher =>
    UsizeLit len es.length ∧ UsizeLit numSlots slots.length ∧ (∃ k, slots.length = 2 ^ k) ∧
    (∀ t ∈ slots, ∃ v, MagLit cm t v ∧ v ≤ es.length) ∧ HasherTyped hasher
  | .fz _ _ => True

end Frozen.Props
