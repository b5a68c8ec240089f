import Verif.Model.Hashers
import Verif.Model.FzMaps

/-!
# Model of `core/traits/len.rs` and of the hashers on owned and borrowed keys

The types with a length that can be keys: `T` is the type of the elements of slices.  Maps, sets, heaps and linked lists have a length as well; their
implementations return their own `len`, and none of them can be borrowed as another type, so they are left out.
-/

namespace Frozen.Model

/-- The types for which core/traits/len.rs implements `Len` (l.19-81, l.126-153); `box`, `rc` and `arc` are generic (l.49-65). -/
inductive KeyTy where
  | str | string | refStr | cstr | cstring | osStr | osString | slice | vec | vecDeque
  | box (t : KeyTy) | rc (t : KeyTy) | arc (t : KeyTy)
deriving DecidableEq

/-- The values: bytes for the string types (for C strings with the final zero, as both types keep it), the elements for slices and vectors, the two
halves of the ring for `VecDeque`, what is pointed to for the pointer types. -/
def KeyTy.Val (T : Type) : KeyTy → Type
  | .str | .string | .refStr | .cstr | .cstring | .osStr | .osString => Str
  | .slice | .vec => List T
  | .vecDeque => List T × List T
  | .box t | .rc t | .arc t => t.Val T

/-- `Len::len` (core/traits/len.rs): `String` l.19-23, `str` l.25-29, `&str` l.31-35, `CStr` l.37-41 (`to_bytes` drops the final zero), `[T]` l.43-47,
`Box` l.49-53, `Rc` l.55-59, `Arc` l.61-65, `Vec` l.67-71, `VecDeque` l.73-77, `CString` l.106-111 (`as_bytes` drops the final zero), `OsStr`
l.141-146, `OsString` l.148-153. -/
def KeyTy.len {T : Type} : (t : KeyTy) → t.Val T → Nat
  | .string, s => List.length (α := UInt8) s
  | .str, s => List.length (α := UInt8) s
  | .refStr, s => List.length (α := UInt8) s
  | .cstr, s => List.length (α := UInt8) (List.dropLast (α := UInt8) s)
  | .slice, s => List.length (α := T) s
  | .box t, v => t.len v
  | .rc t, v => t.len v
  | .arc t, v => t.len v
  | .vec, s => List.length (α := T) s
  | .vecDeque, v => List.length (α := T) v.1 + List.length (α := T) v.2
  | .cstring, s => List.length (α := UInt8) (List.dropLast (α := UInt8) s)
  | .osStr, s => List.length (α := UInt8) s
  | .osString, s => List.length (α := UInt8) s

/-- `Len::is_empty` (core/traits/len.rs l.14-16). -/
def KeyTy.isEmpty {T : Type} (t : KeyTy) (v : t.Val T) : Bool := t.len v == 0

/-- `LengthHasher::hash_one` (core/hashers/length_hasher.rs l.14-17) on any of these types. -/
def KeyTy.lengthHash {T : Type} (t : KeyTy) (v : t.Val T) : Res Nat := .ok (t.len v)

/-- `AsRef<str>` of the standard library: the bytes of the string, or `none` if the type does not implement it. -/
def KeyTy.asRefStr {T : Type} : (t : KeyTy) → t.Val T → Option Str
  | .str, s => some s
  | .string, s => some s
  | .refStr, s => some s
  | .box .str, s => some s
  | .rc .str, s => some s
  | .arc .str, s => some s
  | _, _ => none

/-- `Hasher<str>` and `Hasher<AR>` of `LeftRangeHasher` (core/hashers/left_range_hasher.rs l.38-53, l.55-69); `none` if there is no implementation. -/
def KeyTy.leftRangeHash {T : Type} (bh : Str → Nat) (range : Range) (t : KeyTy) (v : t.Val T) : Option (Res Nat) :=
  (t.asRefStr v).map (Model.leftRangeHash bh range)

/-- `Hasher<str>` and `Hasher<AR>` of `RightRangeHasher` (core/hashers/right_range_hasher.rs l.41-55, l.58-73). -/
def KeyTy.rightRangeHash {T : Type} (bh : Str → Nat) (range : Range) (t : KeyTy) (v : t.Val T) : Option (Res Nat) :=
  (t.asRefStr v).map (Model.rightRangeHash bh range)

end Frozen.Model
