import Verif.Basic

/-!
# The `Scalar` trait: implementations for the integer types, and the derive macro
-/

namespace Frozen.Model

/-! ## Integer types -/

/-- One line of the invocations of `impl_unsigned_scalar!`, `impl_signed_scalar!` and their `NonZero` variants
(core/traits/scalar.rs l.71-87).  Values of the type are bit patterns of `width` bits; for a signed type they are read in
two's complement, and `mask` is the literal given in the invocation.  `nonZero` excludes the pattern 0. -/
structure ScalarTy where
  name : String
  width : Nat
  signed : Bool
  mask : Nat
  nonZero : Bool

/-- The implementations compiled for 64-bit targets (core/traits/scalar.rs l.71-78). -/
def scalarTypes64 : List ScalarTy :=
  [⟨"u8", 8, false, 0, false⟩, ⟨"u16", 16, false, 0, false⟩, ⟨"u32", 32, false, 0, false⟩,
   ⟨"u64", 64, false, 0, false⟩, ⟨"usize", 64, false, 0, false⟩,
   ⟨"i8", 8, true, 0x80, false⟩, ⟨"i16", 16, true, 0x8000, false⟩, ⟨"i32", 32, true, 0x80000000, false⟩,
   ⟨"i64", 64, true, 0x8000000000000000, false⟩, ⟨"isize", 64, true, 0x8000000000000000, false⟩,
   ⟨"NonZeroU8", 8, false, 0, true⟩, ⟨"NonZeroU16", 16, false, 0, true⟩, ⟨"NonZeroU32", 32, false, 0, true⟩,
   ⟨"NonZeroU64", 64, false, 0, true⟩, ⟨"NonZeroUsize", 64, false, 0, true⟩,
   ⟨"NonZeroI8", 8, true, 0x80, true⟩, ⟨"NonZeroI16", 16, true, 0x8000, true⟩, ⟨"NonZeroI32", 32, true, 0x80000000, true⟩,
   ⟨"NonZeroI64", 64, true, 0x8000000000000000, true⟩, ⟨"NonZeroIsize", 64, true, 0x8000000000000000, true⟩]

/-- The implementations compiled for 32-bit targets (core/traits/scalar.rs l.80-87). -/
def scalarTypes32 : List ScalarTy :=
  [⟨"u8", 8, false, 0, false⟩, ⟨"u16", 16, false, 0, false⟩, ⟨"u32", 32, false, 0, false⟩, ⟨"usize", 32, false, 0, false⟩,
   ⟨"i8", 8, true, 0x80, false⟩, ⟨"i16", 16, true, 0x8000, false⟩, ⟨"i32", 32, true, 0x80000000, false⟩,
   ⟨"isize", 32, true, 0x80000000, false⟩,
   ⟨"NonZeroU8", 8, false, 0, true⟩, ⟨"NonZeroU16", 16, false, 0, true⟩, ⟨"NonZeroU32", 32, false, 0, true⟩,
   ⟨"NonZeroUsize", 32, false, 0, true⟩,
   ⟨"NonZeroI8", 8, true, 0x80, true⟩, ⟨"NonZeroI16", 16, true, 0x8000, true⟩, ⟨"NonZeroI32", 32, true, 0x80000000, true⟩,
   ⟨"NonZeroIsize", 32, true, 0x80000000, true⟩]

/-- The implementations compiled for the target (core/traits/scalar.rs l.71-87). -/
def scalarTypes [Target] : List ScalarTy := if Target.width = 64 then scalarTypes64 else scalarTypes32

/-- `x as usize` for an unsigned `x`, on a target with `p`-bit pointers: zero extension or truncation. -/
def castUsize (p : Nat) {w : Nat} (x : BitVec w) : Nat := (x.setWidth p).toNat

/-- `Scalar::index` (core/traits/scalar.rs l.9-69): `*self as usize` for unsigned types,
`((*self as $unsigned_ty) ^ $mask) as usize` for signed ones (the cast to the unsigned type of the same width keeps the bit
pattern).  `(*self).get()` of a `NonZero` type is its bit pattern. -/
def ScalarTy.index (p : Nat) (t : ScalarTy) (x : BitVec t.width) : Nat :=
  if t.signed then castUsize p (x ^^^ BitVec.ofNat t.width t.mask) else castUsize p x

/-! ## The derive macro -/

/-- A variant of an enum declaration, as far as the macro looks at it. -/
structure EnumVariant where
  ident : String
  /-- `v.fields == Fields::Unit` -/
  unit : Bool
  /-- the explicit discriminant, if any -/
  discriminant : Option Int

/-- The item the derive is applied to (`syn::Data`). -/
inductive DeriveData
  | struct
  | union
  | enum (variants : List EnumVariant)

/-- The checks of one variant (core/macros/derive_scalar_macro.rs l.26-40). -/
def checkVariant (v : EnumVariant) : Except String Unit :=
  if !v.unit then .error "Scalar can only be used with enums that only contain unit variants"
  else if v.discriminant.isSome then
    .error "Scalar can only be used with enums that do not have explicit discriminants"
  else .ok ()

/-- The loop over the variants (core/macros/derive_scalar_macro.rs l.26-40). -/
def checkVariants : List EnumVariant → Except String Unit
  | [] => .ok ()
  | v :: vs => do
    checkVariant v
    checkVariants vs

/-- The loop that builds the match arms, `#name::#ident => #index` with `index = matches.len()`
(core/macros/derive_scalar_macro.rs l.42-48). -/
def matchArms (matches_ : List (String × Nat)) : List EnumVariant → List (String × Nat)
  | [] => matches_
  | v :: vs => matchArms (matches_ ++ [(v.ident, matches_.length)]) vs

/-- `derive_scalar_macro` (core/macros/derive_scalar_macro.rs l.13-60).  The result stands for the generated `index`
function: the arms of its `match`, each a variant name and an index. -/
def deriveScalar : DeriveData → Except String (List (String × Nat))
  | .enum variants =>
    if variants.isEmpty then .error "Scalar can only be used with non-empty enums"
    else do
      checkVariants variants
      .ok (matchArms [] variants)
  | _ => .error "Scalar can only be used with enums"

/-- Running the generated `match self { … }` on a variant: the first arm that names it.  (`none` would be a match that is not
exhaustive, which rustc rejects.) -/
def evalMatch (arms : List (String × Nat)) (v : String) : Option Nat :=
  (arms.find? (fun a => a.1 == v)).map (fun a => a.2)

end Frozen.Model
