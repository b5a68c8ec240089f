import Verif.Model.Borrows

/-!
# Aliasing rules of Rust

Rust has no final aliasing rules. Two candidates are implemented in Miri and documented: Stacked Borrows (Jung et al., POPL
2020) and Tree Borrows (Villani et al., PLDI 2025).  Both judge each memory location by itself.  Left out of both:
protectors (which can only forbid more, and only during a call), interior mutability, `!Unpin` pointees, deallocation.
-/

namespace Frozen.Props

open Frozen.Model

/-! ## Stacked Borrows -/

/-- Permissions on a borrow stack. -/
inductive SbPerm where
  | unique
  | sharedRW
  | sharedRO
  | disabled
deriving DecidableEq, Repr

/-- The borrow stack of a location, top first. -/
abbrev SbStack := List (Nat × SbPerm)

/-- Permissions that allow writing. -/
def SbPerm.writes : SbPerm → Bool
  | .unique => true
  | .sharedRW => true
  | _ => false

/-- A read through `tag` needs an item for the tag that is not disabled, and disables the unique items above it. -/
def sbRead (tag : Nat) : SbStack → Option SbStack
  | [] => none
  | x :: xs =>
    if x.1 = tag ∧ x.2 ≠ .disabled then some (x :: xs)
    else (sbRead tag xs).map (fun r => (if x.2 = .unique then (x.1, .disabled) else x) :: r)

/-- A write through `tag` needs an item for the tag that allows it, and pops all items above it, except raw pointers
adjacent to a raw pointer.  `block` are the raw pointers just above. -/
def sbWrite (tag : Nat) (block : SbStack) : SbStack → Option SbStack
  | [] => none
  | x :: xs =>
    if x.1 = tag ∧ x.2.writes = true then some ((if x.2 = .sharedRW then block else []) ++ x :: xs)
    else sbWrite tag (if x.2 = .sharedRW then block ++ [x] else []) xs

/-- Deriving a raw pointer from `tag` needs an item that allows writing; the new item goes just above it and the raw
pointers adjacent to it.  `above` are the items passed, `block` the raw pointers just above. -/
def sbRaw (tag new : Nat) (above block : SbStack) : SbStack → Option SbStack
  | [] => none
  | x :: xs =>
    if x.1 = tag ∧ x.2.writes = true then some (above ++ (new, .sharedRW) :: (block ++ x :: xs))
    else if x.2 = .sharedRW then sbRaw tag new above (block ++ [x]) xs
    else sbRaw tag new (above ++ block ++ [x]) [] xs

/-- One operation, at one location. -/
def sbStep (l : Loc) (st : SbStack) : MemOp → Option SbStack
  | .retag parent tag .mut fp =>
    if fp l then (sbWrite parent [] st).map (fun s => (tag, .unique) :: s) else some st
  | .retag parent tag .shr fp =>
    if fp l then (sbRead parent st).map (fun s => (tag, .sharedRO) :: s) else some st
  | .retag parent tag .raw fp => if fp l then sbRaw parent tag [] [] st else some st
  | .read tag fp => if fp l then sbRead tag st else some st
  | .write tag fp => if fp l then sbWrite tag [] st else some st

/-- A sequence of operations, at one location. -/
def sbRun (l : Loc) : SbStack → List MemOp → Option SbStack
  | st, [] => some st
  | st, op :: ops => (sbStep l st op).bind (fun st' => sbRun l st' ops)

/-- The operations are allowed by Stacked Borrows, starting with the owner as the only pointer. -/
def SbAllowed (ops : List MemOp) : Prop := ∀ l, (sbRun l [(0, .unique)] ops).isSome = true

/-! ## Tree Borrows -/

/-- Permissions in a borrow tree. -/
inductive TbPerm where
  | reserved
  | active
  | frozen
  | disabled
deriving DecidableEq, Repr

/-- A node of the borrow tree of a location: the tag, the tags from the node up to the root, and the permission. (Raw
pointers have no permission of their own: they use those of the reference they are derived from.) -/
structure TbNode where
  tag : Nat
  path : List Nat
  perm : TbPerm
deriving DecidableEq, Repr

/-- The effect of a read on a node: `loc` if through the node itself or one of its children, otherwise foreign.
`none` is undefined behaviour. -/
def tbReadPerm (loc : Bool) : TbPerm → Option TbPerm
  | .disabled => if loc then none else some .disabled
  | .active => if loc then some .active else some .frozen
  | p => some p

/-- The effect of a write on a node. -/
def tbWritePerm (loc : Bool) : TbPerm → Option TbPerm
  | .reserved => if loc then some .active else some .disabled
  | .active => if loc then some .active else some .disabled
  | .frozen => if loc then none else some .disabled
  | .disabled => if loc then none else some .disabled

/-- An access through a pointer whose path is `path`: every node changes its permission. -/
def tbAccess (f : Bool → TbPerm → Option TbPerm) (path : List Nat) : List TbNode → Option (List TbNode)
  | [] => some []
  | x :: xs => (f (path.contains x.tag) x.perm).bind (fun p =>
      (tbAccess f path xs).map (fun r => { x with perm := p } :: r))

/-- The path of a tag. -/
def tbPath (tag : Nat) (st : List TbNode) : Option (List Nat) := (st.find? (fun x => x.tag == tag)).map TbNode.path

/-- One operation, at one location. -/
def tbStep (l : Loc) (st : List TbNode) : MemOp → Option (List TbNode)
  | .retag parent tag .mut fp =>
    if fp l then (tbPath parent st).bind (fun p => tbAccess tbReadPerm (tag :: p) (⟨tag, tag :: p, .reserved⟩ :: st))
    else some st
  | .retag parent tag .shr fp =>
    if fp l then (tbPath parent st).bind (fun p => tbAccess tbReadPerm (tag :: p) (⟨tag, tag :: p, .frozen⟩ :: st))
    else some st
  | .retag parent tag .raw fp =>
    if fp l then (tbPath parent st).map (fun p => ⟨tag, p, .frozen⟩ :: st) else some st
  | .read tag fp => if fp l then (tbPath tag st).bind (fun p => tbAccess tbReadPerm p st) else some st
  | .write tag fp => if fp l then (tbPath tag st).bind (fun p => tbAccess tbWritePerm p st) else some st

/-- A sequence of operations, at one location. -/
def tbRun (l : Loc) : List TbNode → List MemOp → Option (List TbNode)
  | st, [] => some st
  | st, op :: ops => (tbStep l st op).bind (fun st' => tbRun l st' ops)

/-- The operations are allowed by Tree Borrows, starting with the owner as the only pointer. -/
def TbAllowed (ops : List MemOp) : Prop := ∀ l, (tbRun l [⟨0, [0], .active⟩] ops).isSome = true

/-! ## Using the references -/

/-- What the caller does with the references: reads (`false`) and writes (`true`) through number `i`, in any order. -/
def useOps (refs : List (Option (Nat × Nat))) : List (Nat × Bool) → List MemOp
  | [] => []
  | (i, w) :: us =>
    match refs[i]? with
    | some (some (p, tag)) => (if w then .write tag (valueFp p) else .read tag (valueFp p)) :: useOps refs us
    | _ => useOps refs us

/-- The map types, with `get_mut` as a function on references and whether the entries are inside the map itself. -/
inductive Borrowing : {M Q K V : Type} → MapImpl M Q K V → M → Bool → (Q → Nat → Nat → Res Trace) → Prop
  | scan {Q K V : Type} (eqv : Q → K → Bool) (m : ScanMap K V) :
      Borrowing (ScanMap.impl eqv) m false (m.getMutB eqv)
  | ordered {Q K V : Type} (qcmp : Q → K → Ordering) (m : EytzingerMap K V) :
      Borrowing (EytzingerMap.impl qcmp) m false (m.getMutB qcmp)
  | dense {Q K V : Type} (qindex : Q → Nat) (m : DenseMap K V) :
      Borrowing (DenseMap.impl qindex) m false (m.getMutB qindex)
  | sparse {Q K V : Type} (qindex : Q → Nat) (m : SparseMap K V) :
      Borrowing (SparseMap.impl qindex) m false (m.getMutB qindex)
  | hash {Q K V : Type} (hQ : Q → Res Nat) (eqv : Q → K → Bool) (m : HashMap K V) :
      Borrowing (HashMap.impl hQ eqv) m false (m.getMutB hQ eqv)
  | fzHash {Q K V : Type} (hQ : Q → Nat) (eqv : Q → K → Bool) (m : HashMap K V) :
      Borrowing (FzHashMap.impl hQ eqv) m false (m.getMutB (bridgeHash hQ) eqv)
  | fzOrdered {Q K V : Type} (qcmp : Q → K → Ordering) (m : EytzingerMap K V) :
      Borrowing (FzOrderedMap.impl qcmp) m false (m.getMutB qcmp)
  | fzScalar {Q K V : Type} (qindex : Q → Nat) (eqv : Q → K → Bool) (m : FzScalarMap K V) :
      Borrowing (FzScalarMap.impl qindex eqv) m false (m.getMutB qindex eqv)
  | fzString {V : Type} (bhStr bhSlice : Str → Nat) (m : FzStringMap V) :
      Borrowing (FzStringMap.impl bhStr bhSlice) m false (m.getMutB bhStr bhSlice)
  | inline {Q K V : Type} (t : QueryTraits Q K) (m : InlineMap K V) :
      Borrowing (InlineMap.impl t) m true (m.getMutB t)

/-- The map types once more, with whether a call of `get_mut` borrows the entries mutably even if the key is missing: scan and hash maps do,
as they hand out the entries one by one, and so do inline maps, whose entries are part of the map.  The others first look for the
key, through a shared reference or not at all. -/
inductive BorrowingKind : {M Q K V : Type} → MapImpl M Q K V → M → Bool → (Q → Nat → Nat → Res Trace) → Bool → Prop
  | scan {Q K V : Type} (eqv : Q → K → Bool) (m : ScanMap K V) :
      BorrowingKind (ScanMap.impl eqv) m false (m.getMutB eqv) true
  | ordered {Q K V : Type} (qcmp : Q → K → Ordering) (m : EytzingerMap K V) :
      BorrowingKind (EytzingerMap.impl qcmp) m false (m.getMutB qcmp) false
  | dense {Q K V : Type} (qindex : Q → Nat) (m : DenseMap K V) :
      BorrowingKind (DenseMap.impl qindex) m false (m.getMutB qindex) false
  | sparse {Q K V : Type} (qindex : Q → Nat) (m : SparseMap K V) :
      BorrowingKind (SparseMap.impl qindex) m false (m.getMutB qindex) false
  | hash {Q K V : Type} (hQ : Q → Res Nat) (eqv : Q → K → Bool) (m : HashMap K V) :
      BorrowingKind (HashMap.impl hQ eqv) m false (m.getMutB hQ eqv) true
  | fzHash {Q K V : Type} (hQ : Q → Nat) (eqv : Q → K → Bool) (m : HashMap K V) :
      BorrowingKind (FzHashMap.impl hQ eqv) m false (m.getMutB (bridgeHash hQ) eqv) true
  | fzOrdered {Q K V : Type} (qcmp : Q → K → Ordering) (m : EytzingerMap K V) :
      BorrowingKind (FzOrderedMap.impl qcmp) m false (m.getMutB qcmp) false
  | fzScalarHash {Q K V : Type} (qindex : Q → Nat) (eqv : Q → K → Bool) (m : HashMap K V) :
      BorrowingKind (FzScalarMap.impl qindex eqv) (.hash m) false (FzScalarMap.getMutB qindex eqv (.hash m)) true
  | fzScalarDense {Q K V : Type} (qindex : Q → Nat) (eqv : Q → K → Bool) (m : DenseMap K V) :
      BorrowingKind (FzScalarMap.impl qindex eqv) (.dense m) false (FzScalarMap.getMutB qindex eqv (.dense m)) false
  | fzScalarSparse {Q K V : Type} (qindex : Q → Nat) (eqv : Q → K → Bool) (m : SparseMap K V) :
      BorrowingKind (FzScalarMap.impl qindex eqv) (.sparse m) false (FzScalarMap.getMutB qindex eqv (.sparse m)) false
  | fzString {V : Type} (bhStr bhSlice : Str → Nat) (m : FzStringMap V) :
      BorrowingKind (FzStringMap.impl bhStr bhSlice) m false (m.getMutB bhStr bhSlice) true
  | inline {Q K V : Type} (t : QueryTraits Q K) (m : InlineMap K V) :
      BorrowingKind (InlineMap.impl t) m true (m.getMutB t) true

end Frozen.Props
