import Verif.Lemmas.Types
import Mathlib.Data.List.Forall2

/-!
# C78, C79: collections may cross threads and stand for others exactly when what they hold may

Specification: `Props/TypeSpec.lean`, the rules of the language for `Send`, `Sync`, `'static` and subtyping.  The theorems say, for all key, value
and hasher types, what of these holds of the collections, of their iterators and of the statics that the macros and the emitter declare.
-/

namespace Frozen.Props
open Spec Model

variable {A : Judgement → Nat → Prop}

/-- The types that own what they hold: the collections and the iterators that consume one. -/
def owningTypes : List TyName :=
  [.fzHashMap, .fzOrderedMap, .fzScalarMap, .fzStringMap, .fzHashSet, .fzOrderedSet, .fzScalarSet, .fzStringSet,
   .inlineDenseMap, .inlineEytzingerMap, .inlineHashMap, .inlineHashMapNoCollisions, .inlineScanMap, .inlineSparseMap,
   .inlineDenseSet, .inlineEytzingerSet, .inlineHashSet, .inlineHashSetNoCollisions, .inlineScanSet, .inlineSparseSet,
   .denseMap, .eytzingerMap, .hashMap, .scanMap, .sparseMap, .hashTable, .inlineHashTable, .inlineHashTableNoCollisions, .hashTableSlot,
   .bridgeHasher, .scalarHasher, .lengthHasher, .leftRangeHasher, .rightRangeHasher, .inlineLeftRangeHasher, .inlineRightRangeHasher,
   .mapIntoIter, .mapIntoKeys, .mapIntoValues, .setIntoIter]

theorem args_zero {args : List Ty} (h : args.length = 0) : args = [] := List.length_eq_zero_iff.mp h

theorem args_one {args : List Ty} (h : args.length = 1) : ∃ a : Ty, args = [a] := List.length_eq_one_iff.mp h

theorem args_two {args : List Ty} (h : args.length = 2) : ∃ a b : Ty, args = [a, b] := by
  match args, h with
  | [a, b], _ => exact ⟨a, b, rfl⟩

theorem args_three {args : List Ty} (h : args.length = 3) : ∃ a b c : Ty, args = [a, b, c] := by
  match args, h with
  | [a, b, c], _ => exact ⟨a, b, c, rfl⟩

theorem args_four {args : List Ty} (h : args.length = 4) : ∃ a b c d : Ty, args = [a, b, c, d] := by
  match args, h with
  | [a, b, c, d], _ => exact ⟨a, b, c, d, rfl⟩

/-- **C78.** A collection may be sent to another thread, shared with another thread, kept for ever, or used in place of one whose types have shorter
lifetimes exactly when the same is true of its key, value and hasher types. -/
theorem c78_collections (j : Judgement) (c : TyName) (hc : c ∈ owningTypes) (args : List Ty) (hn : args.length = c.arity) :
    Holds A j (.adt c args) ↔ ∀ a ∈ args, Holds A j a := by
  simp only [owningTypes, List.mem_cons, List.not_mem_nil, or_false] at hc
  rcases hc with rfl | rfl | rfl | rfl | rfl | rfl | rfl | rfl | rfl | rfl | rfl | rfl | rfl | rfl | rfl | rfl | rfl | rfl | rfl | rfl | rfl | rfl |
    rfl | rfl | rfl | rfl | rfl | rfl | rfl | rfl | rfl | rfl | rfl | rfl | rfl | rfl | rfl | rfl | rfl | rfl <;>
  simp only [TyName.arity] at hn <;>
  first
  | (obtain rfl := args_zero hn
     simp [holds_adt, TyName.fields])
  | (obtain ⟨a, rfl⟩ := args_one hn
     simp [holds_adt, TyName.fields, Ty.subst, holds_pair, holds_boxed, holds_array, holds_slice, holds_prim, holds_phantom])
  | (obtain ⟨a, b, rfl⟩ := args_two hn
     simp [holds_adt, TyName.fields, Ty.subst, holds_pair, holds_boxed, holds_array, holds_slice, holds_prim, holds_phantom, and_comm])
  | (obtain ⟨a, b, c, rfl⟩ := args_three hn
     simp [holds_adt, TyName.fields, Ty.subst, holds_pair, holds_boxed, holds_array, holds_slice, holds_prim, holds_phantom, and_assoc, and_comm,
       and_left_comm])
  | (obtain ⟨a, b, c, d, rfl⟩ := args_four hn
     simp [holds_adt, TyName.fields, Ty.subst, holds_pair, holds_boxed, holds_array, holds_slice, holds_prim, holds_phantom, and_assoc, and_comm,
       and_left_comm])

/-- A map from strings to values that may be sent but not shared (such as `Cell`s): the map may be sent, not shared. -/
example : Holds (fun j n => n = 0 → j = .send) .send (.adt .fzStringMap [.boxed .prim, .param 0, .prim]) ∧
    ¬ Holds (fun j n => n = 0 → j = .send) .sync (.adt .fzStringMap [.boxed .prim, .param 0, .prim]) := by
  rw [c78_collections _ _ (by decide) _ rfl, c78_collections _ _ (by decide) _ rfl]
  simp [holds_boxed, holds_prim, holds_param]

/-- **C78.** Iterators that borrow a collection may be sent and shared exactly when the keys and the values may be shared; they may be used where one
over a shorter borrow, or over types with shorter lifetimes, is expected. -/
theorem c78_iterators (c : TyName) (hc : c ∈ [TyName.mapIter, .mapKeys, .mapValues]) (l k v : Ty) :
    (Holds A .send (.adt c [l, k, v]) ↔ Holds A .sync k ∧ Holds A .sync v) ∧
    (Holds A .sync (.adt c [l, k, v]) ↔ Holds A .sync k ∧ Holds A .sync v) ∧
    (Holds A .static (.adt c [l, k, v]) ↔ Holds A .static l ∧ Holds A .static k ∧ Holds A .static v) ∧
    (Holds A .sub (.adt c [l, k, v]) ↔ Holds A .sub l ∧ Holds A .sub k ∧ Holds A .sub v) := by
  simp only [List.mem_cons, List.not_mem_nil, or_false] at hc
  rcases hc with rfl | rfl | rfl <;>
  simp [holds_adt, TyName.fields, Ty.subst, holds_pair, holds_slice, holds_shared_send, holds_shared_sync, holds_shared_static, holds_shared_sub]

/-- **C78.** The same for the iterators of sets. -/
theorem c78_set_iterator (l t : Ty) :
    (Holds A .send (.adt .setIter [l, t]) ↔ Holds A .sync t) ∧
    (Holds A .sync (.adt .setIter [l, t]) ↔ Holds A .sync t) ∧
    (Holds A .static (.adt .setIter [l, t]) ↔ Holds A .static l ∧ Holds A .static t) ∧
    (Holds A .sub (.adt .setIter [l, t]) ↔ Holds A .sub l ∧ Holds A .sub t) := by
  simp [holds_adt, TyName.fields, Ty.subst, holds_pair, holds_slice, holds_prim, holds_shared_send, holds_shared_sync, holds_shared_static,
    holds_shared_sub]

/-- **C78.** Iterators that borrow a map mutably may be sent when the keys and the values may be sent, and shared when these may be shared.  They may be
used where one over a shorter borrow is expected, but only with the very same key and value types. -/
theorem c78_mutable_iterators (c : TyName) (hc : c ∈ [TyName.mapIterMut, .mapValuesMut]) (l k v : Ty) :
    (Holds A .send (.adt c [l, k, v]) ↔ Holds A .send k ∧ Holds A .send v) ∧
    (Holds A .sync (.adt c [l, k, v]) ↔ Holds A .sync k ∧ Holds A .sync v) ∧
    (Holds A .static (.adt c [l, k, v]) ↔ Holds A .static l ∧ Holds A .static k ∧ Holds A .static v) ∧
    (Holds A .sub (.adt c [l, k, v]) ↔
      Holds A .sub l ∧ (Holds A .sub k ∧ Holds A .sup k) ∧ (Holds A .sub v ∧ Holds A .sup v)) := by
  simp only [List.mem_cons, List.not_mem_nil, or_false] at hc
  rcases hc with rfl | rfl <;>
  simp [holds_adt, TyName.fields, Ty.subst, holds_pair, holds_slice, holds_exclusive_send, holds_exclusive_sync, holds_exclusive_static,
    holds_exclusive_sub, and_assoc, and_comm, and_left_comm]

/-- The iterator of a set needs no more than the set. -/
theorem set_iteration {l s t u : Ty} (h : s.iteration l = some (t, u)) :
    (u = .adt .setIter [l, t] ∨ u = .adt .sliceIter [l, t]) ∧ ∀ j : Judgement, Holds A j s → Holds A j t := by
  have own : ∀ (c : TyName) (args : List Ty), c ∈ owningTypes → args.length = c.arity → t ∈ args → ∀ j : Judgement,
      Holds A j (.adt c args) → Holds A j t :=
    fun c args hc hn ht j hj => (c78_collections j c hc args hn).mp hj t ht
  unfold Ty.iteration at h
  split at h <;> first | (cases h; done) | (obtain ⟨rfl, rfl⟩ := Prod.mk.inj (Option.some.inj h))
  all_goals first
    | exact ⟨.inl rfl, own _ _ (by decide) rfl (by simp)⟩
    | (refine ⟨.inr rfl, fun j hj => ?_⟩
       simp [holds_adt, TyName.fields, Ty.subst, holds_boxed, holds_slice] at hj
       first | exact hj | exact hj.1)

theorem slice_iterator_threads (l t : Ty) :
    (Holds A .send (.adt .sliceIter [l, t]) ↔ Holds A .sync t) ∧ (Holds A .sync (.adt .sliceIter [l, t]) ↔ Holds A .sync t) := by
  simp [holds_adt, TyName.fields, Ty.subst, holds_slice, holds_shared_send, holds_shared_sync]

/-- The iterator of a set that may be shared may be sent and shared. -/
theorem assoc_threads {j : Judgement} (hj : j = .send ∨ j = .sync) {s t : Ty} (h : SetOf s t) (l : Ty) (hs : Holds A .sync s) :
    Holds A j (.assocIter l s t) := by
  have hj1 : j ≠ .sub := by rcases hj with rfl | rfl <;> decide
  have hj2 : j ≠ .sup := by rcases hj with rfl | rfl <;> decide
  rw [holds_assoc j hj1 hj2]
  have hl := h l
  cases hi : s.iteration l with
  | none => rw [hi] at hl; cases hl
  | some p =>
    rw [hi] at hl
    obtain ⟨t', u⟩ := p
    obtain rfl : t' = t := Option.some.inj hl
    obtain ⟨hu, ht⟩ := set_iteration (A := A) hi
    refine ⟨u, rfl, ?_⟩
    have ht := ht .sync hs
    rcases hu with rfl | rfl <;> rcases hj with rfl | rfl
    · exact (c78_set_iterator l t').1.mpr ht
    · exact (c78_set_iterator l t').2.1.mpr ht
    · exact (slice_iterator_threads l t').1.mpr ht
    · exact (slice_iterator_threads l t').2.mpr ht

/-- The types of the iterators that the set operations return. -/
def setOperations : List TyName := [.union, .intersection, .difference, .symmetricDifference]

theorem shared_threads {j : Judgement} (hj : j = .send ∨ j = .sync) (l t : Ty) : Holds A j (.shared l t) ↔ Holds A .sync t := by
  rcases hj with rfl | rfl
  · exact holds_shared_send l t
  · exact holds_shared_sync l t

/-- **C78.** The iterators that the set operations return may be sent, and shared, exactly when both sets may be shared. -/
theorem c78_set_operations (j : Judgement) (hj : j = .send ∨ j = .sync) (c : TyName) (hc : c ∈ setOperations) (l s1 s2 t : Ty) (h1 : SetOf s1 t)
    (h2 : SetOf s2 t) : Holds A j (.adt c [l, s1, s2, t]) ↔ Holds A .sync s1 ∧ Holds A .sync s2 := by
  have a1 : Holds A .sync s1 → Holds A j (.assocIter l s1 t) := assoc_threads hj h1 l
  have a2 : Holds A .sync s2 → Holds A j (.assocIter l s2 t) := assoc_threads hj h2 l
  simp only [setOperations, List.mem_cons, List.not_mem_nil, or_false] at hc
  rcases hc with rfl | rfl | rfl | rfl <;>
  simp only [holds_adt, TyName.fields, List.mem_cons, List.not_mem_nil, or_false, forall_eq_or_imp, forall_eq, Ty.subst, List.getD_cons_zero,
    List.getD_cons_succ, shared_threads hj, List.map_cons, List.map_nil]
  · exact ⟨fun h => ⟨h.1, h.2.2.1⟩, fun h => ⟨h.1, a1 h.1, h.2, a2 h.2⟩⟩
  · exact ⟨fun h => ⟨h.1, h.2.2.1⟩, fun h => ⟨h.1, a1 h.1, h.2, a2 h.2⟩⟩
  · exact ⟨fun h => ⟨h.1, h.2.2⟩, fun h => ⟨h.1, a1 h.1, h.2⟩⟩
  · exact ⟨fun h => ⟨h.1.1, h.1.2.2⟩, fun h => ⟨⟨h.1, a1 h.1, h.2⟩, ⟨h.2, a2 h.2, h.1⟩⟩⟩

/-- **C79, violated.** The iterators that the set operations return cannot be used where one over a shorter borrow is expected, although they
only read the sets: that is possible only if nothing, not even the borrow, is any different. -/
theorem c79_set_operations (c : TyName) (hc : c ∈ setOperations) (l s1 s2 t : Ty) :
    Holds A .sub (.adt c [l, s1, s2, t]) →
      (Holds A .sub l ∧ Holds A .sup l) ∧ (Holds A .sub s1 ∧ Holds A .sup s1) ∧ Holds A .sub s2 ∧ (Holds A .sub t ∧ Holds A .sup t) := by
  intro h
  simp only [setOperations, List.mem_cons, List.not_mem_nil, or_false] at hc
  rcases hc with rfl | rfl | rfl | rfl <;>
  simp [holds_adt, TyName.fields, Ty.subst, holds_shared_sub, holds_assoc_sub] at h <;>
  simp_all

/-- **C79, violated.** The union of two sets of integers, borrowed for a while, cannot be used where a union borrowed for a shorter while is expected; the iterator of
one of the sets can. -/
theorem c79_violated : ∃ (A : Judgement → Nat → Prop) (s t : Ty), SetOf s t ∧ A .sub 0 ∧
    Holds A .sub (.adt .setIter [.param 0, t]) ∧ ∀ c ∈ setOperations, ¬ Holds A .sub (.adt c [.param 0, s, s, t]) := by
  refine ⟨fun j _ => j = .sub, .adt .fzScalarSet [.prim], .prim, fun _ => rfl, rfl, ?_, fun c hc h => ?_⟩
  · exact (c78_set_iterator (A := fun j _ => j = .sub) (.param 0) .prim).2.2.2.mpr ⟨.param rfl, .prim⟩
  · have := (c79_set_operations (A := fun j _ => j = .sub) c hc _ _ _ _ h).1.2
    rw [holds_param] at this
    cases this

/-- **C79.** Collections and the iterators that consume one may be used in place of one whose types have shorter lifetimes. -/
theorem c79_collections_partial (c : TyName) (hc : c ∈ owningTypes) (args : List Ty) (hn : args.length = c.arity) (h : ∀ a ∈ args, Holds A .sub a) :
    Holds A .sub (.adt c args) := (c78_collections .sub c hc args hn).mpr h

/-- **C79.** So may the iterators that borrow one, which may also be used in place of one that borrows for a shorter time. -/
theorem c79_iterators_partial (l k v : Ty) (hl : Holds A .sub l) (hk : Holds A .sub k) (hv : Holds A .sub v) :
    (∀ c ∈ [TyName.mapIter, .mapKeys, .mapValues], Holds A .sub (.adt c [l, k, v])) ∧ Holds A .sub (.adt .setIter [l, k]) :=
  ⟨fun c hc => (c78_iterators c hc l k v).2.2.2.mpr ⟨hl, hk, hv⟩, (c78_set_iterator l k).2.2.2.mpr ⟨hl, hk⟩⟩

/-- **C79, violated.** The iterators that borrow a map mutably give out the keys for reading only, yet may not be used in place of one whose key type
has a shorter lifetime. -/
theorem c79_mutable_keys_violated : ∃ (A : Judgement → Nat → Prop) (l k v : Ty), Holds A .sub l ∧ Holds A .sub k ∧ Holds A .sub v ∧ Holds A .sup v ∧
    ∀ c ∈ [TyName.mapIterMut, .mapValuesMut], ¬ Holds A .sub (.adt c [l, k, v]) := by
  refine ⟨fun j _ => j = .sub, .param 0, .shared (.param 1) .prim, .prim, .param rfl, ?_, .prim, .prim, fun c hc h => ?_⟩
  · exact (holds_shared_sub _ _).mpr ⟨.param rfl, .prim⟩
  · have := ((c78_mutable_iterators c hc _ _ _).2.2.2.mp h).2.1.2
    rw [holds_shared_sup, holds_param] at this
    cases this.1

/-- A map from borrowed strings. -/
example : Holds (fun j _ => j = .sub) .sub (.adt .inlineScanMap [.shared (.param 0) .prim, .prim]) :=
  c79_collections_partial _ (by decide) _ rfl (by simp [holds_shared_sub, holds_param, holds_prim])

/-- The union of a frozen set and a standard one. -/
example : Holds (fun j _ => j = .sync) .send
    (.adt .union [.param 0, .adt .fzHashSet [.param 1, .prim], .adt .hashSet [.param 1, .prim], .param 1]) := by
  refine (c78_set_operations .send (.inl rfl) .union (by decide) _ _ _ _ (fun _ => rfl) (fun _ => rfl)).mpr ⟨?_, ?_⟩
  · rw [c78_collections _ _ (by decide) _ rfl]; simp [holds_param, holds_prim]
  · simp [holds_adt, TyName.fields, Ty.subst, holds_boxed, holds_slice, holds_param, holds_prim]

/-! ## Statics -/

theorem hasher_holds (j : Judgement) (h : HasherTok) : Holds A j h.ty := by
  cases h <;> simp [HasherTok.ty, holds_adt, TyName.fields, Ty.subst, holds_prim]

/-- What an emitted collection holds of the user's types. -/
theorem emitted_holds {K V : Type} (j : Judgement) (k : Ty) (v : Option Ty) (e : Emitted K V) :
    Holds A j (.adt (e.ty k v).1 (e.ty k v).2) ↔ Holds A j k ∧ ∀ w ∈ v, Holds A j w := by
  have key : ∀ (c : TyName) (args : List Ty), c ∈ owningTypes → args.length = c.arity →
      (Holds A j (.adt c args) ↔ ∀ a ∈ args, Holds A j a) := fun c args hc hn => c78_collections j c hc args hn
  have hh := fun (h : HasherTok) => hasher_holds (A := A) j h
  cases v with
  | none =>
    cases e with
    | fz kind _ =>
      cases kind <;> simp only [Emitted.ty, Emitted.setTy] <;> rw [key _ _ (by decide) rfl] <;> simp [holds_prim]
    | _ => simp only [Emitted.ty, Emitted.setTy]; rw [key _ _ (by decide) rfl]; simp [holds_prim, hh]
  | some w =>
    cases e with
    | fz kind _ =>
      cases kind <;> simp only [Emitted.ty, Emitted.mapTy] <;> rw [key _ _ (by decide) rfl] <;> simp [holds_prim]
    | _ => simp only [Emitted.ty, Emitted.mapTy]; rw [key _ _ (by decide) rfl]; simp [holds_prim, hh]

/-- **C78.** A static that holds a collection is accepted exactly when the key and value types may be shared and kept for ever, and, if the collection
is made when it is first used, may be sent too; a `let` and an expression need nothing. -/
theorem c78_static {K V : Type} (k : Ty) (v : Option Ty) (item : Item (Emitted K V)) :
    (∀ t ∈ item.staticTy k v, StaticOk A t) ↔
      match item with
      | .staticConst .. => ∀ w ∈ k :: v.toList, Holds A .sync w ∧ Holds A .static w
      | .staticLazy .. => ∀ w ∈ k :: v.toList, Holds A .send w ∧ Holds A .sync w ∧ Holds A .static w
      | _ => True := by
  cases item with
  | staticConst sy al e =>
    simp only [Item.staticTy, StaticOk, Option.mem_def, Option.some.injEq, forall_eq', emitted_holds]
    cases v <;> simp [and_assoc, and_comm, and_left_comm]
  | staticLazy sy al e =>
    simp only [Item.staticTy, StaticOk, Option.mem_def, Option.some.injEq, forall_eq', holds_lazy_sync, holds_lazy_static, emitted_holds]
    cases v <;> simp [and_assoc, and_comm, and_left_comm]
  | letStmt m sy al e => simp [Item.staticTy]
  | expr e => simp [Item.staticTy]

/-- The Rust names of the hashers that generated code uses. -/
def hasherName : TyName → Option String
  | .bridgeHasher => some "BridgeHasher"
  | .scalarHasher => some "ScalarHasher"
  | .lengthHasher => some "LengthHasher"
  | .inlineLeftRangeHasher => some "InlineLeftRangeHasher"
  | .inlineRightRangeHasher => some "InlineRightRangeHasher"
  | _ => none

/-- The tokens name the type; `k` is the key type and `v` the value type. -/
inductive NamesTy (g : GenTypes) (k : Ty) (v : Option Ty) : Ty → List Tk → Prop where
  | key : NamesTy g k v k g.keyType
  | value (w : Ty) (toks : List Tk) : v = some w → g.valueType = some toks → NamesTy g k v w toks
  | magnitude (cm : Magnitude) : NamesTy g k v .prim cm.tokens
  | hasher (c : TyName) (n : String) : hasherName c = some n → c.arity = 0 → NamesTy g k v (.adt c []) (absPath ["frozen_collections", "hashers", n])
  | buildHasher (c : TyName) (n : String) : hasherName c = some n → c.arity = 1 →
      NamesTy g k v (.adt c [.prim]) (absPath ["frozen_collections", "hashers", n] ++ angle [fixedStatePath])
  | rangeHasher (c : TyName) (n : String) (a b : Tok) : hasherName c = some n → c.arity = 1 →
      NamesTy g k v (.adt c [.prim]) (sigOf ["frozen_collections", "hashers", n] [[numTk a], [numTk b], fixedStatePath])

/-- **C78.** The type meant here is the one that the generated code names: its path, and its type arguments in order (besides them the code gives array
lengths; it leaves out the hash builder of the `Fz` types, which has a default). -/
theorem c78_named {K V : Type} (g : GenTypes) (k : Ty) (v : Option Ty) (hv : v.isNone = g.valueType.isNone) (e : Emitted K V) :
    ∃ (path : List String) (args named : List (List Tk)) (tys defaults : List Ty), (e.ty k v).1.path = some path ∧
      (e.ty k v).2.length = (e.ty k v).1.arity ∧ e.sigTokens g = sigOf path args ∧ named.Sublist args ∧
      (e.ty k v).2 = tys ++ defaults ∧ List.Forall₂ (NamesTy g k v) tys named ∧
      (defaults = [] ∨ defaults = [.prim] ∧ ∃ kind es, e = .fz kind es) := by
  have hh : ∀ h : HasherTok, NamesTy g k v h.ty h.tyTokens := by
    intro h
    cases h with
    | bridge s => exact .buildHasher _ _ rfl rfl
    | scalar => exact .hasher _ _ rfl rfl
    | length => exact .hasher _ _ rfl rfl
    | left a b s => exact .rangeHasher _ _ a b rfl rfl
    | right a b s => exact .rangeHasher _ _ a b rfl rfl
  have s1 : ∀ {a b : List Tk} {r : List (List Tk)}, [a, b].Sublist (a :: b :: r) :=
    fun {a b r} => (List.nil_sublist r).cons_cons b |>.cons_cons a
  cases v with
  | none =>
    have hg : g.valueType.isNone = true := hv.symm
    unfold Emitted.sigTokens Emitted.ty
    rw [if_pos hg]
    cases e with
    | fz kind es =>
      cases kind
      · exact ⟨_, _, _, [k], [.prim], rfl, rfl, rfl, .refl _, rfl, .cons .key .nil, .inr ⟨rfl, _, _, rfl⟩⟩
      · exact ⟨_, _, _, [k], [], rfl, rfl, rfl, .refl _, rfl, .cons .key .nil, .inl rfl⟩
      · exact ⟨_, _, _, [k], [.prim], rfl, rfl, rfl, .refl _, rfl, .cons .key .nil, .inr ⟨rfl, _, _, rfl⟩⟩
    | sparse len ns cm es lookup mn mx =>
      exact ⟨_, _, [g.keyType, cm.tokens], _, [], rfl, rfl, rfl, .cons_cons _ (.cons _ (.cons _ (.refl _))), (List.append_nil _).symm,
        .cons .key (.cons (.magnitude cm) .nil), .inl rfl⟩
    | hash len ns cm slots es h =>
      exact ⟨_, _, [g.keyType, cm.tokens, h.tyTokens], _, [], rfl, rfl, rfl, .cons_cons _ (.cons _ (.cons _ (.refl _))), (List.append_nil _).symm,
        .cons .key (.cons (.magnitude cm) (.cons (hh h) .nil)), .inl rfl⟩
    | hashNC len ns cm slots es h =>
      exact ⟨_, _, [g.keyType, cm.tokens, h.tyTokens], _, [], rfl, rfl, rfl, .cons_cons _ (.cons _ (.cons _ (.refl _))), (List.append_nil _).symm,
        .cons .key (.cons (.magnitude cm) (.cons (hh h) .nil)), .inl rfl⟩
    | _ =>
      exact ⟨_, _, [g.keyType], _, [], rfl, rfl, rfl, .cons_cons _ (List.nil_sublist _), (List.append_nil _).symm, .cons .key .nil, .inl rfl⟩
  | some w =>
    have hg : ¬ g.valueType.isNone = true := by rw [← hv]; simp
    obtain ⟨vt, hvt⟩ : ∃ vt, g.valueType = some vt := by
      cases h : g.valueType with
      | none => rw [h] at hg; exact absurd rfl hg
      | some vt => exact ⟨vt, rfl⟩
    have hval : NamesTy g k (some w) w g.value := .value w _ rfl (by unfold GenTypes.value; rw [hvt]; rfl)
    unfold Emitted.sigTokens Emitted.ty
    rw [if_neg hg]
    cases e with
    | fz kind es =>
      cases kind
      · exact ⟨_, _, _, [k, w], [.prim], rfl, rfl, rfl, .refl _, rfl, .cons .key (.cons hval .nil), .inr ⟨rfl, _, _, rfl⟩⟩
      · exact ⟨_, _, _, [k, w], [], rfl, rfl, rfl, .refl _, rfl, .cons .key (.cons hval .nil), .inl rfl⟩
      · exact ⟨_, _, _, [k, w], [.prim], rfl, rfl, rfl, .refl _, rfl, .cons .key (.cons hval .nil), .inr ⟨rfl, _, _, rfl⟩⟩
    | sparse len ns cm es lookup mn mx =>
      exact ⟨_, _, [g.keyType, g.value, cm.tokens], _, [], rfl, rfl, rfl, .cons_cons _ (.cons_cons _ (.cons _ (.cons _ (.refl _)))),
        (List.append_nil _).symm, .cons .key (.cons hval (.cons (.magnitude cm) .nil)), .inl rfl⟩
    | hash len ns cm slots es h =>
      exact ⟨_, _, [g.keyType, g.value, cm.tokens, h.tyTokens], _, [], rfl, rfl, rfl, .cons_cons _ (.cons_cons _ (.cons _ (.cons _ (.refl _)))),
        (List.append_nil _).symm, .cons .key (.cons hval (.cons (.magnitude cm) (.cons (hh h) .nil))), .inl rfl⟩
    | hashNC len ns cm slots es h =>
      exact ⟨_, _, [g.keyType, g.value, cm.tokens, h.tyTokens], _, [], rfl, rfl, rfl, .cons_cons _ (.cons_cons _ (.cons _ (.cons _ (.refl _)))),
        (List.append_nil _).symm, .cons .key (.cons hval (.cons (.magnitude cm) (.cons (hh h) .nil))), .inl rfl⟩
    | _ =>
      exact ⟨_, _, [g.keyType, g.value], _, [], rfl, rfl, rfl, s1, (List.append_nil _).symm, .cons .key (.cons hval .nil), .inl rfl⟩

/-- A static map from integers to values that may not be shared is refused. -/
example : ¬ ∀ t ∈ Item.staticTy (K := Nat) (V := Nat) .prim (some (.param 0)) (.staticConst "M" none (.dense (digits 1) [(3, 5)] (digits 3) (digits 3))),
    StaticOk (fun j _ => j ≠ .sync) t := by
  rw [c78_static]
  simp [holds_param]

end Frozen.Props
