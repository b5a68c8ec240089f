import Verif.Model.Macros

/-!
# Which emitted items the compiler accepts as constant data

Like `Model/Compile.lean`, this is the (trusted) meaning of emitted Rust code, not a model of code in /repo: the initializer of a
`static` has to be a constant expression.  Key and value types `K`, `V` stand for the expressions; which of them are
constant is given by the parameters `constK`, `constV`.
-/

namespace Frozen.Model

variable {K V : Type}

/-- The entries that the emitted constructor call lists. -/
def Emitted.entries : Emitted K V → List (K × V)
  | .scanRaw _ es => es
  | .scanNew _ es => es
  | .eytzingerRaw _ es => es
  | .eytzingerNew _ es => es
  | .dense _ es _ _ => es
  | .sparse _ _ _ es _ _ _ => es
  | .hash _ _ _ _ es _ => es
  | .hashNC _ _ _ _ es _ => es
  | .fz _ es => es

/-- Whether the constructors called are `const fn`s: the `new_raw` functions are (core/inline_maps/inline_scan_map.rs l.54,
inline_eytzinger_search_map.rs l.63, inline_dense_scalar_lookup_map.rs l.42, inline_sparse_scalar_lookup_map.rs l.45, inline_hash_map.rs
l.47, inline_hash_map_no_collisions.rs l.47, core/hash_tables/inline_hash_table.rs l.29, inline_hash_table_no_collisions.rs l.27), as are
the constructors of hashers and of the inline sets; the `new` functions are not (inline_scan_map.rs l.45,
inline_eytzinger_search_map.rs l.46, core/fz_maps/*.rs). -/
def Emitted.constFn : Emitted K V → Bool
  | .scanRaw _ _ => true
  | .scanNew _ _ => false
  | .eytzingerRaw _ _ => true
  | .eytzingerNew _ _ => false
  | .dense _ _ _ _ => true
  | .sparse _ _ _ _ _ _ _ => true
  | .hash _ _ _ _ _ _ => true
  | .hashNC _ _ _ _ _ _ => true
  | .fz _ _ => false

/-- The compiler accepts the item as far as constant evaluation goes: the initializer of a plain `static` is constant; in the closure of
a `LazyLock`, in a `let` statement and in an expression anything goes. -/
def Item.accepted (constK : K → Bool) (constV : V → Bool) : Item (Emitted K V) → Bool
  | .staticConst _ _ c => c.constFn && c.entries.all (fun e => constK e.1 && constV e.2)
  | .staticLazy _ _ _ => true
  | .letStmt _ _ _ _ => true
  | .expr _ => true

end Frozen.Model
