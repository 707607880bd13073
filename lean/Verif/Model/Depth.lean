import Verif.Model.Load

/-!
# Loading with a bounded call stack

Python raises `RecursionError` when calls are nested deeper than `sys.getrecursionlimit()`.  The functions of `Verif.Model.Load` have no such
limit; here are the same functions with one.  `depth` is the number of calls of `from_stream` and `_do_load` that still fit on the stack;
`fuel` bounds iterations, which are not nested.  Simplification: all other calls (reading, decoding, callables of the user, `==`, the
representation of the null value), none of which calls `from_stream` again, are not counted.
-/

namespace Verif

mutual
/-- `Field.from_stream`, `/repo/binobj/fields/base.py:658-732`. -/
def deepFromStream (Γ : Classes) (fuel : Nat) : (depth : Nat) → Field → Stream → (ctx : Value) → (loaded : Dict) → R Value
  | 0, _, s, _, _ => (.error .recursionErr, s)
  | n + 1, f, s, ctx, loaded =>
    fromStreamWith f.base (pyEq Γ fuel) (fieldNullRepr Γ fuel f loaded) (fun s => deepDoLoad Γ fuel n f s ctx loaded) s ctx loaded
/-- `_do_load` of any field (Array containers.py:300-324, Nested containers.py:367-371, Union containers.py:489-501). -/
def deepDoLoad (Γ : Classes) (fuel : Nat) : (depth : Nat) → Field → Stream → (ctx : Value) → (loaded : Dict) → R Value
  | 0, _, s, _, _ => (.error .recursionErr, s)
  | n + 1, f, s, ctx, loaded =>
    match f with
    | .leaf b k => leafLoad b k (leafExpectedSize b k loaded) s ctx loaded
    | f => containerLoad Γ fuel (deepFromStream Γ fuel n) (deepDoLoad Γ fuel n)
        (fun d s ctx => deepStruct Γ fuel n d s ctx []) f s ctx loaded
/-- `Struct.from_stream`, `/repo/binobj/structures.py:474-517`. -/
def deepStruct (Γ : Classes) (fuel : Nat) : (depth : Nat) → StructDesc → Stream → (ctx : Value) → (initKwargs : Dict) → R Dict
  | 0, _, s, _, _ => (.error .recursionErr, s)
  | n + 1, d, s, ctx, kw => structFromStreamWith (fun f s loaded => deepFromStream Γ fuel n f s ctx loaded) d s kw
end

end Verif
