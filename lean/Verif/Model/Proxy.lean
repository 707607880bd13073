import Verif.Model.Struct

/-!
# `StructMappingProxy` and `MutableStructMappingProxy`

`/repo/binobj/structures.py:833-863`.  The classes define `__getitem__`, `__iter__`, `__len__`, and `__setitem__` and `__delitem__` for the
mutable one; everything else they inherit from `collections.abc.Mapping` and `MutableMapping`, whose documented mixin methods are modelled
here: `get`, `__contains__`, `pop`, `popitem`, `clear`, `update`, `setdefault`.  `__eq__` is the one `@dataclass` generates.
A proxy is the struct it wraps.
-/

namespace Verif

/-- `isinstance(e, KeyError)` -/
def Err.isKeyErr : Err → Bool
  | .keyErr _ => true
  | _ => false

/-- Python's `len()` of an object whose `__len__` behaves like this: the result must be between 0 and `sys.maxsize`. -/
def pyLen : Except Err Int → Except Err Int
  | .ok k => if k < 0 then .error .valueErr else if 2 ^ 63 ≤ k then .error .overflowErr else .ok k
  | .error e => .error e

/-- `proxy[name]`, `/repo/binobj/structures.py:843-844`. -/
def proxyGetItem (d : StructDesc) (vals : Dict) (name : String) : Except Err Value := structGetItem d vals name

/-- `iter(proxy)`, `/repo/binobj/structures.py:846-847`. -/
def proxyIter (vals : Dict) : List String := definedKeys vals

/-- `len(proxy)`, `/repo/binobj/structures.py:849-850`. -/
def proxyLen (Γ : Classes) (n : Nat) (d : StructDesc) (vals : Dict) : Except Err Int := pyLen (structLen Γ n d vals)

/-- `proxy.get(name, default)`: `Mapping.get`, inherited at `/repo/binobj/structures.py:834`. -/
def proxyGet (d : StructDesc) (vals : Dict) (name : String) (fallback : Value) : Except Err Value :=
  match proxyGetItem d vals name with
  | .ok v => .ok v
  | .error e => if e.isKeyErr then .ok fallback else .error e

/-- `name in proxy`: `Mapping.__contains__`, inherited at `/repo/binobj/structures.py:834`. -/
def proxyContains (d : StructDesc) (vals : Dict) (name : String) : Except Err Bool :=
  match proxyGetItem d vals name with
  | .ok _ => .ok true
  | .error e => if e.isKeyErr then .ok false else .error e

/-- `dict(proxy)`: the keys the proxy iterates over, with `proxy[key]`. -/
def proxyDict (d : StructDesc) (vals : Dict) : Except Err Dict :=
  mapE (fun k => (proxyGetItem d vals k).map fun v => (k, v)) (proxyIter vals)

/-- `proxy[name] = value`, `/repo/binobj/structures.py:859-860`. -/
def proxySetItem (d : StructDesc) (vals : Dict) (name : String) (v : Value) : Mut := structSetItem d vals name v

/-- `del proxy[name]`, `/repo/binobj/structures.py:862-863`. -/
def proxyDelItem (d : StructDesc) (vals : Dict) (name : String) : Mut := structDelItem d vals name

/-- `proxy.pop(name)` or, with a default, `proxy.pop(name, default)`: `MutableMapping.pop`. -/
def proxyPop (d : StructDesc) (vals : Dict) (name : String) (fallback : Option Value) : Except Err Value × Dict :=
  match proxyGetItem d vals name with
  | .error e =>
    if e.isKeyErr then
      match fallback with
      | some v => (.ok v, vals)
      | none => (.error e, vals)
    else (.error e, vals)
  | .ok v =>
    match proxyDelItem d vals name with
    | (.error e, vals) => (.error e, vals)
    | (.ok _, vals) => (.ok v, vals)

/-- `proxy.popitem()`: `MutableMapping.popitem`, the first key of the iteration (a `dict` takes the last one). -/
def proxyPopItem (d : StructDesc) (vals : Dict) : Except Err (String × Value) × Dict :=
  match proxyIter vals with
  | [] => (.error (.keyErr ""), vals)
  | k :: _ =>
    match proxyGetItem d vals k with
    | .error e => (.error e, vals)
    | .ok v =>
      match proxyDelItem d vals k with
      | (.error e, vals) => (.error e, vals)
      | (.ok _, vals) => (.ok (k, v), vals)

/-- `proxy.clear()`: `MutableMapping.clear`, `popitem` until it raises `KeyError`; at most `fuel` times. -/
def proxyClear (d : StructDesc) : Nat → Dict → Mut
  | 0, vals => (.error .outOfFuel, vals)
  | fuel + 1, vals =>
    match proxyPopItem d vals with
    | (.error e, vals) => if e.isKeyErr then (.ok (), vals) else (.error e, vals)
    | (.ok _, vals) => proxyClear d fuel vals

/-- `proxy.update(other)`: `MutableMapping.update`, one assignment after the other. -/
def proxyUpdate (d : StructDesc) : Dict → Dict → Mut
  | vals, [] => (.ok (), vals)
  | vals, (k, v) :: other =>
    match proxySetItem d vals k v with
    | (.error e, vals) => (.error e, vals)
    | (.ok _, vals) => proxyUpdate d vals other

/-- `proxy.setdefault(name, default)`: `MutableMapping.setdefault`. -/
def proxySetDefault (d : StructDesc) (vals : Dict) (name : String) (fallback : Value) : Except Err Value × Dict :=
  match proxyGetItem d vals name with
  | .ok v => (.ok v, vals)
  | .error e =>
    if e.isKeyErr then
      match proxySetItem d vals name fallback with
      | (.error e, vals) => (.error e, vals)
      | (.ok _, vals) => (.ok fallback, vals)
    else (.error e, vals)

/-- What a proxy can be compared with. -/
inductive ProxyOperand where
  /-- another proxy, read-only or mutable, of this struct -/
  | proxy (mutable : Bool) (cls : String) (vals : Dict)
  /-- a struct, a dict, or any other value -/
  | value (v : Value)

/-- `proxy == other`.  `@dataclass` (`/repo/binobj/structures.py:833, 853`) generates an `__eq__` that compares the structs of two proxies of the
same class and returns `NotImplemented` otherwise; then a struct on the right decides through `Struct.__eq__`, for which the proxy is a
`Mapping`, and everything else, dicts included, differs.  Simplification: the structs are not the same object. -/
def proxyEq (Γ : Classes) (n : Nat) (mutable : Bool) (cls : String) (vals : Dict) : ProxyOperand → Except Err Bool
  | .proxy m c w => if m = mutable then structEq Γ n cls vals (.struct c w) else .ok false
  | .value (.struct c w) => structEq Γ n c w (.struct cls vals)
  | .value _ => .ok false

end Verif
