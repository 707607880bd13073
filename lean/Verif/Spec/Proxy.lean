import Verif.Model.Proxy
import Verif.Spec.History

/-!
# What a mapping over a struct should do
-/

namespace Verif.Spec

/-- One mutating operation on a `MutableStructMappingProxy`. -/
inductive ProxyOp where
  /-- `proxy[name] = v` -/
  | set (name : String) (v : Value)
  /-- `del proxy[name]` -/
  | del (name : String)
  /-- `proxy.pop(name)`, `proxy.pop(name, default)` -/
  | pop (name : String) (fallback : Option Value)
  /-- `proxy.popitem()` -/
  | popitem
  /-- `proxy.clear()` -/
  | clear
  /-- `proxy.update(other)` -/
  | update (other : Dict)
  /-- `proxy.setdefault(name, default)` -/
  | setdefault (name : String) (fallback : Value)

/-- The struct's stored values after the operation, whether it raised or not. -/
def ProxyOp.run (d : StructDesc) (vals : Dict) : ProxyOp → Dict
  | .set k v => (proxySetItem d vals k v).2
  | .del k => (proxyDelItem d vals k).2
  | .pop k fallback => (proxyPop d vals k fallback).2
  | .popitem => (proxyPopItem d vals).2
  | .clear => (proxyClear d (vals.length + 1) vals).2
  | .update other => (proxyUpdate d vals other).2
  | .setdefault k v => (proxySetDefault d vals k v).2

/-- The stored values after any number of operations. -/
def proxyHistory (d : StructDesc) (vals : Dict) : List ProxyOp → Dict
  | [] => vals
  | op :: ops => proxyHistory d (op.run d vals) ops

/-- The items of a struct: the fields that are set, with their values. -/
def Items (vals : Dict) (k : String) (v : Value) : Prop := Dict.get? vals k = some v ∧ v ≠ .undefined

end Verif.Spec
