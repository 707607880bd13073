import Verif.Spec.Struct

/-!
# Histories of operations on a struct instance
-/

namespace Verif.Spec

/-- One operation on an instance through its item interface (or, for `set`, attribute assignment, which is the same code). -/
inductive Op where
  /-- `struct[name] = v` -/
  | set (name : String) (v : Value)
  /-- `del struct[name]` -/
  | del (name : String)

/-- The name the operation is about. -/
def Op.name : Op → String
  | .set k _ => k
  | .del k => k

/-- Perform one operation: its result, and the stored values afterwards. -/
def Op.run (d : StructDesc) (vals : Dict) : Op → Mut
  | .set k v => structSetItem d vals k v
  | .del k => structDelItem d vals k

/-- The stored values after a history of operations; an operation that raises is caught by the caller, who goes on. -/
def history (d : StructDesc) (vals : Dict) : List Op → Dict
  | [] => vals
  | op :: ops => history d (op.run d vals).2 ops

/-- A field that may not be assigned: computed or constant. -/
def Immutable (f : Field) : Prop := f.base.computeFn.isSome ∨ f.base.const ≠ .undefined

/-- Which operations are allowed by the documentation: the name is a field; for an assignment, the field is neither computed nor
constant, and its validators accept the value. -/
def Allowed (d : StructDesc) (op : Op) : Prop :=
  ∃ f ∈ d.components, f.name = op.name ∧
    match op with
    | .set _ v => ¬ Immutable f ∧ ∀ c ∈ f.base.validators, c v = .ok ()
    | .del _ => True

/-- `Outcome d before ops k r`: a plain dictionary that started with `before` and saw exactly the allowed operations of `ops` has
`r` under `k`. -/
inductive Outcome (d : StructDesc) (k : String) : Option Value → List Op → Option Value → Prop where
  | nil (r : Option Value) : Outcome d k r [] r
  | set {v : Value} {r r' : Option Value} {ops : List Op} : Allowed d (.set k v) → Outcome d k (some v) ops r' →
      Outcome d k r (.set k v :: ops) r'
  | del {r r' : Option Value} {ops : List Op} : Allowed d (.del k) → Outcome d k none ops r' →
      Outcome d k r (.del k :: ops) r'
  | skip {op : Op} {r r' : Option Value} {ops : List Op} : (op.name ≠ k ∨ ¬ Allowed d op) → Outcome d k r ops r' →
      Outcome d k r (op :: ops) r'

end Verif.Spec
