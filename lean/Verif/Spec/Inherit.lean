import Verif.Spec.Class
import Verif.Spec.Frame

/-!
# Base classes and subclasses on the wire
-/

namespace Verif.Spec

/-- `d` has the fields of `b`, followed by `own`, and runs all validators that `b` runs. -/
structure Extends (b d : StructDesc) (own : List Field) : Prop where
  components : d.components = b.components ++ own
  validators : ∀ p ∈ b.fieldValidators, ∃ q ∈ d.fieldValidators, q.1 = p.1 ∧ ∀ m ∈ p.2, m ∈ q.2
  structValidators : ∀ m ∈ b.structValidators, m ∈ d.structValidators

/-- The validator methods of the class only look at fields of the class. -/
def LocalValidators (b : StructDesc) : Prop :=
  (∀ p ∈ b.fieldValidators, ∀ m ∈ p.2, ∀ V V' v, ViewsAgreeOff (· ∉ names b) V V' → m V v = m V' v) ∧
  ∀ m ∈ b.structValidators, ∀ V V', ViewsAgreeOff (· ∉ names b) V V' → m V = m V'

/-- The `present` and compute functions of the field return the same whatever the values of the fields in `S` are. -/
def CallsUnaware (S : String → Prop) (b : FieldBase) : Prop :=
  (∀ V V' ctx s, ViewsAgreeOff S V V' → b.present V ctx s = b.present V' ctx s) ∧
  ∀ fn, b.computeFn = some fn → ∀ V V', ViewsAgreeOff S V V' → fn V = fn V'

end Verif.Spec
