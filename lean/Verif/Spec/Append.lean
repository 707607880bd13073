import Verif.Spec.Locality
import Verif.Spec.Schema

/-!
# Files that grow at the end

A class whose last field is an array without a count: what comes after the header is as many elements as there are bytes for.
-/

namespace Verif.Spec

/-- The class consists of the fields `header`, which know where they end, and at last `Array(comp)` without a count, which takes the rest. -/
structure OpenEnded (Γ : Classes) (d : StructDesc) (header : List Field) (b : FieldBase) (comp : Field) : Prop where
  components : d.components = header ++ [.array b comp .none none]
  unique : UniqueNames d
  plain : Always b ∧ b.const = .undefined ∧ b.validators = []
  forward : (∀ f ∈ header, LoadsForward f) ∧ LoadsForward comp
  behind : (∀ f ∈ header, LooksBehind Γ f) ∧ LooksBehind Γ comp
  limited : (∀ f ∈ header, SelfLimited f) ∧ SelfLimited comp
  sizes : SizeFieldsNonNeg Γ d

/-- The same of all classes that are used as fields, except that these know where they end. -/
structure Enclosed (Γ : Classes) : Prop where
  forward : ∀ c d, Γ c = some d → ∀ f ∈ d.components, LoadsForward f
  behind : ∀ c d, Γ c = some d → ∀ f ∈ d.components, LooksBehind Γ f
  limited : ∀ c d, Γ c = some d → (∀ f ∈ d.components, SelfLimited f) ∧ SizeFieldsNonNeg Γ d

end Verif.Spec
