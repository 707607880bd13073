import Verif.Spec.Envelope
import Verif.Spec.Locality
import Verif.Spec.Offset
import Verif.Spec.Position
import Verif.Spec.Reorder
import Verif.Spec.Schema

/-!
# The fields of a class in another order
-/

namespace Verif.Spec

/-- The two classes have the same fields, in any order. -/
structure Reordered (d d' : StructDesc) : Prop where
  unique : UniqueNames d
  fields : List.Perm d'.components d.components

/-- The bytes of the fields of a class, one after the other, when `part x` are the bytes of the field `x`. -/
def inOrder (part : String → Bytes) (fs : List Field) : Bytes := (fs.map fun f => part f.name).flatten

/-- A field that can stand anywhere: when it is loaded it looks at no other field, neither back nor ahead, and it does not read to the end of
the stream. -/
structure Movable (Γ : Classes) (f : Field) : Prop where
  alone : ReadsOff (fun y => y ≠ f.name) f
  sizes : ∀ r, ¬ SizeFrom f r
  forward : LoadsForward f
  behind : LooksBehind Γ f
  ahead : LooksAhead f
  limited : SelfLimited f

/-- The fields of nested structs look neither back nor ahead of the struct, and do not read to the end of the stream. -/
def MovableInside (Γ : Classes) : Prop :=
  ∀ c d, Γ c = some d → (∀ f ∈ d.components, LoadsForward f ∧ LooksBehind Γ f ∧ LooksAhead f ∧ SelfLimited f) ∧ SizeFieldsNonNeg Γ d

end Verif.Spec
