import Verif.Model.Dump

/-! # Rebuilding a struct from its dictionary: vocabulary -/
namespace Verif.Spec

/-- Every field that has a value in the dictionary `T` is still considered present by its `present` callable when that callable
looks at `Struct(**T)`.  (True of every field declared without `present`.) -/
def StillPresent (d : StructDesc) (T : Dict) : Prop :=
  ∀ f ∈ d.components, ∀ v, T.get? f.name = some v → v ≠ .notPresent → f.base.present (structView d T) .none none = .ok true

/-- A field the dictionary `T` leaves out (`to_dict()` leaves out the fields declared with `discard=True`) has a value in
`Struct(**T)` all the same: its default, or what its compute function returns. -/
def Recoverable (d : StructDesc) (T : Dict) : Prop :=
  ∀ f ∈ d.components, T.get? f.name = none → ∃ v, f.base.computeValueForDump (structView d T) .none = .ok v

end Verif.Spec
