import Verif.Model.Modify
import Verif.Spec.History

/-!
# Vocabulary for validators that change the struct
-/

namespace Verif.Spec

/-- The class without its validator methods. -/
def withoutChecks (d : StructDesc) : StructDesc := { d with fieldValidators := [], structValidators := [] }

/-- The validator methods of the class, as programs that change nothing. -/
def pureChecks (d : StructDesc) : Modifiers where
  fields := d.fieldValidators.map fun p => (p.1, p.2.map fun m v vals => (m (structView d vals) v, vals))
  structs := d.structValidators.map fun m vals => (m (structView d vals), vals)

/-- All that the validator methods do to the struct is to assign to its fields and to delete their values. -/
def ByAssignment (d : StructDesc) (c : Modifiers) : Prop :=
  (∀ p ∈ c.fields, ∀ m ∈ p.2, ∀ v vals, ∃ ops, (m v vals).2 = history d vals ops) ∧
  ∀ m ∈ c.structs, ∀ vals, ∃ ops, (m vals).2 = history d vals ops

/-- A validator method of a field changes only fields that are checked later, and the struct validators change no field that is checked. -/
def ChangesLater (c : Modifiers) : Prop :=
  (∀ A p B, c.fields = A ++ p :: B → ∀ m ∈ p.2, ∀ v vals, ∀ k ∈ A.map (·.1) ++ [p.1], Dict.get? (m v vals).2 k = Dict.get? vals k) ∧
  ∀ m ∈ c.structs, ∀ vals, ∀ k ∈ c.fields.map (·.1), Dict.get? (m vals).2 k = Dict.get? vals k

/-- The verdict of a validator method of a field does not depend on fields that are checked later. -/
def LooksEarlier (c : Modifiers) : Prop :=
  ∀ A p B, c.fields = A ++ p :: B → ∀ m ∈ p.2, ∀ v vals vals', (∀ k ∈ A.map (·.1) ++ [p.1], Dict.get? vals k = Dict.get? vals' k) →
    (m v vals).1 = (m v vals').1

end Verif.Spec
