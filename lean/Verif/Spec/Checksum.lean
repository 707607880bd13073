import Verif.Spec.Optional

/-!
# Checksums

Vocabulary for C108: a computed field that a struct validator compares with what it should be.
-/

namespace Verif.Spec

/-- A method with `@validates_struct` that accepts a struct only if the field is what `fn` makes of the struct:
`if struct[name] != fn(struct): raise ValidationError(…)`. -/
def Verifies (name : String) (fn : View → Except Err Value) (check : View → Except Err Unit) : Prop :=
  ∀ view, check view = .ok () → ∃ v, view.get name = .ok v ∧ fn view = .ok v

/-- `f` is a field of the class that is computed by `fn` (`@f.computes`) from the fields `refs`, which does not include `f`, and
there is a validator method that compares it. -/
structure Checksummed (d : StructDesc) (f : Field) (fn : View → Except Err Value) (refs : List String) : Prop where
  field : f ∈ d.components
  computed : f.base.computeFn = some fn
  noDefault : f.base.dflt = .undefined
  looksUp : LooksUp refs fn
  /-- the other fields are in the struct and stay there -/
  others : ∀ q ∈ refs, q ≠ f.name ∧ ∃ g ∈ d.components, g.name = q ∧ g.base.discard = false
  /-- it computes plain values -/
  plain : ∀ view v, fn view = .ok v → NoStruct v ∧ v ≠ .notPresent ∧ v ≠ .undefined
  verified : ∃ check ∈ d.structValidators, Verifies f.name fn check

end Verif.Spec
