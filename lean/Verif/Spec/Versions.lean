import Verif.Spec.Inherit

/-!
# Versions of a file format

A class is replaced by a subclass (or by a class with more fields at the end) whose new fields are there only in data of the new version.
-/

namespace Verif.Spec

/-- The field is there in data whose version number is at least `i`: `present=lambda f, *_: f[tag] >= i`. -/
def Since (tag : String) (i : Int) (b : FieldBase) : Prop :=
  ∀ (V : View) (ctx : Value) (s : Option Stream) (x : Int), V.get tag = .ok (.int x) → b.present V ctx s = .ok (decide (i ≤ x))

/-- Checks of the new class accept an instance whose new fields are absent if those of the old class accept it without these fields. -/
def AcceptsAbsent (b d : StructDesc) (own : List Field) : Prop :=
  ∀ vals vals', Instance b vals → Instance d vals' → (∀ k ∈ names b, Dict.get? vals' k = Dict.get? vals k) →
    (∀ k ∈ names b, Dict.get? vals k ≠ none) → (∀ f ∈ own, Dict.get? vals' f.name = some f.base.notPresentValue) →
    Valid b vals → Valid d vals'

/-- The versions `vs 0`, `vs 1`, … of a class.  Each has the fields of the previous one, then new ones, `own i`, that are in the data only if
the version number, in the field `tag`, is at least `i + 1`. -/
structure Versions (vs : Nat → StructDesc) (own : Nat → List Field) (tag : String) : Prop where
  extend : ∀ i, Extends (vs i) (vs (i + 1)) (own i)
  unique : ∀ i, UniqueNames (vs i)
  tagged : ∃ f ∈ (vs 0).components, f.name = tag ∧ f.base.discard = false ∧ f.base.present = fun _ _ _ => .ok true
  since : ∀ i, ∀ f ∈ own i, Since tag (i + 1) f.base

/-- The fields that version `i + j` has and version `i` has not. -/
def newFields (own : Nat → List Field) (i : Nat) : Nat → List Field
  | 0 => []
  | j + 1 => newFields own i j ++ own (i + j)

end Verif.Spec
