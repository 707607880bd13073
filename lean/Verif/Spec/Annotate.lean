import Verif.Model.Class

/-!
# Annotated classes: what they should mean
-/

namespace Verif.Spec

open Verif

/-- The annotation `a` of a field called `name` with the class attribute `fallback` stands for the field `f`: a field class for the field made by
calling it with that name and default (and `null_value=DEFAULT` if the annotation was `Optional`), a field instance for itself, a struct class for
`Nested(cls)`. -/
inductive StandsFor (Γ : Classes) (n : Nat) (name : String) (fallback : Value) : Annotation → Field → Prop where
  | fieldClass {mk : FieldArgs → Except Err Field} {f : Field} :
      mk { name := name, dflt := fallback, explicit := ["name", "default"] } = .ok f →
      StandsFor Γ n name fallback (.fieldClass mk false) f
  | optional {mk : FieldArgs → Except Err Field} {f : Field} :
      mk { name := name, dflt := fallback, nullValue := .dflt, explicit := ["name", "default", "null_value"] } = .ok f →
      StandsFor Γ n name fallback (.fieldClass mk true) f
  | fieldInstance {f : Field} : StandsFor Γ n name fallback (.fieldInstance f) f
  | structClass {cls : String} {nullable : Bool} {f : Field} : mkNested Γ n cls {} = .ok f →
      StandsFor Γ n name fallback (.structClass cls nullable) f

/-- The names and fields that an assigning class body needs in order to say the same as the annotations: one field per annotated name that has
exactly one annotation that means something (`Annotated[int, UInt8, "some comment"]`), nothing for names that have none. -/
inductive SameFields (Γ : Classes) (n : Nat) : List Hint → List (String × Field) → Prop where
  | nil : SameFields Γ n [] []
  | ignored {h : Hint} {hs : List Hint} {fs : List (String × Field)} : (∀ a ∈ h.annotations, a = .other) →
      SameFields Γ n hs fs → SameFields Γ n (h :: hs) fs
  | field {h : Hint} {hs : List Hint} {fs : List (String × Field)} {pre post : List Annotation} {a : Annotation} {f : Field} :
      h.annotations = pre ++ a :: post → (∀ x ∈ pre ++ post, x = .other) → StandsFor Γ n h.name h.dflt a f →
      SameFields Γ n hs fs → SameFields Γ n (h :: hs) ((h.name, f) :: fs)

/-- The class body that assigns these fields. -/
def assignments (fs : List (String × Field)) : List (String × ClassItem) := fs.map fun p => (p.1, .field p.2)

/-- A body without fields whose only methods of interest validate the whole struct. -/
def OnlyStructValidators (body : List (String × ClassItem)) : Prop := ∀ p ∈ body, ∃ fn, p.2 = .structValidator fn

/-- A body that assigns no fields. -/
def NoAssignments (body : List (String × ClassItem)) : Prop := ∀ p ∈ body, ∀ f, p.2 ≠ .field f

/-- The field without its place: neither its index in the class nor its offset. -/
def unplaced (f : Field) : Field := f.withBase { f.base with index := 0, offset := none }

end Verif.Spec
