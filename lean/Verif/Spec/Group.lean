import Verif.Spec.Envelope

/-!
# Fields put together in a nested struct
-/

namespace Verif.Spec

/-- The class `d` has the fields `pre`, `mid` and `post`; `d'` has a nested struct, of a class with the fields `mid`, in the place of `mid`. -/
structure Grouped (Γ : Classes) (d d' inner : StructDesc) (pre mid post : List Field) (b : FieldBase) (cls : String) : Prop where
  flat : d.components = pre ++ mid ++ post
  grouped : d'.components = pre ++ .nested b cls :: post
  defined : Γ cls = some inner
  fields : inner.components = mid
  unique : UniqueNames d
  unique' : UniqueNames d'

/-- The instances `vals` of `d` and `vals'` of `d'` have the same values, those of `mid` being in the nested struct, `iv`. -/
structure SameData (pre mid post : List Field) (b : FieldBase) (cls : String) (vals vals' iv : Dict) : Prop where
  outer : ∀ g ∈ pre ++ post, Dict.get? vals' g.name = Dict.get? vals g.name
  inside : ∀ g ∈ mid, Dict.get? iv g.name = Dict.get? vals g.name
  nested : Dict.get? vals' b.name = some (.struct cls iv)

/-- The class has no validators that object to anything once all fields are set. -/
def Lenient (d : StructDesc) : Prop := ∀ vals, (∀ k ∈ names d, Dict.get? vals k ≠ none) → Valid d vals

end Verif.Spec
