import Verif.Spec.Envelope
import Verif.Spec.Offset
import Verif.Spec.Schema
import Verif.Spec.Work

/-!
# One array, and two arrays in a row
-/

namespace Verif.Spec

/-- The class `d` has an array of `n + m` elements; `d'` has an array of `n` and one of `m` of the same elements in its place. -/
structure Split (d d' : StructDesc) (pre : List Field) (b b1 b2 : FieldBase) (g : Field) (n m : Nat) (post : List Field) : Prop where
  whole : d.components = pre ++ .array b g (.fixed (n + m : Nat)) none :: post
  halves : d'.components = pre ++ .array b1 g (.fixed n) none :: .array b2 g (.fixed m) none :: post
  unique : UniqueNames d
  unique' : UniqueNames d'

/-- The names of the arrays. -/
def SplitNames (b b1 b2 : FieldBase) (y : String) : Prop := y = b.name ∨ y = b1.name ∨ y = b2.name

/-- The instances `vals` of `d` and `vals'` of `d'` have the same values, and the list is in two parts. -/
structure SameHalves (pre : List Field) (b b1 b2 : FieldBase) (post : List Field) (vals vals' : Dict) (vs ws : List Value) : Prop where
  outer : ∀ g ∈ pre ++ post, Dict.get? vals' g.name = Dict.get? vals g.name
  whole : Dict.get? vals b.name = some (.list (vs ++ ws))
  first : Dict.get? vals' b1.name = some (.list vs)
  second : Dict.get? vals' b2.name = some (.list ws)

end Verif.Spec
