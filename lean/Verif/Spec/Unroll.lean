import Verif.Spec.Envelope
import Verif.Spec.Offset
import Verif.Spec.Schema
import Verif.Spec.Renaming
import Verif.Spec.Bare

/-!
# Arrays of a fixed number of elements, and as many fields
-/

namespace Verif.Spec

/-- A type of elements: a number, a UUID, bytes or a string of declared size, or a variable-length integer, with its attributes; never left
out, never null, not discarded, without a compute function. -/
structure ElementType (c : FieldBase) (k : Leaf) : Prop where
  kind : (ReadsExactly k ∧ ∃ n, c.size = .fixed n) ∨ ((∃ enc max, k = .varint enc max) ∧ c.size = .none)
  always : Always c
  kept : c.discard = false
  stored : c.computeFn = none

/-- A field of this type with the name `x`, without the traces of its declaration. -/
def singleField (c : FieldBase) (k : Leaf) (x : String) : Field := .leaf { c.bare with name := x } k

/-- The class `d` has fields `xs`, all of the same type; `d'` has an array of `xs.length` elements of this type in their place. -/
structure Unrolled (d d' : StructDesc) (pre : List Field) (xs : List String) (c : FieldBase) (k : Leaf) (b : FieldBase) (post : List Field) :
    Prop where
  single : d.components = pre ++ xs.map (singleField c k) ++ post
  listed : d'.components = pre ++ .array b (.leaf c k) (.fixed xs.length) none :: post
  unique : UniqueNames d
  unique' : UniqueNames d'

/-- The instances `vals` of `d` and `vals'` of `d'` have the same values, those of `xs` being the elements of the list. -/
structure SameElements (pre : List Field) (xs : List String) (b : FieldBase) (post : List Field) (vals vals' : Dict) (vs : List Value) : Prop where
  outer : ∀ g ∈ pre ++ post, Dict.get? vals' g.name = Dict.get? vals g.name
  items : Each (fun x v => Dict.get? vals x = some v) xs vs
  list : Dict.get? vals' b.name = some (.list vs)

/-- Numbers, bytes, strings, UUIDs and datetimes. -/
def SimpleValue : Value → Prop
  | .int _ | .bytes _ | .str _ | .float _ | .uuid _ | .datetime .. => True
  | _ => False

end Verif.Spec
