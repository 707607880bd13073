import Verif.Spec.Permute

/-!
# The encoding of texts
-/

namespace Verif.Spec

/-- Every character that `k` can encode has the same bytes in `k'`, and bytes that are, or may become, a character to `k` are so to `k'`. -/
structure Widens (k k' : CharCodec) : Prop where
  enc : ∀ c b, k.enc c = some b → k'.enc c = some b
  char : ∀ b c n, k.dec b = .char c n → k'.dec b = .char c n
  more : ∀ b, k.dec b = .more → k'.dec b = .more

/-- A text with the encoding `k'`. -/
def recodeKind (k' : CharCodec) : Leaf → Leaf
  | .string _ pad => .string k' pad
  | .stringz _ pad => .stringz k' pad
  | l => l

/-- The field with the encoding `k'`, if it is one of `X`. -/
def recodeField (X : List String) (k' : CharCodec) : Field → Field
  | .leaf b l => if b.name ∈ X then .leaf b (recodeKind k' l) else .leaf b l
  | f => f

/-- A `String` or `StringZ` with the encoding `k` that is never null. -/
inductive TextIn (k : CharCodec) : Field → Prop where
  | string {b : FieldBase} {pad : Option UInt8} : b.nullValue = .undefined → TextIn k (.leaf b (.string k pad))
  | stringz {b : FieldBase} {pad : Option UInt8} : b.nullValue = .undefined → TextIn k (.leaf b (.stringz k pad))

/-- `d'` is `d` with the encoding `k'` for the fields `X`, which are texts whose encodings `k'` widens. -/
structure Recoded (X : List String) (k' : CharCodec) (d d' : StructDesc) : Prop where
  fields : d'.components = d.components.map (recodeField X k')
  texts : ∀ f ∈ d.components, f.name ∈ X → ∃ k, TextIn k f ∧ Widens k k'

end Verif.Spec
