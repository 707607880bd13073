import Verif.Spec.Permute

/-!
# The other byte order
-/

namespace Verif.Spec

/-- The other byte order. -/
def otherEnd : Endian → Endian
  | .big => .little
  | .little => .big

/-- The same kind of number in the other byte order. -/
def turnKind : Leaf → Leaf
  | .integer signed e => .integer signed (otherEnd e)
  | .float fmt e => .float fmt (otherEnd e)
  | .timestamp res aware signed e => .timestamp res aware signed (otherEnd e)
  | k => k

/-- Integers, floats and timestamps. -/
def HasByteOrder : Leaf → Prop
  | .integer .. | .float .. | .timestamp .. => True
  | _ => False

/-- The field in the other byte order, if it is one of `X`. -/
def turnField (X : List String) : Field → Field
  | .leaf b k => if b.name ∈ X then .leaf b (turnKind k) else .leaf b k
  | f => f

/-- A number of a declared size that is never null. -/
inductive FixedNumber : Field → Prop where
  | leaf {b : FieldBase} {k : Leaf} {n : Nat} : HasByteOrder k → b.size = .fixed n → b.nullValue = .undefined → FixedNumber (.leaf b k)

/-- `d'` is `d` with the fields `X`, which are numbers, in the other byte order. -/
structure TurnedRound (X : List String) (d d' : StructDesc) : Prop where
  unique : UniqueNames d
  fields : d'.components = d.components.map (turnField X)
  numbers : ∀ f ∈ d.components, f.name ∈ X → FixedNumber f

/-- The bytes of the fields `X` in the opposite order. -/
def turnParts (X : List String) (part : String → Bytes) (x : String) : Bytes := if x ∈ X then (part x).reverse else part x

/-- The fields of a class, and of nested structs, look neither ahead nor at the bytes before them, and do not read to the end of the stream.  They
may look at the values loaded so far: take sizes from them, and so on. -/
structure LoadsInPlace (Γ : Classes) (d : StructDesc) : Prop where
  inside : MovableInside Γ
  fields : ∀ f ∈ d.components, LoadsForward f ∧ LooksBehind Γ f ∧ LooksAhead f ∧ SelfLimited f
  sizes : SizeFieldsNonNeg Γ d

/-- A field whose byte order comes from `Meta.argument_defaults`: an integer without an `endian` of its own. -/
def FollowsDefault (f : Field) : Prop := ∃ b signed e, f = .leaf b (.integer signed e) ∧ "endian" ∉ b.explicit

end Verif.Spec
