import Verif.Spec.Permute

/-!
# Signed and unsigned
-/

namespace Verif.Spec

/-- A signed integer instead of an unsigned one, or the other way round. -/
def flipKind : Leaf → Leaf
  | .integer signed e => .integer (!signed) e
  | k => k

/-- The field with the other sign, if it is one of `X`. -/
def flipField (X : List String) : Field → Field
  | .leaf b k => if b.name ∈ X then .leaf b (flipKind k) else .leaf b k
  | f => f

/-- An integer of `m` bytes that is never null, and kept. -/
inductive FixedInteger (m : Nat) : Field → Prop where
  | leaf {b : FieldBase} {signed : Bool} {e : Endian} : b.size = .fixed m → b.nullValue = .undefined → b.discard = false →
      FixedInteger m (.leaf b (.integer signed e))

/-- `d'` is `d` with the fields `X`, which are integers, signed where they were unsigned and unsigned where they were signed. -/
structure Flipped (X : List String) (d d' : StructDesc) : Prop where
  unique : UniqueNames d
  fields : d'.components = d.components.map (flipField X)
  integers : ∀ f ∈ d.components, f.name ∈ X → ∃ m, FixedInteger m f

/-- A number that `m` bytes can hold signed and unsigned. -/
def HeldByBoth (m : Nat) (i : Int) : Prop := 0 ≤ i ∧ 2 * i < 2 ^ (8 * m)

/-- The numbers among the values of the fields `X` can be held signed and unsigned. -/
def AllHeld (X : List String) (d : StructDesc) (vals : Dict) : Prop :=
  ∀ f ∈ d.components, f.name ∈ X → ∀ m, FixedInteger m f → ∀ i, Dict.get? vals f.name = some (.int i) → HeldByBoth m i

end Verif.Spec
