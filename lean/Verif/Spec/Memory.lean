import Verif.Spec.Robust
import Verif.Spec.Text

/-!
# How much memory the result of a load takes
-/

namespace Verif

mutual
/-- The size of a value: one for each object, and one more for each byte of a byte string or of a number and for each character of a text. -/
def Value.weight : Value → Nat
  | .int i => 1 + i.natAbs.log2 / 8
  | .bytes b => 1 + b.length
  | .str s => 1 + s.length
  | .list l => 1 + weightList l
  | .iter l => 1 + weightList l
  | .dict d => 1 + weightDict d
  | .struct _ d => 1 + weightDict d
  | _ => 1
@[inherit_doc Value.weight] def weightList : List Value → Nat
  | [] => 0
  | v :: r => v.weight + weightList r
@[inherit_doc Value.weight] def weightDict : List (String × Value) → Nat
  | [] => 0
  | (_, v) :: r => v.weight + weightDict r
end

namespace Spec

/-- Every character takes at least one byte.  (True of all codecs of C51.) -/
def TakesBytes (c : CharCodec) : Prop := ∀ bs ch n, c.dec bs = .char ch n → 1 ≤ n

/-- What a field without children loads is not bigger than the bytes it reads. -/
inductive ThriftyLeaf (M : Nat) : Leaf → Prop where
  | float {fmt en} : ThriftyLeaf M (.float fmt en)
  | integer {sg en} : ThriftyLeaf M (.integer sg en)
  | varint {enc m} : ThriftyLeaf M (.varint enc m)
  | timestamp {res aware sg en} : ThriftyLeaf M (.timestamp res aware sg en)
  | bytes : ThriftyLeaf M .bytes
  | string {c p} : TakesBytes c → ThriftyLeaf M (.string c p)
  | stringz {c p} : TakesBytes c → ThriftyLeaf M (.stringz c p)
  | uuid {fmt} : ThriftyLeaf M (.uuid fmt)
  | custom {ops} : (∀ ctx loaded, Forward fun s => ops.load s ctx loaded) →
      (∀ s ctx loaded v t, ops.load s ctx loaded = (.ok v, t) → v.weight ≤ M + (t.pos - s.pos)) → ThriftyLeaf M (.custom ops)

/-- A field at level `ℓ`: arrays either have elements that take at least one byte each, or a fixed number of elements (at most `M`);
they are one level above their elements.  Values for absent fields have size `M` at most.  Structs have the level of their class. -/
inductive Thrifty (Γ : Classes) (level : String → Nat) (M : Nat) : Nat → Field → Prop where
  | leaf {ℓ : Nat} {b : FieldBase} {k : Leaf} : b.notPresentValue.weight ≤ M → ThriftyLeaf M k → Thrifty Γ level M ℓ (.leaf b k)
  | array {ℓ : Nat} {b : FieldBase} {comp : Field} {count : Count} : b.notPresentValue.weight ≤ M → Thrifty Γ level M ℓ comp →
      (Eats Γ comp ∨ ∃ n, count = .fixed n ∧ n ≤ M) → Thrifty Γ level M (ℓ + 1) (.array b comp count none)
  | nested {ℓ : Nat} {b : FieldBase} {cls : String} : b.notPresentValue.weight ≤ M → level cls ≤ ℓ → Thrifty Γ level M ℓ (.nested b cls)
  | union {ℓ : Nat} {b : FieldBase} {choices : List (Field ⊕ String)} {ld dd} : b.notPresentValue.weight ≤ M →
      (∀ g, .inl g ∈ choices → Thrifty Γ level M ℓ g) → (∀ cls, .inr cls ∈ choices → level cls ≤ ℓ) →
      Thrifty Γ level M ℓ (.union b choices ld dd)

/-- A class at level `ℓ + 1` has at most `M` fields.  They are at level `ℓ`, or come after a field that takes at least one byte: then they may
be at any level up to `L`, so that classes may contain themselves. -/
def ThriftyClass (Γ : Classes) (level : String → Nat) (M L ℓ : Nat) (d : StructDesc) : Prop :=
  d.components.length ≤ M ∧ ∀ pre f post, d.components = pre ++ f :: post →
    Thrifty Γ level M ℓ f ∨ ((∃ g ∈ pre, Eats Γ g) ∧ Thrifty Γ level M L f)

/-- All classes have a level, at least 1 and at most `L`. -/
def Levelled (Γ : Classes) (level : String → Nat) (M L : Nat) : Prop :=
  ∀ c d, Γ c = some d → ∃ ℓ, level c = ℓ + 1 ∧ ℓ + 1 ≤ L ∧ ThriftyClass Γ level M L ℓ d

/-- What one byte may cost: it depends on the classes only. -/
def costPerByte (M L : Nat) : Nat := (L + 2) * (M + 1) ^ (L + 2)

end Spec
end Verif
