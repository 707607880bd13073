import Verif.Spec.Robust

/-!
# What load errors say

A `DeserializationError` names a field, and an `UnexpectedEOFError` also says how many bytes were wanted, and where.
-/

namespace Verif.Spec

/-- The callables of a field raise no `DeserializationError`s themselves. -/
structure Discreet (b : FieldBase) : Prop where
  present : ∀ w ctx s e, b.present w ctx s = .error e → e.isDeserialization = false
  validators : ∀ c ∈ b.validators, ∀ v e, c v = .error e → e.isDeserialization = false

/-- Nor do those of the fields in it, nor the function that chooses between them. -/
inductive DiscreetField : Field → Prop where
  | leaf {b : FieldBase} {k : Leaf} : Discreet b → DiscreetField (.leaf b k)
  | array {b : FieldBase} {comp : Field} {count : Count} {halt} : Discreet b → DiscreetField comp → DiscreetField (.array b comp count halt)
  | nested {b : FieldBase} {cls : String} : Discreet b → DiscreetField (.nested b cls)
  | union {b : FieldBase} {choices : List (Field ⊕ String)} {ld dd} : Discreet b →
      (∀ s ctx loaded e, ld s ctx loaded = .error e → e.isDeserialization = false) →
      (∀ g, .inl g ∈ choices → DiscreetField g) → DiscreetField (.union b choices ld dd)

/-- None of the callables of a class raises a `DeserializationError`. -/
structure DiscreetClass (d : StructDesc) : Prop where
  fields : ∀ f ∈ d.components, DiscreetField f
  methods : ∀ p ∈ d.fieldValidators, ∀ m ∈ p.2, ∀ w v e, m w v = .error e → e.isDeserialization = false
  validators : ∀ m ∈ d.structValidators, ∀ w e, m w = .error e → e.isDeserialization = false

/-- The error is about this field. -/
def Names (e : Err) (name : String) : Prop := e = .deser (some name) ∨ ∃ size off, e = .eof (some name) size off

/-- If the error is an `UnexpectedEOFError`, then its offset is in the data, not before `p`, and there are not as many bytes there as it says
were wanted. -/
def Truthful (data : Bytes) (p : Nat) (e : Err) : Prop :=
  ∀ field size off, e = .eof field size off → p ≤ off ∧ off ≤ data.length ∧ (data.length : Int) < off + size

end Verif.Spec
