import Verif.Spec.Source
import Verif.Spec.Robust
import Verif.Spec.Memory

/-!
# How often a load calls the stream

Vocabulary for C105.
-/

namespace Verif

/-- A `BytesIO` that counts how often its methods are called.  (The load of a field type of the user counts as one call.) -/
def counting : Source (Stream × Nat) where
  view t := t.1
  read n t := (.ok (t.1.read n).1, ((t.1.read n).2, t.2 + 1))
  tell t := (.ok t.1.tell, (t.1, t.2 + 1))
  seek p t := ((seekInt t.1 p).1, ((seekInt t.1 p).2, t.2 + 1))
  skip n t := (.ok (), (t.1.seek (t.1.pos + n), t.2 + 1))
  custom load t := ((load t.1).1, ((load t.1).2, t.2 + 1))

namespace Spec

/-- A successful load of the field never gives `NOT_PRESENT`. -/
def AlwaysThere (Γ : Classes) (f : Field) : Prop :=
  ∀ n s ctx loaded t, fieldFromStream Γ n f s ctx loaded ≠ (.ok .notPresent, t)

/-- A field at level `ℓ`: arrays either have elements that take at least one byte each (with any count or halt check), or a fixed
number of elements (at most `M`), all of them there; they are one level above their elements.  Structs have the level of their class. -/
inductive Brisk (Γ : Classes) (level : String → Nat) (M : Nat) : Nat → Field → Prop where
  | leaf {ℓ : Nat} {b : FieldBase} {k : Leaf} : LoadsForward (.leaf b k) → Brisk Γ level M ℓ (.leaf b k)
  | eats {ℓ : Nat} {b : FieldBase} {comp : Field} {count : Count} {halt} : Brisk Γ level M ℓ comp → Eats Γ comp →
      Brisk Γ level M (ℓ + 1) (.array b comp count halt)
  | fixed {ℓ : Nat} {b : FieldBase} {comp : Field} {n : Int} : Brisk Γ level M ℓ comp → AlwaysThere Γ comp → n ≤ M →
      Brisk Γ level M (ℓ + 1) (.array b comp (.fixed n) none)
  | nested {ℓ : Nat} {b : FieldBase} {cls : String} : level cls ≤ ℓ → Brisk Γ level M ℓ (.nested b cls)
  | union {ℓ : Nat} {b : FieldBase} {choices : List (Field ⊕ String)} {ld dd} :
      (∀ g, .inl g ∈ choices → Brisk Γ level M ℓ g) → (∀ cls, .inr cls ∈ choices → level cls ≤ ℓ) →
      Brisk Γ level M ℓ (.union b choices ld dd)

/-- A class at level `ℓ + 1` has at most `M` fields.  They are at level `ℓ`, or come after a field that takes at least one byte: then they may
be at any level up to `L`, so that classes may contain themselves. -/
def BriskClass (Γ : Classes) (level : String → Nat) (M L ℓ : Nat) (d : StructDesc) : Prop :=
  d.components.length ≤ M ∧ ∀ pre f post, d.components = pre ++ f :: post →
    Brisk Γ level M ℓ f ∨ ((∃ g ∈ pre, Eats Γ g) ∧ Brisk Γ level M L f)

/-- All classes have a level, at least 1 and at most `L`. -/
def BriskClasses (Γ : Classes) (level : String → Nat) (M L : Nat) : Prop :=
  ∀ c d, Γ c = some d → ∃ ℓ, level c = ℓ + 1 ∧ ℓ + 1 ≤ L ∧ BriskClass Γ level M L ℓ d

/-- How many calls one byte may cause: it depends on the classes only. -/
def callsPerByte (M L : Nat) : Nat := 8 * (L + 3) * (2 * M + 4) ^ (L + 1)

end Spec
end Verif
