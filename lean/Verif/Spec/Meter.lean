import Verif.Spec.Source
import Verif.Spec.Locality

/-!
# How much a load asks a stream for

Vocabulary for C87.
-/

namespace Verif

/-- A `BytesIO` that keeps a record of the furthest byte that was asked for: `read(n)` at position `p` asks for everything before `p + n`, and `read(-1)`
for everything up to the end and for the end itself.  (On a pipe or a connection that is still open, a `read` does not return before
what it asks for has arrived.)  Field types of the user are assumed to ask for what they take. -/
def metered : Source (Stream × Nat) where
  view t := t.1
  read n t := (.ok (t.1.read n).1, ((t.1.read n).2, max t.2 (if n < 0 then t.1.data.length + 1 else t.1.pos + n.toNat)))
  tell t := (.ok t.1.tell, t)
  seek p t := ((seekInt t.1 p).1, ((seekInt t.1 p).2, t.2))
  skip n t := (.ok (), (t.1.seek (t.1.pos + n), t.2))
  custom load t := ((load t.1).1, ((load t.1).2, max t.2 (load t.1).2.pos))

namespace Spec

/-- The bytes that stand for `None` are never longer than those of a value. -/
def ShortNone (Γ : Classes) (f : Field) : Prop :=
  f.base.nullValue = .undefined ∨ ∀ n loaded repr s ctx v t, fieldNullRepr Γ n f loaded = .ok repr →
    fieldDoLoad Γ n f s ctx loaded = (.ok v, t) → s.pos + repr.length ≤ t.pos

/-- … also in the elements of arrays and in the choices of unions. -/
inductive ShortNones (Γ : Classes) : Field → Prop where
  | leaf {b : FieldBase} {k : Leaf} : ShortNone Γ (.leaf b k) → ShortNones Γ (.leaf b k)
  | array {b : FieldBase} {comp : Field} {count : Count} {halt} : ShortNone Γ (.array b comp count halt) → ShortNones Γ comp →
      ShortNones Γ (.array b comp count halt)
  | nested {b : FieldBase} {cls : String} : ShortNone Γ (.nested b cls) → ShortNones Γ (.nested b cls)
  | union {b : FieldBase} {choices : List (Field ⊕ String)} {ld dd} : ShortNone Γ (.union b choices ld dd) →
      (∀ g, .inl g ∈ choices → ShortNones Γ g) → ShortNones Γ (.union b choices ld dd)

end Spec

end Verif
