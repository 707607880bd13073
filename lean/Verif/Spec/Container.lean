import Verif.Spec.Struct

/-!
# Vocabulary for statements about arrays, nested structs and unions
-/

namespace Verif.Spec

/-- The element count of an array is `k`: given as a number, or the value of another field. -/
def CountIs (count : Count) (values : Dict) (k : Int) : Prop :=
  count = .fixed k ∨ ∃ name, count = .ref name ∧ name ≠ "" ∧ Dict.get? values name = some (.int k)

/-- The elements of an iterable Python value, in order. -/
def Elements (v : Value) (elems : List Value) : Prop := v = .list elems ∨ v = .iter elems

/-- A value survives dumping with `all` as the other fields and loading with `loaded` as the fields before, whatever is
around it in the stream. -/
def RoundTrip (Γ : Classes) (n : Nat) (f : Field) (v ctx : Value) (all loaded : Dict) : Prop :=
  ∃ bs, fieldToStream Γ n f v ctx all = (bs, .ok ()) ∧
    ∀ pre rest, fieldFromStream Γ n f ⟨pre ++ bs ++ rest, pre.length⟩ ctx loaded =
      (.ok v, ⟨pre ++ bs ++ rest, pre.length + bs.length⟩)

/-- A field that is always present, takes no `None`, has no constant, and accepts `v`. -/
def Plain (b : FieldBase) (v : Value) : Prop :=
  (∀ w ctx s, b.present w ctx s = .ok true) ∧ b.nullValue = .undefined ∧ b.const = .undefined ∧
    ∀ c ∈ b.validators, c v = .ok ()

/-- Every successful load of the field moves the stream forward, staying in the same data. -/
def Progresses (Γ : Classes) (n : Nat) (f : Field) (ctx : Value) (loaded : Dict) (data : Bytes) : Prop :=
  ∀ p v t, fieldFromStream Γ n f ⟨data, p⟩ ctx loaded = (.ok v, t) → t.data = data ∧ p < t.pos

/-- Loading the field from this data ends, with a value or an exception, wherever it starts. -/
def Terminates (Γ : Classes) (n : Nat) (f : Field) (ctx : Value) (loaded : Dict) (data : Bytes) : Prop :=
  ∀ p, (fieldFromStream Γ n f ⟨data, p⟩ ctx loaded).1 ≠ .error .outOfFuel

end Verif.Spec
