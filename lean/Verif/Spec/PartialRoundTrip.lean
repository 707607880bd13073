import Verif.Spec.Schema

/-!
# What `partial_dump` is given to write
-/

namespace Verif.Spec

/-- The value `partial_dump` takes for a field: the one that was set, or else the default. -/
def PartialValue (vals : Dict) (f : Field) (w : Value) : Prop :=
  Dict.get? vals f.name = some w ∨ (Dict.get? vals f.name = none ∧ f.base.default = .ok w)

/-- What `to_dict` shows for a value: the value itself, with a dictionary in the place of each struct. -/
def DictShows (Γ : Classes) (w shown : Value) : Prop := ∃ n, recursiveToDicts Γ n w = .ok shown

/-- At the end of the data there is nothing to load the field from. -/
def FailsAtEnd (Γ : Classes) (ctx : Value) (f : Field) : Prop :=
  ∀ m loaded (s : Stream), s.rest = [] → ∃ e s', fieldFromStream Γ (m + 2) f s ctx loaded = (.error e, s') ∧ e.isEOF = true

/-- A field that takes at least one byte: an integer, float, timestamp, string or byte field of a positive size, a UUID, or an
integer of variable length. -/
inductive TakesAByte : Field → Prop where
  | sized {b : FieldBase} {k : Leaf} {size : Int} : Always b → ReadsExactly k → (∀ fmt, k ≠ .uuid fmt) → b.size = .fixed size →
      0 < size → TakesAByte (.leaf b k)
  | uuid {b : FieldBase} {fmt : UUIDFormat} : Always b → b.size = .fixed fmt.size → TakesAByte (.leaf b (.uuid fmt))
  | varint {b : FieldBase} {enc : VarIntEncoding} {m : Option Int} : Always b → TakesAByte (.leaf b (.varint enc m))

end Verif.Spec
