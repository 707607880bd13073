import Verif.Spec.Rebuild
import Verif.Spec.Reorder
import Verif.Spec.Schema

/-!
# Converting between two formats

Two classes with the same field names are two formats of the same data: `B(**a.to_dict())` converts an instance of one to the other.
-/

namespace Verif.Spec

/-- Neither a dictionary nor a list with dictionaries in it. -/
inductive DictFree : Value → Prop where
  | scalar {v : Value} : (∀ l, v ≠ .list l) → (∀ d, v ≠ .dict d) → DictFree v
  | list {l : List Value} : (∀ v ∈ l, DictFree v) → DictFree (.list l)

/-- The same field names, in whatever order. -/
def SameNames (a b : StructDesc) : Prop := ∀ k, k ∈ names a ↔ k ∈ names b

/-- The values match the fields of the class. -/
def Suits (Γ : Classes) (d : StructDesc) (vals : Dict) : Prop :=
  ∀ f ∈ d.components, ∀ w, Dict.get? vals f.name = some w → Typed Γ f w

end Verif.Spec
