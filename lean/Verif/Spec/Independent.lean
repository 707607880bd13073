import Verif.Model.Struct

/-!
# Fields that do not look at other fields
-/

namespace Verif.Spec

/-- The size of the field is fixed; or it has none, none is needed, and it cannot be `None`. -/
def OwnSize (b : FieldBase) (needed : Bool) : Prop :=
  (∃ k, b.size = .fixed k) ∨ (needed = false ∧ b.size = .none ∧ b.nullValue = .undefined)

/-- Does the kind of field ask for its expected size when it dumps a value?  (`Bytes`, `String`, `Timestamp`; `Integer` needs
a fixed size.) -/
def NeedsSize : Leaf → Bool
  | .varint .. | .stringz .. | .uuid .. | .float .. => false
  | _ => true

/-- Nothing in the declaration of the field refers to other fields of the struct: no size or count taken from one, no union
(whose decider is given all fields), no user-defined field class. -/
inductive Independent : Field → Prop where
  | leaf {b : FieldBase} {k : Leaf} : (∀ ops, k ≠ .custom ops) → OwnSize b (NeedsSize k) → Independent (.leaf b k)
  | array {b : FieldBase} {comp : Field} {count : Count} {halt} : Independent comp → (∀ r, count ≠ .ref r) → OwnSize b false →
      Independent (.array b comp count halt)
  | nested {b : FieldBase} {cls : String} : OwnSize b false → Independent (.nested b cls)

end Verif.Spec
