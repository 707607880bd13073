import Verif.Spec.Struct
import Verif.Spec.Field
import Verif.Spec.Class
import Verif.Spec.Independent

/-!
# Vocabulary for statements about sizes
-/

namespace Verif.Spec

/-- Types whose conversion to bytes produces exactly the size asked for. -/
def ExactKind : Field → Prop
  | .leaf _ (.integer ..) | .leaf _ (.timestamp ..) | .leaf _ (.string ..) => True
  | _ => False

/-- `None` is not allowed, or the field has a fixed size and `None` is written as that many bytes. -/
def NullFits (f : Field) : Prop :=
  f.base.nullValue = .undefined ∨
  ∃ k : Nat, f.base.size = .fixed k ∧
    (f.base.nullValue = .dflt ∨ f.base.nullValue = .none ∨ (∃ bs : Bytes, f.base.nullValue = .bytes bs ∧ bs.length = k) ∨
      (ExactKind f ∧ ∀ bs, f.base.nullValue ≠ .bytes bs))

/-- Wherever the value of the field comes from, it is not a struct instance and does not contain one. -/
def PlainSources (f : Field) (vals : Dict) : Prop :=
  (∀ v, Dict.get? vals f.name = some v → NoStruct v) ∧ NoStruct f.base.dflt ∧
  ∀ fn view v, f.base.computeFn = some fn → fn view = .ok v → NoStruct v

/-- Fields whose length `len(struct)` gets right: fields with a declared size; and fields without one that are `Bytes` or
`String`, or do not look at other fields. -/
def Measurable (f : Field) (vals : Dict) : Prop :=
  ((∃ k, f.base.size = .fixed k) ∧ PadsExactly f ∧ NullFits f) ∨
  ((∃ name, f.base.size = .ref name) ∧ PadsExactly f ∧ f.base.nullValue = .undefined) ∨
  (f.base.size = .none ∧ f.base.discard = false ∧ f.base.factory = none ∧ f.base.nullValue = .undefined ∧
    (Independent f ∨ (∃ b, f = .leaf b .bytes) ∨ ∃ b c pad, f = .leaf b (.string c pad)) ∧ PlainSources f vals)

end Verif.Spec
