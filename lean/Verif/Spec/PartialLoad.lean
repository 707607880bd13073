import Verif.Spec.Offset

/-!
# Discarded fields that no other field looks at
-/

namespace Verif.Spec

/-- `k` is the name of a discarded field of the class. -/
def Discards (d : StructDesc) (k : String) : Prop := ∃ g ∈ d.components, g.base.discard = true ∧ g.name = k

/-- No field of the class looks, when it is loaded, at a discarded field (other than itself). -/
def DiscardsUnread (d : StructDesc) : Prop := ∀ f ∈ d.components, ReadsOff (fun k => k ≠ f.name ∧ Discards d k) f

end Verif.Spec
