import Verif.Spec.Locality
import Verif.Spec.Position
import Verif.Spec.Offset
import Verif.Spec.Rebuild

/-!
# Two classes that differ in one field
-/

namespace Verif.Spec

/-- The classes `d` and `d'` have the same fields, except that `d` has `f` where `d'` has `f'`, of the same name. -/
structure OneFieldApart (d d' : StructDesc) (pre : List Field) (f f' : Field) (post : List Field) : Prop where
  left : d.components = pre ++ f :: post
  right : d'.components = pre ++ f' :: post
  name : f'.name = f.name

/-- Loading gives `vals` and stops at `t`, unless the validators of the class object to the values loaded. -/
def LoadsUnlessRejected (Γ : Classes) (n : Nat) (d : StructDesc) (s : Stream) (ctx : Value) (vals : Dict) (t : Stream) : Prop :=
  structFromStream Γ n d s ctx [] = (.ok vals, t) ∨
    ∃ e all, validateContents d all = .error e ∧ structFromStream Γ n d s ctx [] = (.error e, t)

/-- `Inner(**inner.to_dict())` can be dumped like `inner`. -/
def Rebuilds (Γ : Classes) (n : Nat) (inner : StructDesc) (iv : Dict) : Prop :=
  UniqueNames inner ∧ Instance inner iv ∧
    ∀ T, structToDict Γ n inner iv = .ok T → StillPresent inner T ∧ Recoverable inner T ∧ validateContents inner T = .ok ()

end Verif.Spec
