import Verif.Model.Load

/-!
# Vocabulary for statements about fields

Small definitions, independent of the dumping and loading code, in which the properties of `/verif/properties.jsonl` are
stated.
-/

namespace Verif.Spec

/-- Every validator attached to the field accepts the value. -/
def Accepts (f : Field) (v : Value) : Prop := ∀ check ∈ f.base.validators, check v = .ok ()

/-- The field's declared size, looked up in `values` if it is given by another field, is `k`. -/
def DeclaredSize (f : Field) (values : Dict) (k : Int) : Prop :=
  f.base.size = .fixed k ∨ ∃ name, f.base.size = .ref name ∧ values.get? name = some (.int k)

/-- The value that is dumped when the caller passes `v`: the default if `v` is the `DEFAULT` marker. -/
def Effective (f : Field) (v w : Value) : Prop :=
  (v ≠ .dflt ∧ w = v) ∨ (v = .dflt ∧ f.base.default = .ok w)

/-- Documented contract of an overridden `_add_padding` (base.py:857-858): the result has exactly the requested length.  The
built-in fields meet it (`builtin_padsExactly`). -/
def PadsExactly : Field → Prop
  | .leaf _ (.custom ops) =>
    ∀ pad, ops.pad = some pad → ∀ s n r, (s.length : Int) < n → pad s n = .ok r → (r.length : Int) = n
  | _ => True

/-- Field types that read a number of bytes known in advance. -/
def ReadsExactly : Leaf → Prop
  | .float .. | .integer .. | .timestamp .. | .bytes | .string .. | .uuid .. => True
  | _ => False

end Verif.Spec
