import Verif.Spec.Frame
import Verif.Spec.Size

/-!
# Fields that take the same number of bytes whatever they hold, and fields that are loaded without looking at others
-/

namespace Verif.Spec

/-- The `present` callable of the field, if it has one, always says yes. -/
def AlwaysPresent (b : FieldBase) : Prop := ∀ view ctx s, b.present view ctx s = .ok true

/-- A field that is loaded from exactly `size` bytes, `None` included: a number, a string or bytes of fixed size, a UUID, or an array of a fixed
number of such elements, without a halt check; and it is never left out. -/
inductive Rigid : Field → Nat → Prop where
  | leaf {b : FieldBase} {k : Leaf} {size : Nat} : ReadsExactly k → b.size = .fixed size →
      (∀ fmt, k = .uuid fmt → fmt.size = size) → AlwaysPresent b → NullFits (.leaf b k) → Rigid (.leaf b k) size
  | array {b : FieldBase} {comp : Field} {count size : Nat} : Rigid comp size →
      b.size = .fixed ((count * size : Nat) : Int) → AlwaysPresent b → NullFits (.array b comp (.fixed count) none) →
      Rigid (.array b comp (.fixed count) none) (count * size)

/-- The attributes of a field that matter for loading do not involve the fields in `S`: its size is not taken from one of them, and its
`present` callable returns the same whatever their values are.  (A field without a size looks itself up in what has been loaded.) -/
structure BaseReadsOff (S : String → Prop) (b : FieldBase) : Prop where
  name : b.size = .none → ¬ S b.name
  size : ∀ r, b.size = .ref r → ¬ S r
  present : ∀ V V' ctx s, ViewsAgreeOff S V V' → b.present V ctx s = b.present V' ctx s

/-- The bytes for `None` are given, or as many zeros as the field is long, or there are none. -/
def PlainNull (b : FieldBase) : Prop :=
  b.nullValue = .undefined ∨ b.nullValue = .dflt ∨ b.nullValue = .none ∨ ∃ bs, b.nullValue = .bytes bs

/-- When it is loaded, the field does not look at the fields in `S`. -/
inductive ReadsOff (S : String → Prop) : Field → Prop where
  | leaf {b : FieldBase} {k : Leaf} : BaseReadsOff S b →
      (∀ ops, k = .custom ops → (∀ s ctx a a', AgreeOff S a a' → ops.load s ctx a = ops.load s ctx a') ∧
        ∀ v ctx a a', AgreeOff S a a' → ops.dump v ctx a = ops.dump v ctx a') → ReadsOff S (.leaf b k)
  | array {b : FieldBase} {comp : Field} {count : Count} {halt} : BaseReadsOff S b → ReadsOff S comp →
      (∀ r, count = .ref r → ¬ S r) →
      (∀ h, halt = some h → ∀ s vs ctx a a', AgreeOff S a a' → h s vs ctx a = h s vs ctx a') →
      (PlainNull b ∨ Unaware S comp) → ReadsOff S (.array b comp count halt)
  | nested {b : FieldBase} {cls : String} : BaseReadsOff S b → ReadsOff S (.nested b cls)
  | union {b : FieldBase} {choices : List (Field ⊕ String)} {ld} {dd} : BaseReadsOff S b →
      (∀ g, .inl g ∈ choices → ReadsOff S g) →
      (∀ s ctx a a', AgreeOff S a a' → ld s ctx a = ld s ctx a') →
      (PlainNull b ∨ Unaware S (.union b choices ld dd)) → ReadsOff S (.union b choices ld dd)

end Verif.Spec
