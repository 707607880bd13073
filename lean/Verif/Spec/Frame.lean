import Verif.Spec.History

/-!
# Which fields look at which other fields when a struct is dumped
-/

namespace Verif.Spec

/-- Two dictionaries that agree on all keys outside `S`. -/
def AgreeOff (S : String → Prop) (a b : Dict) : Prop := ∀ k, ¬ S k → Dict.get? a k = Dict.get? b k

/-- Two structs or dictionaries, as callables see them, that agree on all names outside `S`. -/
def ViewsAgreeOff (S : String → Prop) (V V' : View) : Prop := ∀ k, ¬ S k → V.contains k = V'.contains k ∧ V.get k = V'.get k

/-- The attributes of a field do not involve the fields in `S`: it is not one of them, its size is not taken from one of them, and its
`present` and compute functions return the same whatever the values of these fields are. -/
structure BaseUnaware (S : String → Prop) (b : FieldBase) : Prop where
  name : ¬ S b.name
  size : ∀ r, b.size = .ref r → ¬ S r
  present : ∀ V V' ctx s, ViewsAgreeOff S V V' → b.present V ctx s = b.present V' ctx s
  compute : ∀ fn, b.computeFn = some fn → ∀ V V', ViewsAgreeOff S V V' → fn V = fn V'

/-- When it is dumped, the field does not look at the fields in `S`: neither its attributes do, nor the count of an array, the decider of a
union, the elements and choices, or the code of a user-defined field class. -/
inductive Unaware (S : String → Prop) : Field → Prop where
  | leaf {b : FieldBase} {k : Leaf} : BaseUnaware S b →
      (∀ ops, k = .custom ops → ∀ v ctx a a', AgreeOff S a a' → ops.dump v ctx a = ops.dump v ctx a') → Unaware S (.leaf b k)
  | array {b : FieldBase} {comp : Field} {count : Count} {halt} : BaseUnaware S b → Unaware S comp →
      (∀ r, count = .ref r → ¬ S r) → Unaware S (.array b comp count halt)
  | nested {b : FieldBase} {cls : String} : BaseUnaware S b → Unaware S (.nested b cls)
  | union {b : FieldBase} {choices : List (Field ⊕ String)} {ld} {dd} : BaseUnaware S b →
      (∀ g, .inl g ∈ choices → Unaware S g) →
      (∀ v ctx a a', AgreeOff S a a' → dd v ctx a = dd v ctx a') → Unaware S (.union b choices ld dd)

/-- Fields outside `S` do not look at fields in `S`. -/
def Separated (S : String → Prop) (d : StructDesc) : Prop := ∀ f ∈ d.components, S f.name ∨ Unaware S f

/-- The contributions of the fields outside `S` are the same in both lists. -/
def SameOff (S : String → Prop) (fs : List Field) (ps ps' : List Bytes) : Prop :=
  ∀ (i : Nat) (f : Field), fs[i]? = some f → ¬ S f.name → ps[i]? = ps'[i]?

end Verif.Spec
