import Verif.Spec.Schema
import Verif.Spec.Optional

/-! What can get lost when a struct is saved and loaded: entries of dictionaries that were filled in with defaults. -/

namespace Verif.Spec

/-- Wherever the value has a dictionary for a nested struct, all fields of that struct are in it, down to the last level. -/
inductive Complete (Γ : Classes) : Field → Value → Prop where
  | leaf {b : FieldBase} {k : Leaf} {w : Value} : Complete Γ (.leaf b k) w
  | array {b : FieldBase} {comp : Field} {count : Count} {halt : Option (Stream → List Value → Value → Dict → Except Err (Bool × List Value))}
      {l : List Value} : (∀ w ∈ l, Complete Γ comp w) → Complete Γ (.array b comp count halt) (.list l)
  | dict {b : FieldBase} {cls : String} {d : StructDesc} {dct : Dict} : Γ cls = some d →
      (∀ f ∈ d.components, Dict.get? dct f.name ≠ none) →
      (∀ f ∈ d.components, ∀ w, Dict.get? dct f.name = some w → Complete Γ f w) → Complete Γ (.nested b cls) (.dict dct)

/-- The same for classes with optional and discarded fields, and unions: the dictionaries have all the fields that are not discarded (the value
may be `NOT_PRESENT`).  `tags all` says which values `all` the other fields of the struct may have, as in `Fitting`. -/
inductive Filled (Γ : Classes) : (tags : Dict → Prop) → Field → Value → Prop where
  | leaf {tags : Dict → Prop} {b : FieldBase} {k : Leaf} {w : Value} : Filled Γ tags (.leaf b k) w
  | array {tags : Dict → Prop} {b : FieldBase} {comp : Field} {count : Count}
      {halt : Option (Stream → List Value → Value → Dict → Except Err (Bool × List Value))}
      {l : List Value} : (∀ w ∈ l, Filled Γ tags comp w) → Filled Γ tags (.array b comp count halt) (.list l)
  | dict {tags : Dict → Prop} {b : FieldBase} {cls : String} {d : StructDesc} {dct : Dict} : Γ cls = some d →
      (∀ f ∈ d.components, f.base.discard = false → Dict.get? dct f.name ≠ none) →
      (∀ f ∈ d.components, ∀ w, Dict.get? dct f.name = some w → w ≠ .notPresent → Filled Γ (SameTags d dct) f w) →
      Filled Γ tags (.nested b cls) (.dict dct)
  | union {tags : Dict → Prop} {b : FieldBase} {choices : List (Field ⊕ String)} {ld : Stream → Value → Dict → Except Err Nat}
      {dd : Value → Value → Dict → Except Err Nat} {w : Value} :
      (∀ v ctx all i g, tags all → dd v ctx all = .ok i → choices[i]? = some (.inl g) → Filled Γ tags g w) →
      (∀ v ctx all i cls, tags all → dd v ctx all = .ok i → choices[i]? = some (.inr cls) → Filled Γ tags (.nested {} cls) w) →
      Filled Γ tags (.union b choices ld dd) w

/-- No dictionaries are used in place of struct instances, down to the last level. -/
inductive Built (Γ : Classes) : Field → Value → Prop where
  | leaf {b : FieldBase} {k : Leaf} {w : Value} : Built Γ (.leaf b k) w
  | array {b : FieldBase} {comp : Field} {count : Count} {halt : Option (Stream → List Value → Value → Dict → Except Err (Bool × List Value))}
      {l : List Value} : (∀ w ∈ l, Built Γ comp w) → Built Γ (.array b comp count halt) (.list l)
  | struct {b : FieldBase} {cls : String} {d : StructDesc} {vals : Dict} : Γ cls = some d →
      (∀ f ∈ d.components, ∀ w, Dict.get? vals f.name = some w → Built Γ f w) → Built Γ (.nested b cls) (.struct cls vals)

/-- The same for classes with optional fields and unions. -/
inductive Assembled (Γ : Classes) : (tags : Dict → Prop) → Field → Value → Prop where
  | leaf {tags : Dict → Prop} {b : FieldBase} {k : Leaf} {w : Value} : Assembled Γ tags (.leaf b k) w
  | array {tags : Dict → Prop} {b : FieldBase} {comp : Field} {count : Count}
      {halt : Option (Stream → List Value → Value → Dict → Except Err (Bool × List Value))}
      {l : List Value} : (∀ w ∈ l, Assembled Γ tags comp w) → Assembled Γ tags (.array b comp count halt) (.list l)
  | struct {tags : Dict → Prop} {b : FieldBase} {cls : String} {d : StructDesc} {vals : Dict} : Γ cls = some d →
      (∀ f ∈ d.components, ∀ w, Dict.get? vals f.name = some w → w ≠ .notPresent → Assembled Γ (SameTags d vals) f w) →
      Assembled Γ tags (.nested b cls) (.struct cls vals)
  | union {tags : Dict → Prop} {b : FieldBase} {choices : List (Field ⊕ String)} {ld : Stream → Value → Dict → Except Err Nat}
      {dd : Value → Value → Dict → Except Err Nat} {w : Value} :
      (∀ v ctx all i g, tags all → dd v ctx all = .ok i → choices[i]? = some (.inl g) → Assembled Γ tags g w) →
      (∀ v ctx all i cls, tags all → dd v ctx all = .ok i → choices[i]? = some (.inr cls) → Assembled Γ tags (.nested {} cls) w) →
      Assembled Γ tags (.union b choices ld dd) w

/-- Defaults and computed values use none either. -/
def AssembledSources (Γ : Classes) (f : Field) : Prop :=
  (∀ v, f.base.dflt ≠ .undefined → f.base.default = .ok v → Assembled Γ (fun _ => True) f v) ∧
    ∀ fn view v, f.base.computeFn = some fn → fn view = .ok v → Assembled Γ (fun _ => True) f v

/-- Defaults and computed values use no dictionaries in place of struct instances either. -/
def BuiltSources (Γ : Classes) (f : Field) : Prop :=
  (∀ v, f.base.dflt ≠ .undefined → f.base.default = .ok v → Built Γ f v) ∧
    ∀ fn view v, f.base.computeFn = some fn → fn view = .ok v → Built Γ f v

/-- Every field that is not discarded has been given a value, which is `NOT_PRESENT` unless the field is there, and no discarded field has. -/
def KeptSet (d : StructDesc) (vals : Dict) : Prop :=
  ∀ f ∈ d.components,
    (f.base.discard = false ∧ ∃ v, Dict.get? vals f.name = some v ∧
      (v = .notPresent ∨ f.base.present (structView d vals) .none none = .ok true)) ∨
    (f.base.discard = true ∧ Dict.get? vals f.name = none)

/-- Every field has been given a value. -/
def AllSet (d : StructDesc) (vals : Dict) : Prop :=
  ∀ f ∈ d.components, ∃ v, Dict.get? vals f.name = some v

end Verif.Spec
