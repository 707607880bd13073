import Verif.Spec.Schema

/-!
# Struct classes with optional fields

Like `Schema`, but fields may be left out depending on the values of earlier fields, fields without children may be `None`, there may be
unions, whose choice depends on the values of earlier fields, and there may be discarded fields such as magic numbers and padding.
-/

namespace Verif.Spec

/-- `r` is one of the fields, a basic one: without children, always there, never `None`, not discarded, not computed. -/
def Basic (fields : List Field) (r : String) : Prop :=
  ∃ b k, Field.leaf b k ∈ fields ∧ b.name = r ∧ Always b ∧ b.discard = false ∧ b.computeFn = none

/-- The function looks up these fields of the struct, and depends on nothing else. -/
def LooksUp (refs : List String) (fn : View → Except Err Value) : Prop :=
  ∀ v₁ v₂ : View, (∀ r ∈ refs, v₁.get r = v₂.get r) → fn v₁ = fn v₂

/-- A field is not computed, or from basic fields of the struct.  `fields` are all the fields of the struct: the basic fields may come later. -/
def Traceable (fields : List Field) (b : FieldBase) : Prop :=
  ∀ fn, b.computeFn = some fn → ∃ refs, (∀ r ∈ refs, Basic fields r) ∧ LooksUp refs fn

/-- `r` is one of the fields `pre` of a struct, a plain one: without children, always there, never `None`, not discarded, and not computed
except from basic fields. -/
def Solid (fields pre : List Field) (r : String) : Prop :=
  ∃ b k, Field.leaf b k ∈ pre ∧ b.name = r ∧ Always b ∧ b.discard = false ∧ Traceable fields b

/-- Element counts, and the choices of unions, are determined by plain fields. -/
inductive Grounded (fields pre : List Field) : Field → Prop where
  | leaf {b : FieldBase} {k : Leaf} : Grounded fields pre (.leaf b k)
  | array {b : FieldBase} {comp : Field} {count : Count} {halt : Option (Stream → List Value → Value → Dict → Except Err (Bool × List Value))} :
      (∀ r, count = .ref r → Solid fields pre r) → Grounded fields pre comp → Grounded fields pre (.array b comp count halt)
  | nested {b : FieldBase} {cls : String} : Grounded fields pre (.nested b cls)
  | union {b : FieldBase} {choices : List (Field ⊕ String)} {ld : Stream → Value → Dict → Except Err Nat}
      {dd : Value → Value → Dict → Except Err Nat} {refs : List String} : (∀ r ∈ refs, Solid fields pre r) → DecidedBy refs ld dd →
      (∀ g, .inl g ∈ choices → Grounded fields pre g) → Grounded fields pre (.union b choices ld dd)

/-- `all` has the values that the plain fields of the struct have. -/
def SameTags (d : StructDesc) (vals all : Dict) : Prop :=
  ∀ r x, Solid d.components d.components r → structGetItem d vals r = .ok x → Dict.get? all r = some x

/-- Whether the field is there depends on the values of these other fields only. -/
def DependsOn (refs : List String) (b : FieldBase) : Prop :=
  ∀ v₁ v₂ ctx₁ ctx₂ s₁ s₂, (∀ r ∈ refs, v₁.get r = v₂.get r) → b.present v₁ ctx₁ s₁ = b.present v₂ ctx₂ s₂

/-- The bytes written for `None` are always `repr`, and the field would otherwise read them as `nv`. -/
def NullReads (b : FieldBase) (k : Leaf) (repr : Bytes) (nv : Value) : Prop :=
  (∀ values, leafNullRepr b k values = .ok repr) ∧ NoStruct b.nullValue ∧
    ∀ pre rest ctx loaded, leafLoad b k (leafExpectedSize b k loaded) ⟨pre ++ repr ++ rest, pre.length⟩ ctx loaded =
      (.ok nv, ⟨pre ++ repr ++ rest, pre.length + repr.length⟩)

/-- A field without children that may be `None`. -/
def Nullable (f : Field) : Prop := ∃ b k repr nv, f = .leaf b k ∧ NullReads b k repr nv

/-- The values that match a field.  `None` matches a nullable field; the value that looks like `None` when it is written does not.
For a field of a struct: if `present` says the field is not there, `NOT_PRESENT` matches as well, and for a struct given as a dictionary nothing
else does.  A struct given as a dictionary has no values for discarded fields.  A value matches a union if it matches every choice that may be taken: `tags all` says which values `all` the other fields of the
struct may have. -/
inductive Fitting (Γ : Classes) : (tags : Dict → Prop) → Field → Value → Prop where
  | null {tags : Dict → Prop} {b : FieldBase} {k : Leaf} {repr : Bytes} {nv : Value} : b.nullValue ≠ .undefined → NullReads b k repr nv →
      Fitting Γ tags (.leaf b k) .none
  | leaf {tags : Dict → Prop} {b : FieldBase} {k : Leaf} {w : Value} : Scalar k w →
      (b.const = .undefined ∨ (NoStruct b.const ∧ scalarEq w b.const = true)) →
      (b.nullValue = .undefined ∨ ∃ repr nv, NullReads b k repr nv ∧ w ≠ nv ∧ scalarEq w b.nullValue = false) →
      Fitting Γ tags (.leaf b k) w
  | array {tags : Dict → Prop} {b : FieldBase} {comp : Field} {count : Count}
      {halt : Option (Stream → List Value → Value → Dict → Except Err (Bool × List Value))}
      {l : List Value} : (∀ w ∈ l, Fitting Γ tags comp w) → Fitting Γ tags (.array b comp count halt) (.list l)
  | dict {tags : Dict → Prop} {b : FieldBase} {cls : String} {d : StructDesc} {vals : Dict} : Γ cls = some d → Instance d vals →
      (∀ f ∈ d.components, Dict.get? vals f.name = some .notPresent → f.base.present (structView d vals) .none none = .ok false) →
      (∀ f ∈ d.components, ∀ w, Dict.get? vals f.name = some w → w ≠ .notPresent →
        f.base.present (structView d vals) .none none ≠ .ok false) →
      (∀ f ∈ d.components, f.base.discard = true → Dict.get? vals f.name = none) →
      (∀ f ∈ d.components, ∀ w, Dict.get? vals f.name = some w → w ≠ .notPresent → Fitting Γ (SameTags d vals) f w) →
      Fitting Γ tags (.nested b cls) (.dict vals)
  | struct {tags : Dict → Prop} {b : FieldBase} {cls : String} {d : StructDesc} {vals : Dict} : Γ cls = some d → Instance d vals →
      (∀ f ∈ d.components, Dict.get? vals f.name = some .notPresent → f.base.present (structView d vals) .none none = .ok false) →
      (∀ f ∈ d.components, ∀ w, Dict.get? vals f.name = some w → w ≠ .notPresent → Fitting Γ (SameTags d vals) f w) →
      Fitting Γ tags (.nested b cls) (.struct cls vals)
  | union {tags : Dict → Prop} {b : FieldBase} {choices : List (Field ⊕ String)} {ld : Stream → Value → Dict → Except Err Nat}
      {dd : Value → Value → Dict → Except Err Nat} {w : Value} : w ≠ .none → w ≠ .dflt → w ≠ .undefined → w ≠ .notPresent →
      (∀ v ctx all i g, tags all → dd v ctx all = .ok i → choices[i]? = some (.inl g) → Fitting Γ tags g w) →
      (∀ v ctx all i cls, tags all → dd v ctx all = .ok i → choices[i]? = some (.inr cls) → Fitting Γ tags (.nested {} cls) w) →
      Fitting Γ tags (.union b choices ld dd) w

/-- The values of an instance match the fields of its class. -/
structure Bears (Γ : Classes) (d : StructDesc) (vals : Dict) : Prop where
  inst : Instance d vals
  absent : ∀ f ∈ d.components, Dict.get? vals f.name = some .notPresent → f.base.present (structView d vals) .none none = .ok false
  fits : ∀ f ∈ d.components, ∀ w, Dict.get? vals f.name = some w → w ≠ .notPresent → Fitting Γ (SameTags d vals) f w

/-- A field of a class with optional fields, after the fields `pre`; `fields` are all the fields of the class. -/
structure OptionalField (Γ : Classes) (fields pre : List Field) (f : Field) : Prop where
  layout : Layout (pre.map Field.name) f
  grounded : Grounded fields pre f
  /-- it is always there, or that depends on earlier plain fields -/
  optional : ∃ refs, (∀ r ∈ refs, Solid fields pre r) ∧ DependsOn refs f.base
  omitted : f.base.notPresentValue = .notPresent
  null : f.base.nullValue = .undefined ∨ Nullable f
  /-- only fields without children are discarded, and only if they are not computed: the value that is dumped is the default, or the constant -/
  kept : f.base.discard = false ∨ ((∃ b k, f = .leaf b k) ∧ f.base.computeFn = none)
  defaults : ∀ v, f.base.dflt ≠ .undefined → f.base.default = .ok v → Fitting Γ (fun _ => True) f v
  computed : ∀ fn view v, f.base.computeFn = some fn → fn view = .ok v → Fitting Γ (fun _ => True) f v

/-- The checks of a class (validators, validator methods, struct validators) look at plain fields only: they accept an instance if they accept one
with the same values for these, and every field has some value or default. -/
def Impartial (d : StructDesc) : Prop :=
  ∀ r r', Instance d r → Instance d r' →
    (∀ q, Solid d.components d.components q → ∃ x, structGetItem d r q = .ok x ∧ structGetItem d r' q = .ok x) →
    (∀ f ∈ d.components, ∃ v, structGetItem d r' f.name = .ok v) → Valid d r → Valid d r'

/-- A class all of whose fields are of this kind, with names of their own, and whose checks look at plain fields only. -/
structure OptionalSchema (Γ : Classes) (d : StructDesc) : Prop where
  unique : UniqueNames d
  checks : Impartial d
  fields : ∀ pre f post, d.components = pre ++ f :: post → OptionalField Γ d.components pre f

end Verif.Spec
