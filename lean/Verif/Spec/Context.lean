import Verif.Spec.Struct

/-!
# Programs that see another context

The `context` argument of a dump or a load is meant for the user's own callables: `present` functions, deciders, halt checks and
user-defined field classes.  "The library hands the caller's context to all of them" is stated by comparing two programs: one that is
given the context `φ c`, and one that is given `c` and whose callables each apply `φ` to the context they receive.
-/

namespace Verif
open Spec

/-- The attributes of the same field, with `φ` applied to the context of `present`. -/
def FieldBase.recontext (φ : Value → Value) (b : FieldBase) : FieldBase :=
  { b with present := fun V ctx s => b.present V (φ ctx) s }

/-- The same field type, with `φ` applied to the context a user-defined class receives. -/
def Leaf.recontext (φ : Value → Value) : Leaf → Leaf
  | .custom ops => .custom { ops with
      dump := fun v ctx all => ops.dump v (φ ctx) all
      load := fun s ctx loaded => ops.load s (φ ctx) loaded }
  | k => k

mutual
/-- The same field, with `φ` applied to the context of every callable. -/
def Field.recontext (φ : Value → Value) : Field → Field
  | .leaf b k => .leaf (b.recontext φ) (k.recontext φ)
  | .array b comp count halt =>
    .array (b.recontext φ) (comp.recontext φ) count (halt.map fun h s vs ctx loaded => h s vs (φ ctx) loaded)
  | .nested b cls => .nested (b.recontext φ) cls
  | .union b choices ld dd =>
    .union (b.recontext φ) (recontextChoices φ choices) (fun s ctx loaded => ld s (φ ctx) loaded)
      (fun v ctx all => dd v (φ ctx) all)
/-- The same choices of a union. -/
def recontextChoices (φ : Value → Value) : List (Field ⊕ String) → List (Field ⊕ String)
  | [] => []
  | c :: cs => recontextChoice φ c :: recontextChoices φ cs
/-- The same choice. -/
def recontextChoice (φ : Value → Value) : Field ⊕ String → Field ⊕ String
  | .inl g => .inl (g.recontext φ)
  | .inr cls => .inr cls
end

/-- The same struct class. -/
def StructDesc.recontext (φ : Value → Value) (d : StructDesc) : StructDesc :=
  { d with components := d.components.map (·.recontext φ) }

/-- The same classes. -/
def Classes.recontext (φ : Value → Value) (Γ : Classes) : Classes := fun cls => (Γ cls).map (·.recontext φ)

namespace Spec

/-- No Python value has to be serialized to recognise null: there is no null value, or it is bytes, or `DEFAULT`. -/
def BytesNull (b : FieldBase) : Prop :=
  b.nullValue = .undefined ∨ b.nullValue = .dflt ∨ b.nullValue = .none ∨ ∃ bs, b.nullValue = .bytes bs

/-- The field does not tell the context `None` from the context `φ None` where the library passes `None` of its own accord: when
`present` is asked without a stream (by `struct[name]`, `to_dict` and `validate_contents`), and when the null value is serialized. -/
inductive Quiet (φ : Value → Value) : Field → Prop where
  | leaf {b : FieldBase} {k : Leaf} : (∀ V, b.present V (φ .none) none = b.present V .none none) →
      (φ .none = .none ∨ BytesNull b ∨ ∀ ops, k ≠ .custom ops) → Quiet φ (.leaf b k)
  | array {b : FieldBase} {comp : Field} {count : Count} {halt} :
      (∀ V, b.present V (φ .none) none = b.present V .none none) → (φ .none = .none ∨ BytesNull b) → Quiet φ comp →
      Quiet φ (.array b comp count halt)
  | nested {b : FieldBase} {cls : String} :
      (∀ V, b.present V (φ .none) none = b.present V .none none) → (φ .none = .none ∨ BytesNull b) → Quiet φ (.nested b cls)
  | union {b : FieldBase} {choices : List (Field ⊕ String)} {ld} {dd} :
      (∀ V, b.present V (φ .none) none = b.present V .none none) → (φ .none = .none ∨ BytesNull b) →
      (∀ g, .inl g ∈ choices → Quiet φ g) → Quiet φ (.union b choices ld dd)

/-- All fields of all classes of the program are quiet. -/
def QuietClasses (φ : Value → Value) (Γ : Classes) : Prop :=
  ∀ cls d, Γ cls = some d → ∀ f ∈ d.components, Quiet φ f

/-- Neither a struct nor something that may contain one. -/
def Unnested (v : Value) : Prop := (∀ cls vals, v ≠ .struct cls vals) ∧ (∀ l, v ≠ .list l) ∧ (∀ d, v ≠ .dict d)

/-- No struct is compared with `const` or the null value when the field is loaded.  (Comparing a struct asks for its length, which may
serialize it, with the context `None`.) -/
inductive Uncompared (φ : Value → Value) : Field → Prop where
  | leaf {b : FieldBase} {k : Leaf} :
      (φ .none = .none ∨ (b.const = .undefined ∧ b.nullValue = .undefined) ∨
        ((∀ ops, k ≠ .custom ops) ∧ Unnested b.const ∧ Unnested b.nullValue)) → Uncompared φ (.leaf b k)
  | array {b : FieldBase} {comp : Field} {count : Count} {halt} :
      (φ .none = .none ∨ (b.const = .undefined ∧ b.nullValue = .undefined)) → Uncompared φ comp →
      Uncompared φ (.array b comp count halt)
  | nested {b : FieldBase} {cls : String} :
      (φ .none = .none ∨ (b.const = .undefined ∧ b.nullValue = .undefined)) → Uncompared φ (.nested b cls)
  | union {b : FieldBase} {choices : List (Field ⊕ String)} {ld} {dd} :
      (φ .none = .none ∨ (b.const = .undefined ∧ b.nullValue = .undefined)) →
      (∀ g, .inl g ∈ choices → Uncompared φ g) → Uncompared φ (.union b choices ld dd)

/-- All fields of all classes of the program are. -/
def UncomparedClasses (φ : Value → Value) (Γ : Classes) : Prop :=
  ∀ cls d, Γ cls = some d → ∀ f ∈ d.components, Uncompared φ f

end Spec

end Verif
