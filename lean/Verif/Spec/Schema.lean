import Verif.Spec.RoundTrip

/-!
# Plain struct classes and the values that go with them

`Schema` describes tables of struct classes built from the library's own field types with sizes and counts that are numbers or
earlier fields, and `Typed` the values that match a field of such a class.  Neither says anything about dumping or loading.
Classes may refer to each other and to themselves.
-/

namespace Verif.Spec

/-- The scalars that match a leaf field: the right type, and within what the format can express (no NUL in a null-terminated
string; a float the format has; whole seconds). -/
def Scalar : Leaf → Value → Prop
  | .integer .., .int _ => True
  | .varint .., .int _ => True
  | .bytes, .bytes _ => True
  | .string .., .str _ => True
  | .stringz .., .str t => 0 ∉ t
  | .uuid _, .uuid u => u < 2 ^ 128
  | .float f _, .float x => x < 2 ^ 64 ∧ ∃ c, c < 2 ^ (8 * f.bytes) ∧ (SameNumber binary64 x f c ∨ SameInfinity binary64 x f c)
  | .timestamp res aware _ _, .datetime us a =>
      a = aware ∧ ∃ k, us = k * 1000000 ∧ datetimeFirst aware ≤ us ∧ us ≤ datetimeMax ∧ (res = .ns → k.natAbs < 2 ^ 32)
  | _, _ => False

/-- The values that match a field: scalars for leaves (equal to the constant, if the field has one), lists for arrays, and struct
instances or dictionaries for nested structs.  (For unions see `Spec/Optional.lean`: which values match depends on other fields.) -/
inductive Typed (Γ : Classes) : Field → Value → Prop where
  | leaf {b : FieldBase} {k : Leaf} {w : Value} : Scalar k w →
      (b.const = .undefined ∨ (NoStruct b.const ∧ scalarEq w b.const = true)) → Typed Γ (.leaf b k) w
  | array {b : FieldBase} {comp : Field} {count : Count} {halt : Option (Stream → List Value → Value → Dict → Except Err (Bool × List Value))}
      {l : List Value} : (∀ w ∈ l, Typed Γ comp w) → Typed Γ (.array b comp count halt) (.list l)
  | dict {b : FieldBase} {cls : String} {d : StructDesc} {vals : Dict} : Γ cls = some d → Instance d vals →
      (∀ f ∈ d.components, ∀ w, Dict.get? vals f.name = some w → Typed Γ f w) → Typed Γ (.nested b cls) (.dict vals)
  | struct {b : FieldBase} {cls : String} {d : StructDesc} {vals : Dict} : Γ cls = some d → Instance d vals →
      (∀ f ∈ d.components, ∀ w, Dict.get? vals f.name = some w → Typed Γ f w) → Typed Γ (.nested b cls) (.struct cls vals)

/-- Always there, never `None`. -/
def Always (b : FieldBase) : Prop :=
  (∀ v ctx s, b.present v ctx s = .ok true) ∧ b.nullValue = .undefined

/-- Both deciders of a union depend on the values of these other fields only, and take the same choice. -/
def DecidedBy (refs : List String) (ld : Stream → Value → Dict → Except Err Nat) (dd : Value → Value → Dict → Except Err Nat) : Prop :=
  ∀ s v ctx ctx' loaded all, (∀ r ∈ refs, Dict.get? loaded r = Dict.get? all r) → ld s ctx loaded = dd v ctx' all

/-- Field types whose values can be found again in the dump, given the fields before them. -/
inductive Layout (earlier : List String) : Field → Prop where
  | integer {b : FieldBase} {sg : Bool} {en : Endian} {n : Nat} : b.size = .fixed n → 0 < n → Layout earlier (.leaf b (.integer sg en))
  | varint {b : FieldBase} {enc : VarIntEncoding} {m : Option Int} : b.size = .none → Layout earlier (.leaf b (.varint enc m))
  | bytes {b : FieldBase} : SizeKnown earlier b → Layout earlier (.leaf b .bytes)
  | string {b : FieldBase} {c : CharCodec} : Supported c → SizeKnown earlier b → Layout earlier (.leaf b (.string c none))
  | stringz {b : FieldBase} {c : CharCodec} {p : Option UInt8} : Supported c → b.size = .none → b.default = .ok .undefined →
      b.name ∉ earlier → Layout earlier (.leaf b (.stringz c p))
  | stringzSized {b : FieldBase} {c : CharCodec} : Supported c → SizeKnown earlier b → Layout earlier (.leaf b (.stringz c none))
  | uuid {b : FieldBase} {fmt : UUIDFormat} : Layout earlier (.leaf b (.uuid fmt))
  | float {b : FieldBase} {f : FloatFmt} {e : Endian} : Standard f → b.size = .fixed f.bytes → Layout earlier (.leaf b (.float f e))
  | timestamp {b : FieldBase} {res : Resolution} {aware sg : Bool} {e : Endian} {n : Nat} : b.size = .fixed n → 0 < n →
      Layout earlier (.leaf b (.timestamp res aware sg e))
  | array {b : FieldBase} {comp : Field} {count : Count} : b.const = .undefined → b.validators = [] →
      ((∃ k, count = .fixed k) ∨ ∃ r ∈ earlier, count = .ref r) → Always comp.base → Layout earlier comp →
      Layout earlier (.array b comp count none)
  | nested {b : FieldBase} {cls : String} : b.const = .undefined → b.validators = [] → Layout earlier (.nested b cls)
  /-- a union whose choice is determined by the fields before it -/
  | union {b : FieldBase} {choices : List (Field ⊕ String)} {ld : Stream → Value → Dict → Except Err Nat}
      {dd : Value → Value → Dict → Except Err Nat} : b.const = .undefined → b.validators = [] → DecidedBy earlier ld dd →
      (∀ g, .inl g ∈ choices → Always g.base) → (∀ g, .inl g ∈ choices → Layout earlier g) → Layout earlier (.union b choices ld dd)

/-- Defaults and computed values match the field. -/
def Sources (Γ : Classes) (f : Field) : Prop :=
  (∀ v, f.base.dflt ≠ .undefined → f.base.default = .ok v → Typed Γ f v) ∧
    ∀ fn view v, f.base.computeFn = some fn → fn view = .ok v → Typed Γ f v

/-- A class all of whose fields are of this kind and are kept after loading, with names of their own, and whose checks accept every
instance with all fields set. -/
structure Schema (Γ : Classes) (d : StructDesc) : Prop where
  unique : UniqueNames d
  checks : ∀ r, Dict.keys r = names d → Valid d r
  fields : ∀ pre f post, d.components = pre ++ f :: post →
    Layout (pre.map Field.name) f ∧ Always f.base ∧ f.base.discard = false ∧ Sources Γ f

end Verif.Spec
