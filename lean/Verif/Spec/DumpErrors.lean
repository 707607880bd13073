import Verif.Spec.Robust
import Verif.Spec.Schema

/-!
# Dumping values of the right type

`OfType` describes the values that have the type a field is for, whatever their size or range; `Dumpable` the fields for which every
reference resolves.
-/

namespace Verif.Spec

/-- The documented outcome of a failed dump: a `SerializationError`, a `ValidationError`, or one of the exceptions `E` that the
conversions and the user's own callables may raise. -/
def Declared (E : Err → Prop) (e : Err) : Prop :=
  e.isSerialization = true ∨ (∃ name, e = .validation name) ∨ E e

/-- Scalars of the type that the field is for. -/
def Kind : Leaf → Value → Prop
  | .integer .., .int _ => True
  | .varint .., .int _ => True
  | .float .., .int _ => True
  | .float .., .float _ => True
  | .timestamp .., .datetime us a => datetimeFirst a ≤ us ∧ us ≤ datetimeMax
  | .bytes, .bytes _ => True
  | .string .., .str _ => True
  | .stringz .., .str _ => True
  | .uuid _, .uuid _ => True
  | _, _ => False

/-- `v` is `w`, or what `to_dict` makes of it: structs turned into dictionaries. -/
def Plainly (Γ : Classes) (w v : Value) : Prop := v = w ∨ ∃ n, recursiveToDicts Γ n w = .ok v

/-- `all` has the values that the plain fields of the struct have. -/
def TagsKept (d : StructDesc) (vals all : Dict) : Prop :=
  ∀ b k v, Field.leaf b k ∈ d.components → Always b → b.computeFn = none → b.discard = false → Kind k v → structGetItem d vals b.name = .ok v →
    Dict.get? all b.name = some v

/-- Values of the right type: scalars for leaves, lists or iterators for arrays, and struct instances or dictionaries for nested
structs.  Every field can be unset or `None`; and it can be marked as not present, unless its value may be used as a size or count.
A value has the type of a union if it has that of one of the choices and of every choice that the decider may take: `tags all` says which values
`all` the other fields of the struct may have.  If `raw`, structs have not been turned into dictionaries by `to_dict` before the value is dumped
(elements of an iterator): `Union` does not accept struct instances there. -/
inductive OfType (Γ : Classes) : (raw : Bool) → (tags : Dict → Prop) → Field → Value → Prop where
  | unset {raw : Bool} {tags : Dict → Prop} {f : Field} : OfType Γ raw tags f .undefined
  | none {raw : Bool} {tags : Dict → Prop} {f : Field} : OfType Γ raw tags f .none
  | absent {raw : Bool} {tags : Dict → Prop} {f : Field} : ¬ Counter f → OfType Γ raw tags f .notPresent
  | leaf {raw : Bool} {tags : Dict → Prop} {b : FieldBase} {k : Leaf} {v : Value} : Kind k v → OfType Γ raw tags (.leaf b k) v
  | list {raw : Bool} {tags : Dict → Prop} {b : FieldBase} {comp : Field} {count : Count} {halt} {l : List Value} :
      (∀ v ∈ l, OfType Γ raw tags comp v) → .notPresent ∉ l → OfType Γ raw tags (.array b comp count halt) (.list l)
  | iter {raw : Bool} {tags : Dict → Prop} {b : FieldBase} {comp : Field} {count : Count} {halt} {l : List Value} :
      (∀ v ∈ l, OfType Γ true tags comp v) → .notPresent ∉ l → OfType Γ raw tags (.array b comp count halt) (.iter l)
  | dict {raw : Bool} {tags : Dict → Prop} {b : FieldBase} {cls : String} {d : StructDesc} {vals : Dict} : Γ cls = some d → Instance d vals →
      (∀ f ∈ d.components, ∀ v, Dict.get? vals f.name = some v → OfType Γ false (TagsKept d vals) f v) →
      OfType Γ raw tags (.nested b cls) (.dict vals)
  | struct {raw : Bool} {tags : Dict → Prop} {b : FieldBase} {cls : String} {d : StructDesc} {vals : Dict} : Γ cls = some d → Instance d vals →
      (∀ f ∈ d.components, ∀ v, Dict.get? vals f.name = some v → OfType Γ false (TagsKept d vals) f v) →
      OfType Γ raw tags (.nested b cls) (.struct cls vals)
  | unionField {raw : Bool} {tags : Dict → Prop} {b : FieldBase} {choices : List (Field ⊕ String)} {ld : Stream → Value → Dict → Except Err Nat}
      {dd : Value → Value → Dict → Except Err Nat} {w : Value} {g : Field} : .inl g ∈ choices → OfType Γ raw tags g w →
      (∀ v ctx all i g, Plainly Γ w v → tags all → dd v ctx all = .ok i → choices[i]? = some (.inl g) → OfType Γ raw tags g w) →
      (∀ v ctx all i cls, Plainly Γ w v → tags all → dd v ctx all = .ok i → choices[i]? = some (.inr cls) →
        OfType Γ raw tags (.nested {} cls) w) →
      (raw = true → ∀ c vals, w ≠ .struct c vals) →
      OfType Γ raw tags (.union b choices ld dd) w
  | unionStruct {raw : Bool} {tags : Dict → Prop} {b : FieldBase} {choices : List (Field ⊕ String)} {ld : Stream → Value → Dict → Except Err Nat}
      {dd : Value → Value → Dict → Except Err Nat} {w : Value} {cls : String} : .inr cls ∈ choices → OfType Γ raw tags (.nested {} cls) w →
      (∀ v ctx all i g, Plainly Γ w v → tags all → dd v ctx all = .ok i → choices[i]? = some (.inl g) → OfType Γ raw tags g w) →
      (∀ v ctx all i cls, Plainly Γ w v → tags all → dd v ctx all = .ok i → choices[i]? = some (.inr cls) →
        OfType Γ raw tags (.nested {} cls) w) →
      (raw = true → ∀ c vals, w ≠ .struct c vals) →
      OfType Γ raw tags (.union b choices ld dd) w

/-- What looking up a field can raise: `KeyError`, `RecursionError` (a chain of computed fields that does not end), or what is
documented. -/
def Lookups (E : Err → Prop) (w : View) : Prop :=
  ∀ k e, w.get k = .error e → Declared E e ∨ (∃ name, e = .keyErr name) ∨ e = .recursionErr

/-- What the user's callables raise is documented.  (A callable that lets the `KeyError` of a lookup through needs `E` to contain
it.) -/
structure Mild (E : Err → Prop) (b : FieldBase) : Prop where
  present : ∀ w ctx e, Lookups E w → b.present w ctx none = .error e → Declared E e
  validators : ∀ c ∈ b.validators, ∀ v e, c v = .error e → Declared E e
  default : ∀ e, b.default = .error e → Declared E e
  compute : ∀ fn w e, b.computeFn = some fn → Lookups E w → fn w = .error e → Declared E e

/-- `r` is the name of an integer field among `fs`, which is always there, never `None`, and not discarded. -/
def Referable (fs : List Field) (r : String) : Prop := ∃ f ∈ fs, f.name = r ∧ Counter f ∧ f.base.discard = false

/-- The size is a number or the value of an earlier integer field. -/
def SizeGiven (pre : List Field) (b : FieldBase) : Prop := (∃ n, b.size = .fixed n) ∨ ∃ r, b.size = .ref r ∧ Referable pre r

/-- The size is not wrong: if it is another field, that field is an earlier integer field. -/
def SizeResolves (pre : List Field) (b : FieldBase) : Prop := ∀ r, b.size = .ref r → Referable pre r

/-- Callables as above, and `None` is not allowed or has bytes that are known. -/
structure Settled (E : Err → Prop) (pre : List Field) (b : FieldBase) : Prop extends Mild E b where
  null : b.nullValue = .undefined ∨ (∃ bs, b.nullValue = .bytes bs) ∨ (b.nullValue = .dflt ∧ SizeGiven pre b)
  size : SizeResolves pre b

/-- The size is given, or the field is a component of the struct (`own`) and is as long as its value. -/
def Measured (pre : List Field) (own : Bool) (b : FieldBase) : Prop :=
  SizeGiven pre b ∨ (own = true ∧ b.size = .none ∧ b.discard = false)

/-- Fields all of whose references resolve, where the conversion of a value to bytes raises nothing but `E` and `SerializationError`s.
`pre` are the fields that come before, `own` says that the field is a component of the struct (and not of an array). -/
inductive Dumpable (E : Err → Prop) (pre : List Field) : Bool → Field → Prop where
  | integer {own : Bool} {b : FieldBase} {sg : Bool} {en : Endian} {n : Int} : Settled E pre b → b.size = .fixed n →
      Dumpable E pre own (.leaf b (.integer sg en))
  | varint {own : Bool} {b : FieldBase} {enc : VarIntEncoding} {m : Option Int} : Settled E pre b →
      Dumpable E pre own (.leaf b (.varint enc m))
  | float {own : Bool} {b : FieldBase} {fmt : FloatFmt} {en : Endian} : Settled E pre b → (fmt = binary64 ∨ E .overflowErr) →
      Dumpable E pre own (.leaf b (.float fmt en))
  | timestamp {own : Bool} {b : FieldBase} {res : Resolution} {aware sg : Bool} {en : Endian} : Settled E pre b → SizeGiven pre b →
      Dumpable E pre own (.leaf b (.timestamp res aware sg en))
  | bytes {own : Bool} {b : FieldBase} : Settled E pre b → Measured pre own b → Dumpable E pre own (.leaf b .bytes)
  | string {own : Bool} {b : FieldBase} {c : CharCodec} {p : Option UInt8} : Settled E pre b → Measured pre own b →
      (∀ t e, c.encode t = .error e → E e) → Dumpable E pre own (.leaf b (.string c p))
  | stringz {own : Bool} {b : FieldBase} {c : CharCodec} {p : Option UInt8} : Settled E pre b →
      (∀ t e, c.encode t = .error e → E e) → Dumpable E pre own (.leaf b (.stringz c p))
  | uuid {own : Bool} {b : FieldBase} {fmt : UUIDFormat} : Settled E pre b → Dumpable E pre own (.leaf b (.uuid fmt))
  | array {own : Bool} {b : FieldBase} {comp : Field} {count : Count} {halt} : Settled E pre b →
      (∀ r, count = .ref r → r ≠ "" ∧ Referable pre r) → Dumpable E pre false comp → Dumpable E pre own (.array b comp count halt)
  | nested {own : Bool} {b : FieldBase} {cls : String} : Settled E pre b → Dumpable E pre own (.nested b cls)
  | union {own : Bool} {b : FieldBase} {choices : List (Field ⊕ String)} {ld : Stream → Value → Dict → Except Err Nat}
      {dd : Value → Value → Dict → Except Err Nat} : Settled E pre b → (∀ v ctx all e, dd v ctx all = .error e → Declared E e) →
      (∀ v ctx all i, dd v ctx all = .ok i → i < choices.length) → (∀ g, .inl g ∈ choices → Dumpable E pre false g) →
      Dumpable E pre own (.union b choices ld dd)

/-- Defaults and computed values have the right type.  (Those of discarded fields are not converted by `to_dict` before they are dumped.) -/
def SuppliesType (Γ : Classes) (f : Field) : Prop :=
  (∀ v, f.base.dflt ≠ .undefined → f.base.default = .ok v → OfType Γ f.base.discard (fun _ => True) f v) ∧
    ∀ fn view v, f.base.computeFn = some fn → fn view = .ok v → OfType Γ f.base.discard (fun _ => True) f v

/-- A class of such fields, whose validators only raise what is documented. -/
structure DumpableClass (Γ : Classes) (E : Err → Prop) (d : StructDesc) : Prop where
  unique : UniqueNames d
  fields : ∀ pre f post, d.components = pre ++ f :: post → Dumpable E pre true f ∧ SuppliesType Γ f
  methods : ∀ p ∈ d.fieldValidators, p.1 ∈ names d ∧ ∀ m ∈ p.2, ∀ w v e, Lookups E w → m w v = .error e → Declared E e
  validators : ∀ m ∈ d.structValidators, ∀ w e, Lookups E w → m w = .error e → Declared E e

end Verif.Spec
