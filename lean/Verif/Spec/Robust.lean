import Verif.Spec.Schema
import Verif.Spec.Locality

/-!
# Loading bytes that were not written by the library

`Robust` describes fields for which every reference resolves: sizes and counts are numbers or integer fields that come earlier, and
nested classes exist.  `Guarded` describes classes that may refer to themselves, but only after having read something.
-/

namespace Verif.Spec

/-- The documented outcome of a failed load: a `DeserializationError`, a `ValidationError`, or one of the exceptions `E` that the
conversions and the user's own callables may raise. -/
def Documented (E : Err → Prop) (e : Err) : Prop :=
  e.isDeserialization = true ∨ (∃ name, e = .validation name) ∨ E e

/-- An integer field that is always present and never `None`: its value can be used as a size or a count. -/
def Counter (f : Field) : Prop :=
  ∃ b k, f = .leaf b k ∧ ((∃ sg en, k = .integer sg en) ∨ ∃ enc m, k = .varint enc m) ∧ Always b

/-- `r` is the name of such a field among `fs`. -/
def Countable (fs : List Field) (r : String) : Prop := ∃ f ∈ fs, f.name = r ∧ Counter f

/-- The size is a number or the value of an earlier integer field. -/
def Sized (pre : List Field) (b : FieldBase) : Prop := (∃ n, b.size = .fixed n) ∨ ∃ r, b.size = .ref r ∧ Countable pre r

/-- What the user's callables raise is documented. -/
structure Calm (E : Err → Prop) (b : FieldBase) : Prop where
  present : ∀ w ctx s e, b.present w ctx s = .error e → Documented E e
  validators : ∀ c ∈ b.validators, ∀ v e, c v = .error e → Documented E e

/-- The constant is not a struct.  `None` is not allowed, or has bytes that are known before the value is. -/
structure Steady (E : Err → Prop) (pre : List Field) (b : FieldBase) : Prop extends Calm E b where
  const : ∀ c vals, b.const ≠ .struct c vals
  null : b.nullValue = .undefined ∨ (∃ bs, b.nullValue = .bytes bs) ∨ (b.nullValue = .dflt ∧ Sized pre b)

/-- Fields all of whose references resolve, where the conversion of bytes to a value raises nothing but `E`.  `pre` are the fields
that come before. -/
inductive Robust (Γ : Classes) (E : Err → Prop) (pre : List Field) : Field → Prop where
  | integer {b : FieldBase} {sg : Bool} {en : Endian} {n : Int} : Steady E pre b → b.size = .fixed n →
      Robust Γ E pre (.leaf b (.integer sg en))
  | varint {b : FieldBase} {enc : VarIntEncoding} {m : Option Int} : Steady E pre b → Robust Γ E pre (.leaf b (.varint enc m))
  | float {b : FieldBase} {fmt : FloatFmt} {en : Endian} : Steady E pre b → Sized pre b → Robust Γ E pre (.leaf b (.float fmt en))
  | timestamp {b : FieldBase} {res : Resolution} {aware sg : Bool} {en : Endian} : Steady E pre b → Sized pre b →
      (∀ i e, tsLoad res aware i = .error e → E e) → Robust Γ E pre (.leaf b (.timestamp res aware sg en))
  | bytes {b : FieldBase} : Steady E pre b → Sized pre b → Robust Γ E pre (.leaf b .bytes)
  | string {b : FieldBase} {c : CharCodec} {p : Option UInt8} : Steady E pre b → Sized pre b →
      (∀ bs e, c.decode bs = .error e → E e) → Robust Γ E pre (.leaf b (.string c p))
  | stringz {b : FieldBase} {c : CharCodec} {p : Option UInt8} : Steady E pre b →
      (Sized pre b ∨ (b.size = .none ∧ b.default = .ok .undefined ∧ b.name ∉ pre.map Field.name)) →
      (∀ bs e, c.decode bs = .error e → E e) → Robust Γ E pre (.leaf b (.stringz c p))
  | uuid {b : FieldBase} {fmt : UUIDFormat} : Steady E pre b →
      (∀ raw e, uuidParse fmt raw = .error e → E e) → Robust Γ E pre (.leaf b (.uuid fmt))
  | array {b : FieldBase} {comp : Field} {count : Count} : Calm E b → b.const = .undefined → b.nullValue = .undefined →
      (∀ r, count = .ref r → r ≠ "" ∧ Countable pre r) → Robust Γ E pre comp → Robust Γ E pre (.array b comp count none)
  | nested {b : FieldBase} {cls : String} : Calm E b → b.const = .undefined → b.nullValue = .undefined → (Γ cls).isSome = true →
      Robust Γ E pre (.nested b cls)
  | union {b : FieldBase} {choices : List (Field ⊕ String)} {ld dd} : Calm E b → b.const = .undefined → b.nullValue = .undefined →
      (∀ s ctx loaded e, ld s ctx loaded = .error e → Documented E e) →
      (∀ s ctx loaded i, ld s ctx loaded = .ok i → i < choices.length) →
      (∀ g, .inl g ∈ choices → Robust Γ E pre g) → (∀ cls, .inr cls ∈ choices → (Γ cls).isSome = true) →
      Robust Γ E pre (.union b choices ld dd)

/-- A class of such fields, whose validators only raise what is documented. -/
structure RobustClass (Γ : Classes) (E : Err → Prop) (d : StructDesc) : Prop where
  unique : UniqueNames d
  fields : ∀ pre f post, d.components = pre ++ f :: post → Robust Γ E pre f
  methods : ∀ p ∈ d.fieldValidators, p.1 ∈ names d ∧ ∀ m ∈ p.2, ∀ w v e, m w v = .error e → Documented E e
  validators : ∀ m ∈ d.structValidators, ∀ w e, m w = .error e → Documented E e

/-- A successful load of the field takes at least one byte. -/
def Eats (Γ : Classes) (f : Field) : Prop :=
  ∀ n s ctx loaded v t, s.pos ≤ s.data.length → fieldFromStream Γ n f s ctx loaded = (.ok v, t) → s.pos < t.pos

/-- The struct classes a field refers to. -/
inductive Mentions : Field → String → Prop where
  | nested {b : FieldBase} {c : String} : Mentions (.nested b c) c
  | array {b : FieldBase} {comp : Field} {count : Count} {halt} {c : String} : Mentions comp c →
      Mentions (.array b comp count halt) c
  | field {b : FieldBase} {choices : List (Field ⊕ String)} {ld dd} {g : Field} {c : String} : .inl g ∈ choices → Mentions g c →
      Mentions (.union b choices ld dd) c
  | struct {b : FieldBase} {choices : List (Field ⊕ String)} {ld dd} {c : String} : .inr c ∈ choices →
      Mentions (.union b choices ld dd) c

/-- Arrays with a count have elements that are always there; elements of arrays without one take at least one byte. -/
inductive Bounded (Γ : Classes) : Field → Prop where
  | leaf {b : FieldBase} {k : Leaf} : Bounded Γ (.leaf b k)
  | nested {b : FieldBase} {c : String} : Bounded Γ (.nested b c)
  | counted {b : FieldBase} {comp : Field} {count : Count} : Bounded Γ comp → count ≠ .none →
      (∀ w ctx s, comp.base.present w ctx s = .ok true) → Bounded Γ (.array b comp count none)
  | unsized {b : FieldBase} {comp : Field} : Bounded Γ comp → Eats Γ comp → Bounded Γ (.array b comp .none none)
  | union {b : FieldBase} {choices : List (Field ⊕ String)} {ld dd} : (∀ g, .inl g ∈ choices → Bounded Γ g) →
      Bounded Γ (.union b choices ld dd)

/-- Before a field that refers to a class whose rank is not lower comes a field that takes at least one byte. -/
def Guarded (Γ : Classes) (rank : String → Nat) (k : Nat) (d : StructDesc) : Prop :=
  ∀ pre f post, d.components = pre ++ f :: post →
    Bounded Γ f ∧ ((∃ g ∈ pre, Eats Γ g) ∨ ∀ c, Mentions f c → rank c < k)

end Verif.Spec
