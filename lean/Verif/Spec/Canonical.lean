import Verif.Spec.Optional

/-!
# Layouts in which every value has one encoding

`Canonical` describes fields all of whose encodings are the ones that dumping produces.
-/

namespace Verif.Spec

/-- `r` is one of these fields: an unsigned integer that is always there, never `None` and not discarded, which can be used as a size or
count. -/
def Tally (pre : List Field) (r : String) : Prop :=
  ∃ b en, Field.leaf b (.integer false en) ∈ pre ∧ b.name = r ∧ Always b ∧ b.discard = false

/-- A size that is not negative: a number, or the value of an unsigned integer field that comes earlier. -/
def NatSize (pre : List Field) (b : FieldBase) : Prop :=
  (∃ k : Nat, b.size = .fixed k) ∨ ∃ r, Tally pre r ∧ b.size = .ref r

/-- When it is there and not `None`, the field takes up this many bytes, always. -/
inductive Extent (Γ : Classes) : Field → Nat → Prop where
  | leaf {b : FieldBase} {k : Leaf} {n : Nat} : b.size = .fixed n → Extent Γ (.leaf b k) n
  | array {b : FieldBase} {comp : Field} {count n : Nat} : comp.base.nullValue = .undefined → Extent Γ comp n →
      Extent Γ (.array b comp (.fixed count) none) (count * n)
  | nested {b : FieldBase} {cls : String} {d : StructDesc} {ns : List Nat} : Γ cls = some d → (∀ f ∈ d.components, Always f.base) →
      ns.length = d.components.length →
      (∀ (i : Nat) (f : Field) (n : Nat), d.components[i]? = some f → ns[i]? = some n → Extent Γ f n) → Extent Γ (.nested b cls) ns.sum

/-- The declared size of a container is none, or what it takes up.  (Which is what the library declares by itself.) -/
def SizeRight (Γ : Classes) (f : Field) : Prop := f.base.size = .none ∨ ∃ n : Nat, f.base.size = .fixed n ∧ Extent Γ f n

/-- `None` is always written as the same bytes, and so is every value that can be loaded and is equal to the null value. -/
def OneNull (b : FieldBase) (k : Leaf) : Prop :=
  NoStruct b.nullValue ∧ ∃ repr, (∀ values, leafNullRepr b k values = .ok repr) ∧
    ∀ w s ctx loaded t ctx' values bs, leafLoad b k (leafExpectedSize b k loaded) s ctx loaded = (.ok w, t) → scalarEq w b.nullValue = true →
      leafDump b k (leafExpectedSize b k values) w ctx' values = (bs, .ok ()) → bs = repr

/-- The field is never `None`, or has no children and one encoding of `None`. -/
def NullSafe (f : Field) : Prop := f.base.nullValue = .undefined ∨ ∃ b k, f = .leaf b k ∧ OneNull b k

/-- The validators of a field accept a dictionary in the place of a struct. -/
def Fair (b : FieldBase) : Prop :=
  ∀ v w, Stands v w → (∀ c ∈ b.validators, c v = .ok ()) → ∀ c ∈ b.validators, c w = .ok ()

/-- Fields whose values have one encoding each.  `pre` are the fields before it. -/
inductive Canonical (Γ : Classes) (pre : List Field) : Field → Prop where
  | integer {b : FieldBase} {sg : Bool} {en : Endian} {n : Nat} : b.size = .fixed n → 0 < n → Canonical Γ pre (.leaf b (.integer sg en))
  | bytes {b : FieldBase} : NatSize pre b → Canonical Γ pre (.leaf b .bytes)
  | string {b : FieldBase} {c : CharCodec} {p : Option UInt8} : Supported c → NatSize pre b → Canonical Γ pre (.leaf b (.string c p))
  | stringz {b : FieldBase} {c : CharCodec} {p : Option UInt8} : Supported c → b.size = .none → Canonical Γ pre (.leaf b (.stringz c p))
  | uuid {b : FieldBase} {fmt : UUIDFormat} : b.size = .fixed 16 → (fmt = .binaryVariant1 ∨ fmt = .binaryVariant2) →
      Canonical Γ pre (.leaf b (.uuid fmt))
  /-- every bit pattern of a double is a value of its own, NaNs included -/
  | double {b : FieldBase} {en : Endian} : b.size = .fixed 8 → Canonical Γ pre (.leaf b (.float binary64 en))
  /-- whole seconds -/
  | timestamp {b : FieldBase} {aware sg : Bool} {en : Endian} {n : Nat} : b.size = .fixed n → 0 < n →
      Canonical Γ pre (.leaf b (.timestamp .s aware sg en))
  | array {b : FieldBase} {comp : Field} {count : Count} : Fair b → SizeRight Γ (.array b comp count none) →
      ((∃ k : Nat, count = .fixed k) ∨ ∃ r, Tally pre r ∧ r ≠ "" ∧ count = .ref r) →
      (∀ v ctx s, comp.base.present v ctx s = .ok true) → NullSafe comp → Canonical Γ pre comp →
      Canonical Γ pre (.array b comp count none)
  | nested {b : FieldBase} {cls : String} : Fair b → SizeRight Γ (.nested b cls) → Canonical Γ pre (.nested b cls)
  /-- a union whose choice is determined by fields without children before it; its choices have no checks of their own, as loading skips these -/
  | union {b : FieldBase} {choices : List (Field ⊕ String)} {ld : Stream → Value → Dict → Except Err Nat}
      {dd : Value → Value → Dict → Except Err Nat} {refs : List String} : Fair b → b.size = .none →
      (∀ r ∈ refs, ∃ b k, Field.leaf b k ∈ pre ∧ b.name = r ∧ b.discard = false) → DecidedBy refs ld dd →
      (∀ g, .inl g ∈ choices → Always g.base ∧ g.base.validators = []) → (∀ g, .inl g ∈ choices → Canonical Γ pre g) →
      Canonical Γ pre (.union b choices ld dd)

/-- A constant, such as a magic number: a field without children that has one possible value, which is also its default. -/
def Magic (f : Field) : Prop :=
  ∃ b k c, f = .leaf b k ∧ b.const = c ∧ b.dflt = c ∧ b.factory = none ∧ b.nullValue = .undefined ∧
    ((∃ x, c = .bytes x) ∨ (∃ x, c = .str x) ∨ ∃ n sg en, c = .int n ∧ k = .integer sg en)

/-- A field of this kind in a class, after these other fields. -/
structure CanonicalField (Γ : Classes) (pre : List Field) (f : Field) : Prop where
  kind : Canonical Γ pre f
  /-- if it is discarded, which is to say forgotten once it was loaded, it is a constant -/
  kept : f.base.discard = false ∨ Magic f
  null : NullSafe f
  /-- it is always there, or that depends on earlier fields without children that are not discarded -/
  optional : ∃ refs, (∀ r ∈ refs, ∃ b k, Field.leaf b k ∈ pre ∧ b.name = r ∧ b.discard = false) ∧ DependsOn refs f.base
  omitted : f.base.notPresentValue = .notPresent

/-- A class all of whose fields are of this kind, with names of their own, and whose checks accept a dictionary in the place of a struct and do
not depend on discarded fields. -/
structure CanonicalClass (Γ : Classes) (d : StructDesc) : Prop where
  unique : UniqueNames d
  checks : ∀ r r', Instance d r → Instance d r' →
    (∀ f ∈ d.components, f.base.discard = false → ∃ v w, Dict.get? r f.name = some v ∧ Dict.get? r' f.name = some w ∧ Stands v w) →
    (∀ f ∈ d.components, ∃ v, structGetItem d r' f.name = .ok v) → Valid d r → Valid d r'
  fields : ∀ pre f post, d.components = pre ++ f :: post → CanonicalField Γ pre f

/-- The load that ended at `t` consumed exactly `bs`. -/
def Consumed (s t : Stream) (bs : Bytes) : Prop :=
  s.rest = bs ++ t.rest ∧ t.data = s.data ∧ t.pos = s.pos + bs.length

end Verif.Spec
