import Verif.Spec.Field
import Verif.Spec.Container
import Verif.Spec.Text
import Verif.Spec.Float
import Verif.Spec.Equality

/-!
# When loading undoes dumping

Which values of which fields survive a dump followed by a load (`Proper`), and what surviving means (`Stands`).  Nothing here
mentions how fields are dumped or loaded, except where a user's own code has to keep a promise about it.
-/

namespace Verif.Spec

/-- `got`, which was loaded, stands for `sent`, which was dumped: they are the same, or lists with corresponding elements, or a
struct loaded for a dictionary.  The struct has all the values of the dictionary, and may have more (dumping fills in defaults,
constants and computed values the dictionary does not have). -/
inductive Stands : (got sent : Value) → Prop where
  | same (v : Value) : Stands v v
  | list {a b : List Value} : a.length = b.length →
      (∀ (i : Nat) (x y : Value), a[i]? = some x → b[i]? = some y → Stands x y) → Stands (.list a) (.list b)
  | struct {cls : String} {vals dct : Dict} :
      (∀ k, Dict.get? dct k ≠ none → Dict.get? vals k ≠ none) →
      (∀ (k : String) (x y : Value), Dict.get? vals k = some x → Dict.get? dct k = some y → Stands x y) →
      Stands (.struct cls vals) (.dict dct)

/-- What has been loaded so far is right: there is a value for each of the `earlier` fields and for nothing else, and it stands
for what was dumped. -/
def Consistent (earlier : List String) (all loaded : Dict) : Prop :=
  (∀ k, Dict.get? loaded k ≠ none ↔ k ∈ earlier) ∧
    ∀ k v w, Dict.get? loaded k = some v → Dict.get? all k = some w → Stands v w

/-- A size that is a number, or the value of a field that comes earlier. -/
def SizeKnown (earlier : List String) (b : FieldBase) : Prop :=
  (∃ k, b.size = .fixed k) ∨ ∃ r ∈ earlier, b.size = .ref r

/-- The values a leaf field can represent without loss.  `all` are the values being dumped. -/
inductive Lossless (ctx : Value) (earlier : List String) (all : Dict) (b : FieldBase) : Leaf → Value → Prop where
  | integer {sg : Bool} {en : Endian} {n : Nat} (i : Int) : b.size = .fixed n → 0 < n → Lossless ctx earlier all b (.integer sg en) (.int i)
  | varint {enc : VarIntEncoding} {m : Option Int} (i : Int) : b.size = .none → Lossless ctx earlier all b (.varint enc m) (.int i)
  | bytes (x : Bytes) : SizeKnown earlier b → Lossless ctx earlier all b .bytes (.bytes x)
  /-- a string that is not padded -/
  | string {c : CharCodec} {p : Option UInt8} (t : List Nat) : Supported c → SizeKnown earlier b →
      (p = none ∨ ∀ code k, c.encode t = .ok code → DeclaredSize (.leaf b (.string c p)) all k → (code.length : Int) = k) →
      Lossless ctx earlier all b (.string c p) (.str t)
  /-- a null-terminated string without a NUL in it, of no declared size -/
  | stringz {c : CharCodec} {p : Option UInt8} (t : List Nat) : Supported c → 0 ∉ t → b.size = .none → b.default = .ok .undefined →
      b.name ∉ earlier → Lossless ctx earlier all b (.stringz c p) (.str t)
  /-- the same, with a declared size that it fills -/
  | stringzSized {c : CharCodec} {p : Option UInt8} (t : List Nat) : Supported c → 0 ∉ t → SizeKnown earlier b →
      (p = none ∨ ∀ code k, c.encode (t ++ [0]) = .ok code → DeclaredSize (.leaf b (.stringz c p)) all k → (code.length : Int) = k) →
      Lossless ctx earlier all b (.stringz c p) (.str t)
  | uuid {fmt : UUIDFormat} (u : Nat) : u < 2 ^ 128 → Lossless ctx earlier all b (.uuid fmt) (.uuid u)
  /-- a number the field's format has, or an infinity -/
  | float {f : FloatFmt} {e : Endian} (x : Nat) : Standard f → b.size = .fixed f.bytes → x < 2 ^ 64 →
      (∃ c, c < 2 ^ (8 * f.bytes) ∧ (SameNumber binary64 x f c ∨ SameInfinity binary64 x f c)) →
      Lossless ctx earlier all b (.float f e) (.float x)
  /-- whole seconds -/
  | timestamp {res : Resolution} {aware sg : Bool} {e : Endian} {n : Nat} (k : Int) : b.size = .fixed n → 0 < n →
      datetimeFirst aware ≤ k * 1000000 → k * 1000000 ≤ datetimeMax → (res = .ns → k.natAbs < 2 ^ 32) →
      Lossless ctx earlier all b (.timestamp res aware sg e) (.datetime (k * 1000000) aware)
  /-- a user-defined field type whose `_do_load` undoes its `_do_dump` -/
  | custom {ops : CustomOps} {w : Value} : w ≠ .none → w ≠ .dflt → (∀ l, w ≠ .list l) → (∀ d, w ≠ .dict d) → NoStruct w →
      ops.pad = none →
      (∀ bs, ops.dump w ctx all = (bs, .ok ()) → ∀ loaded pre rest, Consistent earlier all loaded →
        ops.load ⟨pre ++ bs ++ rest, pre.length⟩ ctx loaded = (.ok w, ⟨pre ++ bs ++ rest, pre.length + bs.length⟩)) →
      Lossless ctx earlier all b (.custom ops) w

/-- `present` says yes when the field is loaded. -/
def LoadsPresent (ctx : Value) (earlier : List String) (all : Dict) (b : FieldBase) : Prop :=
  ∀ loaded s, Consistent earlier all loaded → b.present loaded.view ctx (some s) = .ok true

/-- A dumped value that cannot be mistaken for `None`: the field takes no `None`, or the value is not equal to the null value and
its bytes, whatever comes after them, do not begin with the bytes of `None`. -/
def NotNull (Γ : Classes) (ctx : Value) (earlier : List String) (all : Dict) (b : FieldBase) (k : Leaf) (w : Value) : Prop :=
  b.nullValue = .undefined ∨
    ((NoStruct b.nullValue ∧ scalarEq w b.nullValue = false) ∧ ∀ loaded, Consistent earlier all loaded →
      ∃ repr, leafNullRepr b k loaded = .ok repr ∧
        ∀ n bs rest, fieldToStream Γ n (.leaf b k) w ctx all = (bs, .ok ()) → ¬ repr <+: bs ++ rest)

/-- A container field without a null value or a constant, whose validators take what is loaded for `w`. -/
def Open (b : FieldBase) (w : Value) : Prop :=
  b.nullValue = .undefined ∧ b.const = .undefined ∧ ∀ v, Stands v w → ∀ c ∈ b.validators, c v = .ok ()

/-- A field that is skipped when dumping is skipped when loading as well, and what is recorded for it stands for what `to_dict`
gave (if anything: discarded fields are not in there). -/
def Omitted (ctx : Value) (earlier : List String) (all : Dict) (f : Field) : Prop :=
  (∀ loaded s, Consistent earlier all loaded → f.base.present loaded.view ctx (some s) = .ok false) ∧
    ∀ w, Dict.get? all f.name = some w → Stands f.base.notPresentValue w

/-- The checks of the class accept any instance in which everything loaded stands for what was dumped. -/
def AcceptsLoaded (d : StructDesc) (all : Dict) : Prop :=
  ∀ r, Dict.keys r = names d → (∀ k v w, Dict.get? r k = some v → Dict.get? all k = some w → Stands v w) → Valid d r

/-- Values given to a nested struct as a dictionary reach its `to_dict` unchanged: they are values (not struct instances) of fields
that are not discarded, and `present` does not hide them. -/
def Passed (d : StructDesc) (dct : Dict) : Prop :=
  (Dict.keys dct).Nodup ∧ (∀ k ∈ Dict.keys dct, k ∈ names d) ∧ (∀ p ∈ dct, NoStruct p.2) ∧
    ∀ f ∈ d.components, ∀ w, Dict.get? dct f.name = some w → w ≠ .undefined ∧ f.base.discard = false ∧
      (w = .notPresent ∨ f.base.present (structView d dct) .none none = .ok true)

/-- `f` can represent `w` without loss, when dumped with `all` as the other fields and loaded after the `earlier` fields. -/
inductive Proper (Γ : Classes) (ctx : Value) : (earlier : List String) → (all : Dict) → Field → Value → Prop where
  /-- `None`, if its bytes can be found again knowing only the earlier fields -/
  | null {earlier : List String} {all : Dict} {f : Field} : f.base.nullValue ≠ .undefined → LoadsPresent ctx earlier all f.base →
      (∀ n loaded, Consistent earlier all loaded → fieldNullRepr Γ n f loaded = fieldNullRepr Γ n f all) →
      Proper Γ ctx earlier all f .none
  | leaf {earlier : List String} {all : Dict} {b : FieldBase} {k : Leaf} {w : Value} : LoadsPresent ctx earlier all b →
      Lossless ctx earlier all b k w → NotNull Γ ctx earlier all b k w →
      (b.const = .undefined ∨ (NoStruct b.const ∧ scalarEq w b.const = true)) → Proper Γ ctx earlier all (.leaf b k) w
  /-- a list whose length is given by a number or an earlier field -/
  | array {earlier : List String} {all : Dict} {b : FieldBase} {comp : Field} {count : Count} {l : List Value} :
      LoadsPresent ctx earlier all b → Open b (.list l) →
      ((∃ k, count = .fixed k) ∨ ∃ r ∈ earlier, count = .ref r ∧ Dict.get? all r ≠ some .none) →
      (∀ w ∈ l, w ≠ .notPresent) → (∀ w ∈ l, Proper Γ ctx earlier all comp w) →
      Proper Γ ctx earlier all (.array b comp count none) (.list l)
  /-- a nested struct, given as a dictionary; `inner` is what its own `to_dict` makes of it -/
  | nested {earlier : List String} {all : Dict} {b : FieldBase} {cls : String} {d : StructDesc} {dct : Dict} :
      LoadsPresent ctx earlier all b → Open b (.dict dct) → Γ cls = some d → UniqueNames d → Passed d dct →
      (∀ n inner, structToDict Γ n d dct = .ok inner → AcceptsLoaded d inner) →
      (∀ n inner, structToDict Γ n d dct = .ok inner → ∀ pre f post, d.components = pre ++ f :: post →
        Skipped f inner ctx → Omitted ctx (pre.map Field.name) inner f) →
      (∀ n inner, structToDict Γ n d dct = .ok inner → ∀ pre f post w, d.components = pre ++ f :: post →
        Dumped f inner ctx w → Proper Γ ctx (pre.map Field.name) inner f w) →
      Proper Γ ctx earlier all (.nested b cls) (.dict dct)
  /-- a union whose load decider finds the choice the dump decider took -/
  | unionField {earlier : List String} {all : Dict} {b : FieldBase} {choices : List (Field ⊕ String)}
      {ld : Stream → Value → Dict → Except Err Nat} {dd : Value → Value → Dict → Except Err Nat} {i : Nat} {g : Field} {w : Value} :
      LoadsPresent ctx earlier all b → Open b w → w ≠ .none → w ≠ .dflt → dd w ctx all = .ok i → choices[i]? = some (.inl g) →
      (∀ n bs loaded pre rest, Consistent earlier all loaded → fieldToStream Γ n g w ctx all = (bs, .ok ()) →
        ld ⟨pre ++ bs ++ rest, pre.length⟩ ctx loaded = .ok i) →
      Proper Γ ctx earlier all g w → Proper Γ ctx earlier all (.union b choices ld dd) w
  /-- the same, for a choice that is a struct class -/
  | unionStruct {earlier : List String} {all : Dict} {b : FieldBase} {choices : List (Field ⊕ String)}
      {ld : Stream → Value → Dict → Except Err Nat} {dd : Value → Value → Dict → Except Err Nat} {i : Nat} {cls : String} {w : Value} :
      LoadsPresent ctx earlier all b → Open b w → w ≠ .none → w ≠ .dflt → dd w ctx all = .ok i → choices[i]? = some (.inr cls) →
      (∀ n bs loaded pre rest, Consistent earlier all loaded → fieldToStream Γ n (.nested {} cls) w ctx all = (bs, .ok ()) →
        ld ⟨pre ++ bs ++ rest, pre.length⟩ ctx loaded = .ok i) →
      Proper Γ ctx earlier all (.nested {} cls) w → Proper Γ ctx earlier all (.union b choices ld dd) w

/-- A struct of this class with these values (`all` is its `to_dict`) can be dumped without loss. -/
structure ProperStruct (Γ : Classes) (ctx : Value) (d : StructDesc) (all : Dict) : Prop where
  accepts : AcceptsLoaded d all
  omitted : ∀ pre f post, d.components = pre ++ f :: post → Skipped f all ctx → Omitted ctx (pre.map Field.name) all f
  proper : ∀ pre f post w, d.components = pre ++ f :: post → Dumped f all ctx w → Proper Γ ctx (pre.map Field.name) all f w

end Verif.Spec
