import Verif.Spec.Struct

/-!
# Vocabulary for statements about what a load looks at
-/

namespace Verif.Spec

/-- Two streams are at the same position, and have the same bytes before it. -/
def SameBehind (s t : Stream) : Prop := s.pos = t.pos ∧ s.data.take s.pos = t.data.take t.pos

/-- A callable that does not look at the bytes still to be read. -/
def NoLookahead {α : Type} (g : Stream → α) : Prop := ∀ s t, SameBehind s t → g s = g t

/-- A load leaves the data alone, and moves neither backwards nor past the end, whether it succeeds or not. -/
def Forward {α : Type} (load : Stream → R α) : Prop :=
  ∀ s, s.pos ≤ s.data.length →
    (load s).2.data = s.data ∧ s.pos ≤ (load s).2.pos ∧ (load s).2.pos ≤ s.data.length

/-- If a load succeeds taking the bytes `used`, it succeeds with the same result, taking the same bytes, whatever comes after them.
Unless `atEnd`, this is only demanded if the first load left something unread. -/
def Local {α : Type} (atEnd : Bool) (load : Stream → R α) : Prop :=
  ∀ pre used post a, load ⟨pre ++ used ++ post, pre.length⟩ = (.ok a, ⟨pre ++ used ++ post, pre.length + used.length⟩) →
    post ≠ [] ∨ atEnd = true →
    ∀ post', load ⟨pre ++ used ++ post', pre.length⟩ = (.ok a, ⟨pre ++ used ++ post', pre.length + used.length⟩)

/-- The user-defined field classes used in a field load forwards. -/
inductive LoadsForward : Field → Prop where
  | leaf {b : FieldBase} {k : Leaf} : (∀ ops, k = .custom ops → ∀ ctx loaded, Forward fun s => ops.load s ctx loaded) →
      LoadsForward (.leaf b k)
  | array {b : FieldBase} {comp : Field} {count : Count} {halt} : LoadsForward comp → LoadsForward (.array b comp count halt)
  | nested {b : FieldBase} {cls : String} : LoadsForward (.nested b cls)
  | union {b : FieldBase} {choices : List (Field ⊕ String)} {ld dd} : (∀ g, .inl g ∈ choices → LoadsForward g) →
      LoadsForward (.union b choices ld dd)

/-- The `present` callable does not look ahead, and the bytes of a value are not the beginning of the (longer) bytes that stand for `None`. -/
def Unpeeking (Γ : Classes) (f : Field) : Prop :=
  (∀ w ctx, NoLookahead fun s => f.base.present w ctx (some s)) ∧
  (f.base.nullValue = .undefined ∨ ∀ n loaded repr pre used post ctx v, fieldNullRepr Γ n f loaded = .ok repr →
    fieldDoLoad Γ n f ⟨pre ++ used ++ post, pre.length⟩ ctx loaded = (.ok v, ⟨pre ++ used ++ post, pre.length + used.length⟩) →
    used <+: repr → used = repr)

/-- Nothing the user supplied for a field looks ahead. -/
inductive LooksBehind (Γ : Classes) : Field → Prop where
  | leaf {b : FieldBase} {k : Leaf} : Unpeeking Γ (.leaf b k) →
      (∀ ops, k = .custom ops → ∀ ctx loaded, Local true fun s => ops.load s ctx loaded) → LooksBehind Γ (.leaf b k)
  | array {b : FieldBase} {comp : Field} {count : Count} {halt} : Unpeeking Γ (.array b comp count halt) → LooksBehind Γ comp →
      (∀ h, halt = some h → ∀ values ctx loaded, NoLookahead fun s => h s values ctx loaded) →
      LooksBehind Γ (.array b comp count halt)
  | nested {b : FieldBase} {cls : String} : Unpeeking Γ (.nested b cls) → LooksBehind Γ (.nested b cls)
  | union {b : FieldBase} {choices : List (Field ⊕ String)} {ld dd} : Unpeeking Γ (.union b choices ld dd) →
      (∀ ctx loaded, NoLookahead fun s => ld s ctx loaded) → (∀ g, .inl g ∈ choices → LooksBehind Γ g) →
      LooksBehind Γ (.union b choices ld dd)

/-- The names of the fields a field takes sizes from. -/
inductive SizeFrom : Field → String → Prop where
  | leaf {b : FieldBase} {k : Leaf} {r : String} : b.size = .ref r → SizeFrom (.leaf b k) r
  | array {b : FieldBase} {comp : Field} {count : Count} {halt} {r : String} : SizeFrom comp r →
      SizeFrom (.array b comp count halt) r
  | union {b : FieldBase} {choices : List (Field ⊕ String)} {ld dd} {g : Field} {r : String} : .inl g ∈ choices → SizeFrom g r →
      SizeFrom (.union b choices ld dd) r

/-- The field does not read to the end of the stream by itself: sizes are not negative, arrays have a count or a halt check. -/
inductive SelfLimited : Field → Prop where
  | leaf {b : FieldBase} {k : Leaf} : (∀ n, b.size = .fixed n → 0 ≤ n) → SelfLimited (.leaf b k)
  | array {b : FieldBase} {comp : Field} {count : Count} {halt} : (count ≠ .none ∨ halt ≠ none) → SelfLimited comp →
      SelfLimited (.array b comp count halt)
  | nested {b : FieldBase} {cls : String} : SelfLimited (.nested b cls)
  | union {b : FieldBase} {choices : List (Field ⊕ String)} {ld dd} : (∀ g, .inl g ∈ choices → SelfLimited g) →
      SelfLimited (.union b choices ld dd)

/-- The sizes a field takes from the fields loaded before are not negative. -/
def SizesNonNeg (f : Field) (loaded : Dict) : Prop :=
  ∀ r i, SizeFrom f r → Dict.get? loaded r = some (.int i) → 0 ≤ i

/-- Fields of a class that others take their size from never load a negative number. -/
def SizeFieldsNonNeg (Γ : Classes) (d : StructDesc) : Prop :=
  ∀ f ∈ d.components, ∀ r, SizeFrom f r → ∀ g ∈ d.components, g.name = r →
    ∀ n s ctx loaded i t, fieldFromStream Γ n g s ctx loaded = (.ok (.int i), t) → 0 ≤ i

end Verif.Spec
