import Verif.Spec.Depth
import Verif.Spec.Halting

/-!
# How deep values are nested

Vocabulary for C119.
-/

namespace Verif.Spec

/-- The value is made of at most `k` levels of lists, dictionaries and struct instances.  (Iterators are excluded: what they yield is not known
before they are used.) -/
inductive Nests : Nat → Value → Prop where
  | atom {k : Nat} {v : Value} : (∀ l, v ≠ .list l) → (∀ l, v ≠ .iter l) → (∀ d, v ≠ .dict d) → (∀ c d, v ≠ .struct c d) → Nests k v
  | list {k : Nat} {l : List Value} : (∀ v ∈ l, Nests k v) → Nests (k + 1) (.list l)
  | dict {k : Nat} {d : Dict} : (∀ p ∈ d, Nests k p.2) → Nests (k + 1) (.dict d)
  | struct {k : Nat} {c : String} {d : Dict} : (∀ p ∈ d, Nests k p.2) → Nests (k + 1) (.struct c d)

/-- The same, and there are no struct instances in it. -/
inductive PlainNests : Nat → Value → Prop where
  | atom {k : Nat} {v : Value} : (∀ l, v ≠ .list l) → (∀ l, v ≠ .iter l) → (∀ d, v ≠ .dict d) → (∀ c d, v ≠ .struct c d) → PlainNests k v
  | list {k : Nat} {l : List Value} : (∀ v ∈ l, PlainNests k v) → PlainNests (k + 1) (.list l)
  | dict {k : Nat} {d : Dict} : (∀ p ∈ d, PlainNests k p.2) → PlainNests (k + 1) (.dict d)

/-- The values that the field supplies itself (its default, what it computes, what stands for `None`) nest at most `S` levels of lists and
dictionaries, and so do those of its elements and choices. -/
inductive Modest (S : Nat) : Field → Prop where
  | leaf {b : FieldBase} {k : Leaf} : (∀ v, Supplies b v → PlainNests S v) → Modest S (.leaf b k)
  | array {b : FieldBase} {comp : Field} {count : Count} {halt} : (∀ v, Supplies b v → PlainNests S v) → Modest S comp →
      Modest S (.array b comp count halt)
  | nested {b : FieldBase} {cls : String} : (∀ v, Supplies b v → PlainNests S v) → Modest S (.nested b cls)
  | union {b : FieldBase} {choices : List (Field ⊕ String)} {ld dd} : (∀ v, Supplies b v → PlainNests S v) →
      (∀ g, .inl g ∈ choices → Modest S g) → Modest S (.union b choices ld dd)

/-- What the field loads is made up of what the built-in fields load: its type and those of its elements and choices are built in, halt checks
leave the list alone, and the values for absent fields nest at most `S` levels. -/
inductive Regular (S : Nat) : Field → Prop where
  | leaf {b : FieldBase} {k : Leaf} : PlainNests S b.notPresentValue → (∀ ops, k ≠ .custom ops) → Regular S (.leaf b k)
  | array {b : FieldBase} {comp : Field} {count : Count} {halt} : PlainNests S b.notPresentValue → Regular S comp →
      (∀ h, halt = some h → ∀ s l ctx loaded stop l', h s l ctx loaded = .ok (stop, l') → l' = l) → Regular S (.array b comp count halt)
  | nested {b : FieldBase} {cls : String} : PlainNests S b.notPresentValue → Regular S (.nested b cls)
  | union {b : FieldBase} {choices : List (Field ⊕ String)} {ld dd} : PlainNests S b.notPresentValue →
      (∀ g, .inl g ∈ choices → Regular S g) → Regular S (.union b choices ld dd)

/-- The user's callables in the class (default factories, computed fields, `present`, validators, the methods of own field types) do not run out of
stack themselves, and elements and choices supply no structs or dictionaries. -/
structure HonestClass (d : StructDesc) : Prop where
  fields : ∀ f ∈ d.components, Orderly f
  methods : ∀ p ∈ d.fieldValidators, ∀ m ∈ p.2, ∀ V v, HonestView V → m V v ≠ .error .outOfFuel
  validators : ∀ m ∈ d.structValidators, ∀ V, HonestView V → m V ≠ .error .outOfFuel

end Verif.Spec
