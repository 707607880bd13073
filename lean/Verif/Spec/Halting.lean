import Verif.Spec.Robust

/-!
# When dumping ends

The values a struct is given are finite.  But a class can supply values of its own (defaults, computed values, null values), these may be
nested structs, and those may be supplied with values again.  `Founded` says that this comes to an end.
-/

namespace Verif.Spec

/-- Numbers, strings and the like, and lists of them: no struct, dictionary or iterator. -/
inductive Flat : Value → Prop where
  | atom {v : Value} : (∀ l, v ≠ .list l) → (∀ l, v ≠ .iter l) → (∀ d, v ≠ .dict d) → (∀ c d, v ≠ .struct c d) → Flat v
  | list {l : List Value} : (∀ v ∈ l, Flat v) → Flat (.list l)

/-- The structs in the value are instances of classes whose rank is below `r`, and it contains no iterators. -/
inductive Within (rank : String → Nat) (r : Nat) : Value → Prop where
  | flat {v : Value} : Flat v → Within rank r v
  | list {l : List Value} : (∀ v ∈ l, Within rank r v) → Within rank r (.list l)
  | dict {d : Dict} : (∀ p ∈ d, Within rank r p.2) → Within rank r (.dict d)
  | struct {c : String} {d : Dict} : rank c < r → (∀ p ∈ d, Within rank r p.2) → Within rank r (.struct c d)

/-- The field supplies the value itself: it is the default, it was computed, or it stands for `None`. -/
def Supplies (b : FieldBase) (v : Value) : Prop :=
  b.default = .ok v ∨ (∃ fn V, b.computeFn = some fn ∧ fn V = .ok v) ∨ b.nullValue = v

/-- Looking up a field never yields the exception `outOfFuel` (which is no exception of Python's). -/
def HonestView (V : View) : Prop := ∀ k, V.get k ≠ .error .outOfFuel

/-- Neither do the user's callables. -/
structure Honest (b : FieldBase) : Prop where
  default : b.default ≠ .error .outOfFuel
  compute : ∀ fn, b.computeFn = some fn → ∀ V, HonestView V → fn V ≠ .error .outOfFuel
  present : ∀ V, HonestView V → ∀ ctx s, b.present V ctx s ≠ .error .outOfFuel
  validators : ∀ c ∈ b.validators, ∀ v, c v ≠ .error .outOfFuel

/-- Nor user-defined field classes. -/
def HonestLeaf (k : Leaf) : Prop :=
  ∀ ops, k = .custom ops → (∀ v ctx all, (ops.dump v ctx all).2 ≠ .error .outOfFuel) ∧
    (∀ g, ops.sizeFor = some g → ∀ v, g v ≠ .error .outOfFuel) ∧ (∀ g, ops.pad = some g → ∀ bs n, g bs n ≠ .error .outOfFuel)

/-- All callables of the field are honest, and its elements or choices supply only flat values. -/
inductive Orderly : Field → Prop where
  | leaf {b : FieldBase} {k : Leaf} : Honest b → HonestLeaf k → Orderly (.leaf b k)
  | array {b : FieldBase} {comp : Field} {count : Count} {halt} : Honest b → Orderly comp → (∀ v, Supplies comp.base v → Flat v) →
      Orderly (.array b comp count halt)
  | nested {b : FieldBase} {cls : String} : Honest b → Orderly (.nested b cls)
  | union {b : FieldBase} {choices : List (Field ⊕ String)} {ld dd} : Honest b →
      (∀ v ctx all, dd v ctx all ≠ .error .outOfFuel) →
      (∀ g, .inl g ∈ choices → Orderly g) → (∀ g, .inl g ∈ choices → ∀ v, Supplies g.base v → Flat v) →
      Orderly (.union b choices ld dd)

/-- A class of rank `r`.  Its fields refer to classes of the same rank at most.  If a field supplies structs or dictionaries itself, it
refers to classes of lower rank only, and so do these values. -/
structure Founded (rank : String → Nat) (r : Nat) (d : StructDesc) : Prop where
  unique : UniqueNames d
  fields : ∀ f ∈ d.components, Orderly f
  mentions : ∀ f ∈ d.components, ∀ c, Mentions f c → rank c ≤ r
  supplies : ∀ f ∈ d.components, ∀ v, Supplies f.base v → Flat v ∨ (Within rank r v ∧ ∀ c, Mentions f c → rank c < r)
  methods : ∀ p ∈ d.fieldValidators, ∀ m ∈ p.2, ∀ V v, HonestView V → m V v ≠ .error .outOfFuel
  validators : ∀ m ∈ d.structValidators, ∀ V, HonestView V → m V ≠ .error .outOfFuel

end Verif.Spec
