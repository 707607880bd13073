import Verif.Spec.Struct

/-!
# The order in which values were given

A Python dictionary remembers the order in which its keys were inserted, so an instance's `__values__` differ with the order of
the keyword arguments and of the assignments.  `SameValues` is "the same values, in whatever order".
-/

namespace Verif.Spec

/-- The two dictionaries have the same values under the same keys. -/
def SameValues (a b : Dict) : Prop := ∀ k, Dict.get? a k = Dict.get? b k

/-- A field that looks other fields up by name only: the `_do_dump` of a user-defined field type, and the dump decider of a
union, do not depend on the order of the dictionary they are given.  (All other callables see `all_fields` as a `View`, which
has no order.) -/
inductive ByName : Field → Prop where
  | leaf {b : FieldBase} {k : Leaf} :
      (∀ ops, k = .custom ops → ∀ v ctx a b, SameValues a b → ops.dump v ctx a = ops.dump v ctx b) → ByName (.leaf b k)
  | array {b : FieldBase} {comp : Field} {count : Count} {halt} : ByName comp → ByName (.array b comp count halt)
  | nested {b : FieldBase} {cls : String} : ByName (.nested b cls)
  | union {b : FieldBase} {choices : List (Sum Field String)} {load} {decider} :
      (∀ v ctx a b, SameValues a b → decider v ctx a = decider v ctx b) → (∀ g, .inl g ∈ choices → ByName g) →
      ByName (.union b choices load decider)

/-- Two ways to write to a stream that nobody can tell apart, except that if both raise before anything is written, the
exceptions may be different ones. -/
def SameDump (x y : W) : Prop := x = y ∨ ∃ e e', x = ([], .error e) ∧ y = ([], .error e')

end Verif.Spec
