import Verif.Model.Equality

/-! What it means for two values to be equal, independently of how `==` is computed. -/

namespace Verif.Spec
open Verif

/-- Equality of two values that are not containers.  Numbers compare by value, NaN is equal to nothing. -/
def scalarEq : Value → Value → Bool
  | .none, .none | .notPresent, .notPresent | .undefined, .undefined | .dflt, .dflt => true
  | .int x, .int y => decide (x = y)
  | .int x, .float y => intEqFloat x y
  | .float x, .int y => intEqFloat y x
  | .float x, .float y => floatEq x y
  | .bytes x, .bytes y => decide (x = y)
  | .str x, .str y => decide (x = y)
  | .uuid x, .uuid y => decide (x = y)
  | .datetime x p, .datetime y q => decide (x = y) && decide (p = q)
  | _, _ => false

/-- Equal values: equal scalars, lists with equal elements, dicts with the same keys and equal values (in any order). -/
inductive Same : Value → Value → Prop where
  | scalar {a b : Value} : scalarEq a b = true → Same a b
  | list {a b : List Value} : a.length = b.length →
      (∀ (i : Nat) (x y : Value), a[i]? = some x → b[i]? = some y → Same x y) → Same (.list a) (.list b)
  | dict {a b : Dict} : (∀ k, Dict.get? a k = none ↔ Dict.get? b k = none) →
      (∀ (k : String) (x y : Value), Dict.get? a k = some x → Dict.get? b k = some y → Same x y) → Same (.dict a) (.dict b)

/-- The very same value (not merely an equal one, as `0.0` and `-0.0` are), except that the entries of the dicts in it may be in another order. -/
inductive Identical : Value → Value → Prop where
  | same (v : Value) : Identical v v
  | list {a b : List Value} : a.length = b.length →
      (∀ (i : Nat) (x y : Value), a[i]? = some x → b[i]? = some y → Identical x y) → Identical (.list a) (.list b)
  | dict {a b : Dict} : (∀ k, Dict.get? a k = none ↔ Dict.get? b k = none) →
      (∀ (k : String) (x y : Value), Dict.get? a k = some x → Dict.get? b k = some y → Identical x y) → Identical (.dict a) (.dict b)

/-- Every dict in the value has distinct keys, as Python dicts do. -/
inductive DistinctKeys : Value → Prop where
  | list {l : List Value} : (∀ v ∈ l, DistinctKeys v) → DistinctKeys (.list l)
  | dict {d : Dict} : (Dict.keys d).Nodup → (∀ p ∈ d, DistinctKeys p.2) → DistinctKeys (.dict d)
  | other {v : Value} : (∀ l, v ≠ .list l) → (∀ d, v ≠ .dict d) → DistinctKeys v

/-- A value that equals itself: there is no NaN and no iterator in it. -/
inductive SelfEqual : Value → Prop where
  | list {l : List Value} : (∀ v ∈ l, SelfEqual v) → SelfEqual (.list l)
  | dict {d : Dict} : (∀ p ∈ d, SelfEqual p.2) → SelfEqual (.dict d)
  | scalar {v : Value} : scalarEq v v = true → SelfEqual v

/-- `dct` is the dict of the values that are set in a struct, with nested structs turned into dicts. -/
def DefinedValues (Γ : Classes) (vals dct : Dict) : Prop :=
  ∀ k, (Dict.get? dct k = none ∧ (Dict.get? vals k = none ∨ Dict.get? vals k = some .undefined)) ∨
    ∃ v w n, Dict.get? vals k = some v ∧ v ≠ .undefined ∧ recursiveToDicts Γ n v = .ok w ∧ Dict.get? dct k = some w

/-- The values of a struct, once converted, have distinct keys in every dict. -/
def ProperValues (Γ : Classes) (vals : Dict) : Prop :=
  ∀ k v n w, Dict.get? vals k = some v → recursiveToDicts Γ n v = .ok w → DistinctKeys w

/-- `list(struct)` returns: it asks for `len(struct)`, which must be a proper length (or raise a `TypeError`, which is ignored). -/
def Listable (Γ : Classes) (d : StructDesc) (vals : Dict) : Prop :=
  ∃ n, (∃ k, structLen Γ n d vals = .ok k ∧ 0 ≤ k ∧ k < 2 ^ 63) ∨ structLen Γ n d vals = .error .typeErr

/-- What is stored for a field, if it is set at all. -/
def setValue (vals : Dict) (k : String) : Option Value :=
  match Dict.get? vals k with
  | some .undefined => none
  | o => o

/-- Python's `a == b` returns `r`. -/
def EqReturns (Γ : Classes) (a b : Value) (r : Bool) : Prop := ∃ n, pyEq Γ n a b = .ok r

end Verif.Spec
