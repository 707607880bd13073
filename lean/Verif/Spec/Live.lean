import Verif.Model.Live
import Verif.Spec.Struct

/-! # Callables that need not be functions: vocabulary -/
namespace Verif.Spec

variable {S : Type}

/-- The two lists have the same length and corresponding elements are related. -/
inductive Paired {α β : Type} (R : α → β → Prop) : List α → List β → Prop where
  | nil : Paired R [] []
  | cons {a : α} {b : β} {as : List α} {bs : List β} : R a b → Paired R as bs → Paired R (a :: as) (b :: bs)

/-- The compute function attached to the field is a function, the one that `f` describes: shown something that does not change
under its hands, it returns the function's result and leaves the world as it was. -/
structure ComputesAs (c : LiveClass S) (f : Field) : Prop where
  none : f.base.computeFn = none → c.compute f.name = none
  some : ∀ g, f.base.computeFn = some g → ∃ p, c.compute f.name = some p ∧ ∀ (v : View) (s : S), p v.live s = (g v, s)

/-- The `present` callable of the field is a function, the one that `f` describes. -/
def PresentAs (c : LiveClass S) (f : Field) : Prop :=
  ∀ (v : View) (ctx : Value) (s : S), c.present f.name v.live ctx s = (f.base.present v ctx none, s)

/-- The validator methods and struct validators are functions, those that `c.desc` describes. -/
structure ValidatesAs (c : LiveClass S) : Prop where
  fields : Paired (fun p q => p.1 = q.1 ∧ Paired (fun m g => ∀ (v : View) (x : Value) (s : S), m v.live x s = (g v x, s)) p.2 q.2)
    c.fieldValidators c.desc.fieldValidators
  struct : Paired (fun m g => ∀ (v : View) (s : S), m v.live s = (g v, s)) c.structValidators c.desc.structValidators

/-- Everything the class's author attached to it is a function, except perhaps the compute functions of the fields `free`. -/
structure Deterministic (c : LiveClass S) (free : Field → Prop) : Prop where
  names : UniqueNames c.desc
  compute : ∀ f ∈ c.desc.components, ¬ free f → ComputesAs c f
  present : ∀ f ∈ c.desc.components, PresentAs c f
  validate : ValidatesAs c
  depth : c.depth = c.desc.components.length + 1

/-- In the dictionary `T`, every field that has a compute function (and no default, which would win) has the value that the
compute function, shown this dictionary, can return. -/
def AsComputed (c : LiveClass S) (T : Dict) : Prop :=
  ∀ f ∈ c.desc.components, ∀ p, c.compute f.name = some p → f.base.dflt = .undefined →
    ∃ (s s' : S) (v : Value), p T.view.live s = (.ok v, s') ∧ T.get? f.name = some v

end Verif.Spec
