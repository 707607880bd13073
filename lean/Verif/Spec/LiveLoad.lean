import Verif.Model.LiveLoad
import Verif.Spec.Live

/-! # Loading with callables that need not be functions: vocabulary -/
namespace Verif.Spec

variable {S : Type}

/-- The field object at a path in a field: the component of an array is number 0, the choices of a union are numbered. -/
def fieldAt : Field → List Nat → Option Field
  | f, [] => some f
  | .array _ comp _ _, 0 :: p => fieldAt comp p
  | .union _ choices _ _, i :: p =>
    match choices[i]? with
    | some (.inl g) => fieldAt g p
    | _ => none
  | _, _ :: _ => none

/-- The halt check or decider is a function, the one that the field describes. -/
def ContainerCallsAs (k : Callables S) : Field → Prop
  | .array _ _ _ none => k.halt = none
  | .array _ _ _ (some h) => ∃ p, k.halt = some p ∧ ∀ s vs ctx d w, p s vs ctx d w = (h s vs ctx d, w)
  | .union _ _ d _ => ∀ s ctx l w, k.decider s ctx l w = (d s ctx l, w)
  | _ => True

/-- The callables given to a field object are functions, those that `f` describes, and leave the world as it was. -/
structure CallsAs (k : Callables S) (f : Field) : Prop where
  present : ∀ v ctx s w, k.present v ctx s w = (f.base.present v ctx (some s), w)
  validators : Paired (fun m g => ∀ v w, m v w = (g v, w)) k.validators f.base.validators
  container : ContainerCallsAs k f

/-- Everything that the class's author attached to it is a function. -/
structure LoadDeterministic (c : LoadClass S) : Prop where
  calls : ∀ f ∈ c.live.desc.components, ∀ p g, fieldAt f p = some g → CallsAs (c.calls f.name p) g
  validate : ValidatesAs c.live
  depth : 0 < c.live.depth

/-- A check that was passed at some moment. -/
def CheckPassed (p : Prog S Unit) : Prop := ∃ w w', p w = (.ok (), w')

/-- What a struct that holds `all` looks like to a validator. -/
def asSeen (all : Dict) : View := ⟨structContains all, all.view.get⟩

/-- Calls of the user's callables: `present` of a field, the `i`-th of its `validate=` functions, the `i`-th validator method for a
field, the `i`-th struct validator. -/
inductive Call where
  | present (field : String)
  | validate (field : String) (i : Nat) (v : Value)
  | method (field : String) (i : Nat) (v : Value)
  | struct (i : Nat)
  deriving DecidableEq, Repr

/-- The callables of the class keep a record of their calls (and do whatever else they like). -/
structure Records (c : LoadClass S) (record : S → List Call) : Prop where
  present : ∀ f ∈ c.live.desc.components, ∀ view ctx s w,
    record ((c.calls f.name []).present view ctx s w).2 = record w ++ [.present f.name]
  validate : ∀ f ∈ c.live.desc.components, ∀ i m, (c.calls f.name []).validators[i]? = some m → ∀ v w,
    record (m v w).2 = record w ++ [.validate f.name i v]
  method : ∀ p ∈ c.live.fieldValidators, ∀ i m, p.2[i]? = some m → ∀ (view : View) v w,
    record (m view.live v w).2 = record w ++ [.method p.1 i v]
  struct : ∀ i m, c.live.structValidators[i]? = some m → ∀ (view : View) w, record (m view.live w).2 = record w ++ [.struct i]

/-- The calls of the `validate=` functions of a field, if there are `k` of them. -/
def validateCalls (name : String) (k : Nat) (v : Value) : List Call := (List.range k).map fun i => .validate name i v

/-- The calls made while the fields are read: `present`, and if the field is there, its `validate=` functions. -/
def readCalls (c : LoadClass S) (fields : List (Field × Bool × Value)) : List Call :=
  fields.flatMap fun x => .present x.1.name ::
    (if x.2.1 then validateCalls x.1.name (c.calls x.1.name []).validators.length x.2.2 else [])

/-- The calls made by `validate_contents` when the fields have the values `all`. -/
def checkCalls (c : LoadClass S) (all : Dict) : List Call :=
  (c.live.fieldValidators.flatMap fun p =>
    validateCalls p.1 (c.calls p.1 []).validators.length ((all.get? p.1).getD .undefined) ++
    (List.range p.2.length).map fun i => .method p.1 i ((all.get? p.1).getD .undefined)) ++
  (List.range c.live.structValidators.length).map .struct

/-- A field without fields in it. -/
def isLeaf : Field → Bool
  | .leaf .. => true
  | _ => false

end Verif.Spec
