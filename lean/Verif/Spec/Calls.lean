import Verif.Model.Live
import Verif.Spec.Struct

/-! # How often compute functions are called: vocabulary -/
namespace Verif.Spec

/-- A compute function that reads some fields of `all_fields`, in order, and returns a value made from what it read. -/
structure Formula where
  reads : List String
  fn : List Value → Value

/-- Read several fields, one after the other. -/
def readFields {S : Type} (all : LiveView S) : List String → Prog S (List Value)
  | [] => Prog.pure (.ok [])
  | k :: ks => (all.get k).andThen fun v => (readFields all ks).andThen fun vs => Prog.pure (.ok (v :: vs))

/-- Run the function; the state of the world is the number of calls of compute functions made so far. -/
def Formula.run (g : Formula) (all : LiveView Nat) : Prog Nat Value := fun calls =>
  (readFields all g.reads).andThen (fun vs => Prog.pure (.ok (g.fn vs))) (calls + 1)

/-- A class whose fields are computed by such functions, without `present` callables and validator methods.  Python lets
compute functions call one another `depth` deep. -/
def sheet (d : StructDesc) (formula : String → Option Formula) (depth : Nat) : LiveClass Nat where
  desc := d
  compute := fun k => (formula k).map Formula.run
  present := fun _ _ _ => Prog.pure (.ok true)
  fieldValidators := d.components.map fun f => (f.name, [])
  structValidators := []
  depth := depth

/-- Every field has been given a value or has a formula that reads fields of a lower rank (so there are no cycles), and
nothing is discarded. -/
structure Sheet (d : StructDesc) (formula : String → Option Formula) (vals : Dict) (rank : String → Nat) (depth : Nat) : Prop where
  names : UniqueNames d
  inst : Instance d vals
  defined : ∀ p ∈ vals, p.2 ≠ .undefined
  discard : ∀ f ∈ d.components, f.base.discard = false
  filled : ∀ f ∈ d.components, f.name ∉ Dict.keys vals → f.base.dflt = .undefined ∧ ∃ g, formula f.name = some g
  reads : ∀ k g, formula k = some g → ∀ r ∈ g.reads, r ∈ Spec.names d ∧ rank r < rank k
  fn : ∀ k g, formula k = some g → ∀ vs, g.fn vs ≠ .undefined
  depth : ∀ k ∈ Spec.names d, rank k < depth

/-- Calls of compute functions made by reading a field: none if it has a value; otherwise one, and those made by reading, in
turn, each of the fields that its compute function reads - no matter how often they were read before.  (Compute functions
that call one another at most `n` deep.) -/
def calls (formula : String → Option Formula) (vals : Dict) : Nat → String → Nat
  | 0, _ => 0
  | n + 1, k =>
    if vals.contains k then 0
    else
      match formula k with
      | none => 0
      | some g => 1 + (g.reads.map (calls formula vals n)).sum

/-- The calls made by reading every field once. -/
def totalCalls (d : StructDesc) (formula : String → Option Formula) (vals : Dict) (depth : Nat) : Nat :=
  (d.components.map fun f => calls formula vals depth f.name).sum

end Verif.Spec
