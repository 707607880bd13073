import Verif.Model.Struct
import Verif.Spec.Schema

/-!
# Several structs in one stream
-/

namespace Verif.Spec

/-- `for s in structs: s.to_stream(stream, context)` -/
def writeAll (Γ : Classes) (n : Nat) (ctx : Value) : List (StructDesc × Dict) → W
  | [] => W.ok []
  | (d, vals) :: rs => (structToStream Γ n d vals ctx).seq fun _ => writeAll Γ n ctx rs

/-- `[cls.from_stream(stream, context) for cls in classes]` -/
def readAll (Γ : Classes) (n : Nat) (ctx : Value) : List StructDesc → Stream → R (List Dict)
  | [], s => (.ok [], s)
  | d :: ds, s =>
    match structFromStream Γ n d s ctx [] with
    | (.error e, s) => (.error e, s)
    | (.ok r, s) => R.map (readAll Γ n ctx ds s) (r :: ·)

/-- An instance of a plain class, with values that match its fields. -/
def PlainInstance (Γ : Classes) (d : StructDesc) (vals : Dict) : Prop :=
  Schema Γ d ∧ Instance d vals ∧ ∀ f ∈ d.components, ∀ w, Dict.get? vals f.name = some w → Typed Γ f w

/-- Every field of the loaded struct `r` stands for the value that field has in the `to_dict()` of the dumped struct. -/
def Restored (Γ : Classes) (n : Nat) (d : StructDesc) (vals r : Dict) : Prop :=
  ∃ all, structToDict Γ n d vals = .ok all ∧
    ∀ f ∈ d.components, ∃ v w, Dict.get? all f.name = some w ∧ Dict.get? r f.name = some v ∧ Stands v w

/-- The loaded structs are the dumped ones, in order. -/
inductive AllRestored (Γ : Classes) (n : Nat) : List (StructDesc × Dict) → List Dict → Prop where
  | nil : AllRestored Γ n [] []
  | cons {d : StructDesc} {vals r : Dict} {rs : List (StructDesc × Dict)} {out : List Dict} : Restored Γ n d vals r →
      AllRestored Γ n rs out → AllRestored Γ n ((d, vals) :: rs) (r :: out)

/-- Every field of the loaded struct `r` that is not discarded stands for the value that field has in the `to_dict()` of the dumped struct, and
the discarded ones are in neither. -/
def RestoredKept (Γ : Classes) (n : Nat) (d : StructDesc) (vals r : Dict) : Prop :=
  ∃ all, structToDict Γ n d vals = .ok all ∧
    (∀ f ∈ d.components, f.base.discard = false → ∃ v w, Dict.get? all f.name = some w ∧ Dict.get? r f.name = some v ∧ Stands v w) ∧
    ∀ f ∈ d.components, f.base.discard = true → Dict.get? all f.name = none ∧ Dict.get? r f.name = none

/-- The loaded structs are the dumped ones, in order, without their discarded fields. -/
inductive AllRestoredKept (Γ : Classes) (n : Nat) : List (StructDesc × Dict) → List Dict → Prop where
  | nil : AllRestoredKept Γ n [] []
  | cons {d : StructDesc} {vals r : Dict} {rs : List (StructDesc × Dict)} {out : List Dict} : RestoredKept Γ n d vals r →
      AllRestoredKept Γ n rs out → AllRestoredKept Γ n ((d, vals) :: rs) (r :: out)

/-- Two values that are dumped alike: the same, except that in nested structs one may leave to defaults what the other gives. -/
def Alike (a b : Value) : Prop := ∃ v, Stands v a ∧ Stands v b

end Verif.Spec
