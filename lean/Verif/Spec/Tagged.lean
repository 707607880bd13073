import Verif.Spec.Convert
import Verif.Spec.Inherit
import Verif.Spec.Class
import Verif.Spec.Offset
import Verif.Spec.Records
import Verif.Spec.Optional

/-!
# Choosing the class by a tag

A stream holds structs of several classes, all derived from one base class, which has a field that tells the class.  The reader looks at this field
with `Base.get_field`, and then loads the struct.
-/

namespace Verif.Spec

/-- `cls = TABLE[Base.get_field(stream, tag)]; cls.from_stream(stream)` -/
def readTagged (Γ : Classes) (n : Nat) (base : StructDesc) (tag : String) (table : Value → Option StructDesc) (ctx : Value) (s : Stream) :
    R (StructDesc × Dict) :=
  match structGetField Γ n base s tag ctx with
  | (.error e, s) => (.error e, s)
  | (.ok v, s) =>
    match table v with
    | none => (.error (.user "KeyError"), s)
    | some d => R.map (structFromStream Γ n d s ctx []) fun r => (d, r)

/-- So many times. -/
def readTaggedAll (Γ : Classes) (n : Nat) (base : StructDesc) (tag : String) (table : Value → Option StructDesc) (ctx : Value) :
    Nat → Stream → R (List (StructDesc × Dict))
  | 0, s => (.ok [], s)
  | k + 1, s =>
    match readTagged Γ n base tag table ctx s with
    | (.error e, s) => (.error e, s)
    | (.ok p, s) => R.map (readTaggedAll Γ n base tag table ctx k s) (p :: ·)

/-- The field `f` of the base class can be looked at by itself: it is kept; if it has an offset, the fields before it always take the same number of
bytes, and it does not look at them; otherwise none of them is discarded.  Validators of the base look at fields of the base only. -/
structure TagField (b : StructDesc) (pre : List Field) (f : Field) (post : List Field) : Prop where
  place : b.components = pre ++ f :: post
  kept : f.base.discard = false
  offsets : Offsets b
  seekable : f.base.offset ≠ none → (∀ g ∈ pre, ∃ k, Rigid g k) ∧ ReadsOff (fun k => k ∈ pre.map Field.name) f
  unskipped : f.base.offset = none → ∀ g ∈ pre, g.base.discard = false
  checked : ∀ p ∈ b.fieldValidators, p.1 ∈ names b
  inner : LocalValidators b

end Verif.Spec
