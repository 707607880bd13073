import Verif.Model.Struct
import Verif.Model.Load

/-!
# Validators that change the struct

A validator method is called with the struct itself, and may assign to its fields.  (The documentation of `validates_struct` advises against it, and
describes what happens.)  Here validator methods are programs that are given the values of the struct and leave new ones behind; the rest is as in
`Model/Dump` and `Model/Load`.  This concerns the struct that `to_stream` or `from_stream` is called for; structs inside it have the pure validators of the
main model.
-/

namespace Verif

/-- The validator methods of a class: for each field (`field_validators`), and for the struct (`struct_validators`),
`/repo/binobj/structures.py:71-77`. -/
structure Modifiers where
  fields : List (String × List (Value → Dict → Mut))
  structs : List (Dict → Mut)

/-- Run a list of checks in order, stopping at the first failure.  Each sees the values the one before left. -/
def runMut {α : Type} (check : α → Dict → Mut) : List α → Dict → Mut
  | [], vals => (.ok (), vals)
  | a :: r, vals =>
    match check a vals with
    | (.error e, vals) => (.error e, vals)
    | (.ok _, vals) => runMut check r vals

/-- The checks of one field in `validate_contents`, `/repo/binobj/structures.py:349-360`.  The value is looked up once. -/
def modifyField (d : StructDesc) (p : String × List (Value → Dict → Mut)) (vals : Dict) : Mut :=
  match d.find? p.1 with
  | none => (.error (.keyErr p.1), vals)
  | some f =>
    match structGetItem d vals p.1 with
    | .error e => (.error e, vals)
    | .ok v =>
      match runValidators f.base.validators v with
      | .error e => (.error e, vals)
      | .ok _ => runMut (fun m => m v) p.2 vals

/-- `validate_contents`, `/repo/binobj/structures.py:342-364`. -/
def modifyContents (d : StructDesc) (c : Modifiers) (vals : Dict) : Mut :=
  match runMut (modifyField d) c.fields vals with
  | (.error e, vals) => (.error e, vals)
  | (.ok _, vals) => runMut (fun m => m) c.structs vals

/-- `Struct.to_stream`, `/repo/binobj/structures.py:366-385`: what is written, and the values of the struct afterwards. -/
def structToStreamModify (Γ : Classes) (n : Nat) (d : StructDesc) (c : Modifiers) (vals : Dict) (ctx : Value) : W × Dict :=
  match modifyContents d c vals with
  | (.error e, vals) => (W.fail e, vals)
  | (.ok _, vals) =>
    match structToDict Γ n d vals with
    | .error e => (W.fail e, vals)
    | .ok all => (dumpFields (fun f v => fieldToStream Γ n f v ctx all) all ctx d.components, vals)

/-- `Struct.from_stream`, `/repo/binobj/structures.py:474-517`. -/
def structFromStreamModify (Γ : Classes) (n : Nat) (d : StructDesc) (c : Modifiers) (s : Stream) (ctx : Value) (initKwargs : Dict) : R Dict :=
  match loadFields (fun f s loaded => fieldFromStream Γ n f s ctx loaded) d.components initKwargs s with
  | (.error e, s) => (.error e, s)
  | (.ok results, s) =>
    match structInit d results with
    | .error e => (.error e, s)
    | .ok vals =>
      match modifyContents d c vals with
      | (.error e, _) => (.error e, s)
      | (.ok _, vals) => (.ok (dropDiscarded d vals), s)

end Verif
