import Verif.Model.Load

/-!
# The rest of the public API of fields and structs

`/repo/binobj/fields/base.py:734-771`, `/repo/binobj/structures.py:179-201, 519-775`.
-/

namespace Verif

/-- `Field.from_bytes`, `/repo/binobj/fields/base.py:734-771`. -/
def fieldFromBytes (Γ : Classes) (n : Nat) (f : Field) (data : Bytes) (ctx : Value) (exact : Bool) (loaded : Dict) :
    Except Err Value :=
  match fieldFromStream Γ n f ⟨data, 0⟩ ctx loaded with
  | (.error e, _) => .error e
  | (.ok v, s) =>
    let here := s.tell
    let bytesRemaining : Int := (data.length : Int) - here
    if exact ∧ bytesRemaining > 0 then .error .extraneous else .ok v

/-- `Struct.from_bytes`, `/repo/binobj/structures.py:519-559`. -/
def structFromBytes (Γ : Classes) (n : Nat) (d : StructDesc) (data : Bytes) (ctx : Value) (exact : Bool)
    (initKwargs : Dict) : Except Err Dict :=
  match structFromStream Γ n d ⟨data, 0⟩ ctx initKwargs with
  | (.error e, _) => .error e
  | (.ok vals, s) =>
    let here : Int := s.tell
    if exact ∧ here < (data.length : Int) - 1 then .error .extraneous else .ok vals

/-- The loop of `partial_load`, `/repo/binobj/structures.py:600-624`. -/
def partialLoadLoop (fromStream : Field → Stream → Dict → R Value) (lastField : Option String) :
    List Field → Dict → Stream → R Dict
  | [], result, s => (.ok result, s)
  | f :: fs, result, s =>
    let offset := s.tell
    match fromStream f s result with
    | (.error e, s) =>
      if e.isEOF ∧ lastField = none then (.ok result, s.seek offset) else (.error e, s)
    | (.ok v, s) =>
      let result := if f.base.discard then result else result.set f.name v
      if some f.name = lastField then (.ok result, s) else partialLoadLoop fromStream lastField fs result s

/-- `Struct.partial_load`, `/repo/binobj/structures.py:561-624`: the new instance's `__values__`. -/
def structPartialLoad (Γ : Classes) (n : Nat) (d : StructDesc) (s : Stream) (lastField : Option String) (ctx : Value) :
    R Dict :=
  if lastField.any (fun l => !d.has l) then (.error .valueErr, s)
  else
    match partialLoadLoop (fun f s loaded => fieldFromStream Γ n f s ctx loaded) lastField d.components [] s with
    | (.error e, s) => (.error e, s)
    | (.ok result, s) => (structInit d result, s)

/-- `stream.seek(p)` where `p` may be negative (`ValueError`). -/
def seekInt (s : Stream) (p : Int) : Except Err Unit × Stream :=
  if p < 0 then (.error .valueErr, s) else (.ok (), s.seek p.toNat)

/-- `Struct.get_field`, `/repo/binobj/structures.py:626-679`. -/
def structGetField (Γ : Classes) (n : Nat) (d : StructDesc) (s : Stream) (name : String) (ctx : Value) : R Value :=
  match d.find? name with
  | none => (.error .valueErr, s)
  | some f =>
    let originalOffset := s.tell
    match f.base.offset with
    | some off =>
      match seekInt s (originalOffset + off) with
      | (.error e, s) => (.error e, s.seek originalOffset)
      | (.ok _, s) =>
        let (r, s) := fieldFromStream Γ n f s ctx []
        (r, s.seek originalOffset)
    | none =>
      match structPartialLoad Γ n d s (some name) ctx with
      | (.error e, s) => (.error e, s.seek originalOffset)
      | (.ok vals, s) => (structGetItem d vals name, s.seek originalOffset)

/-- The loop of `partial_dump`, `/repo/binobj/structures.py:702-716`.  (`data.get(field.name, field.default)` evaluates the
default even if it is not needed.) -/
def partialDumpLoop (toStream : Field → Value → W) (vals : Dict) (lastField : Option String) : List Field → W
  | [] => W.ok []
  | f :: fs =>
    match f.base.default with
    | .error e => W.fail e
    | .ok fallback =>
      let value := (vals.get? f.name).getD fallback
      let go : Unit → W := fun _ =>
        (toStream f value).seq fun _ =>
          if some f.name = lastField then W.ok [] else partialDumpLoop toStream vals lastField fs
      if value = .undefined then
        if lastField = none then W.ok []
        else
          match f.base.required with
          | .error e => W.fail e
          | .ok true => W.fail (.missingRequired f.name)
          | .ok false => go ()
      else go ()

/-- `Struct.partial_dump`, `/repo/binobj/structures.py:681-716`. -/
def structPartialDump (Γ : Classes) (n : Nat) (d : StructDesc) (vals : Dict) (lastField : Option String) (ctx : Value) :
    W :=
  partialDumpLoop (fun f v => fieldToStream Γ n f v ctx []) vals lastField d.components

/-- `StructMetadata.get_size`, `/repo/binobj/structures.py:179-201`. -/
def structGetSize (Γ : Classes) (n : Nat) (d : StructDesc) (values : Dict) : Except Err (Option Int) :=
  match sumSizes (fun f => fieldExpectedSize Γ n f values) d.components with
  | .ok k => .ok (some k)
  | .error (.undefinedSize _) => .ok none
  | .error (.missingRequired _) => .ok none
  | .error e => .error e

/-- Outcome of an operation on a struct instance: its result, and the instance's `__values__` afterwards. -/
abbrev Mut := Except Err Unit × Dict

/-- `Field.__set__`, `/repo/binobj/fields/base.py:1022-1028`. -/
def fieldSet (f : Field) (vals : Dict) (v : Value) : Mut :=
  if f.base.computeFn.isSome ∨ f.base.const ≠ .undefined then (.error (.immutableField f.name), vals)
  else
    match runValidators f.base.validators v with
    | .error e => (.error e, vals)
    | .ok _ => (.ok (), vals.set f.name v)

/-- `struct[name] = value`, `/repo/binobj/structures.py:742-747`. -/
def structSetItem (d : StructDesc) (vals : Dict) (name : String) (v : Value) : Mut :=
  match d.find? name with
  | none => (.error (.keyErr name), vals)
  | some f => fieldSet f vals v

/-- `del struct[name]`, `/repo/binobj/structures.py:749-754`. -/
def structDelItem (d : StructDesc) (vals : Dict) (name : String) : Mut :=
  if d.has name then (.ok (), vals.erase name) else (.error (.keyErr name), vals)

/-- `struct == other`, `/repo/binobj/structures.py:777-797`. -/
def structEq (Γ : Classes) (n : Nat) (cls : String) (vals : Dict) (other : Value) : Except Err Bool :=
  pyEq Γ n (.struct cls vals) other

end Verif
