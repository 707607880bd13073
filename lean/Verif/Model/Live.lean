import Verif.Model.Dump

/-!
# Dumping a struct whose compute functions are not functions

`Verif.Model.Dump` takes every callable the user supplies as a function of its arguments.  Python callables need not be: a
field may be computed from the clock, a random number generator, a counter, a file.  Here a compute function, a `present`
callable, a validator method and a struct validator is a program: it gets its arguments and the state of the world, and
returns or raises, leaving a possibly different state.  What it is handed as `all_fields` is alive too: reading a field of
the struct runs that field's compute function there and then.

The functions below are those of `Verif.Model.Dump` (same code, same lines) with the state passed along in the order in
which the code makes the calls.  That they are the same functions when the callables are well behaved is `C95_deterministic`.

Simplifications: the callables a field is given directly (its `validate=` functions, `factory`, a union's deciders) stay
functions, and the dump of one value by its field - including the structs inside it, which are dictionaries by then - is the
one of `Verif.Model.Dump`: it runs a compute function only for a discarded field of a nested struct.  Python's recursion
limit is the number `depth` that comes with a class.
-/

namespace Verif

/-- A Python call as a program: from the state of the world to what it returns or raises, and the state it leaves. -/
abbrev Prog (S α : Type) := S → Except Err α × S

/-- One call after another; the second is not made if the first raises. -/
def Prog.andThen {S α β : Type} (p : Prog S α) (k : α → Prog S β) : Prog S β := fun s =>
  match p s with
  | (.error e, s) => (.error e, s)
  | (.ok a, s) => k a s

/-- Something that makes no call. -/
def Prog.pure {S α : Type} (r : Except Err α) : Prog S α := fun s => (r, s)

/-- What user callables see as `all_fields`: a dictionary, or a struct used like one.  (Compare `View`.) -/
structure LiveView (S : Type) where
  contains : String → Bool
  get : String → Prog S Value

/-- A view whose values do not change and which can be read without any effect: a dictionary is one. -/
def View.live {S : Type} (v : View) : LiveView S := ⟨v.contains, fun k => Prog.pure (v.get k)⟩

/-- A struct class with the callables its author attached to it: per field name the compute function (`@field.computes`,
`/repo/binobj/fields/base.py:462-505`) and `present` (`base.py:278, 284`), and the validator methods and struct validators
(`/repo/binobj/structures.py:71-80`).  Those of `desc` are not used. -/
structure LiveClass (S : Type) where
  desc : StructDesc
  compute : String → Option (LiveView S → Prog S Value)
  present : String → LiveView S → Value → Prog S Bool
  fieldValidators : List (String × List (LiveView S → Value → Prog S Unit))
  structValidators : List (LiveView S → Prog S Unit)
  /-- How deeply Python lets the compute functions of an instance call one another. -/
  depth : Nat

/-- The struct classes of the program. -/
abbrev LiveClasses (S : Type) := String → Option (LiveClass S)

variable {S : Type}

/-- `compute_value_for_dump`, `/repo/binobj/fields/base.py:400-460`. -/
def LiveClass.computeValueForDump (c : LiveClass S) (b : FieldBase) (all : LiveView S) (ctx : Value) : Prog S Value :=
  let value : Prog S Value :=
    if all.contains b.name then all.get b.name
    else if b.dflt ≠ .undefined then Prog.pure b.default
    else
      match c.compute b.name with
      | some fn => fn all
      | none => Prog.pure (.ok .undefined)
  value.andThen fun v =>
    if v = .notPresent then Prog.pure (.ok .notPresent)
    else (c.present b.name all ctx).andThen fun there =>
      if there then Prog.pure (if v = .undefined then .error (.missingRequired b.name) else .ok v)
      else Prog.pure (.ok .notPresent)

/-- `struct[name]` (`__getitem__`, `/repo/binobj/structures.py:735-740`) through `Field.__get__`
(`/repo/binobj/fields/base.py:1015-1020`). -/
def liveGet (c : LiveClass S) (vals : Dict) : Nat → String → Prog S Value
  | 0, _ => Prog.pure (.error .recursionErr)
  | n + 1, name =>
    match c.desc.find? name with
    | none => Prog.pure (.error (.keyErr name))
    | some f =>
      match vals.get? name with
      | some v => Prog.pure (.ok v)
      | none => c.computeValueForDump f.base ⟨structContains vals, liveGet c vals n⟩ .none

/-- `struct[name]` with the whole recursion depth available. -/
def liveGetItem (c : LiveClass S) (vals : Dict) (name : String) : Prog S Value := liveGet c vals c.depth name

/-- A struct instance as user callables see it. -/
def liveView (c : LiveClass S) (vals : Dict) : LiveView S := ⟨structContains vals, liveGetItem c vals⟩

/-- Run a list of checks in order, stopping at the first failure. -/
def liveRunAll {α : Type} (check : α → Prog S Unit) : List α → Prog S Unit
  | [] => Prog.pure (.ok ())
  | a :: r => (check a).andThen fun _ => liveRunAll check r

/-- The checks of one field in `validate_contents`, `/repo/binobj/structures.py:349-360`. -/
def liveValidateField (c : LiveClass S) (vals : Dict)
    (p : String × List (LiveView S → Value → Prog S Unit)) : Prog S Unit :=
  match c.desc.find? p.1 with
  | none => Prog.pure (.error (.keyErr p.1))
  | some f =>
    (liveGetItem c vals p.1).andThen fun v =>
      (Prog.pure (runValidators f.base.validators v)).andThen fun _ =>
        liveRunAll (fun m => m (liveView c vals) v) p.2

/-- `validate_contents`, `/repo/binobj/structures.py:342-364`. -/
def liveValidate (c : LiveClass S) (vals : Dict) : Prog S Unit :=
  (liveRunAll (liveValidateField c vals) c.fieldValidators).andThen fun _ =>
    liveRunAll (fun v => v (liveView c vals)) c.structValidators

/-- The loop of `_to_dict_whatever_possible`, `/repo/binobj/structures.py:451-470`. -/
def liveWhateverLoop (c : LiveClass S) (vals : Dict) : List Field → Dict → Prog S Dict
  | [], acc => Prog.pure (.ok acc)
  | f :: fs, acc => fun s =>
    match c.computeValueForDump f.base (liveView c vals) .none s with
    | (.ok v, s) => liveWhateverLoop c vals fs (acc.set f.name v) s
    | (.error e, s) => if e.isBinobj then liveWhateverLoop c vals fs acc s else (.error e, s)

/-- `dict(ChainMap(dct, MutableStructMappingProxy(self)))`, `/repo/binobj/structures.py:472`. -/
def liveChainLoop (c : LiveClass S) (vals : Dict) (dct : Dict) : List String → Prog S Dict
  | [] => Prog.pure (.ok [])
  | k :: ks =>
    let v : Prog S Value := match dct.get? k with
      | some v => Prog.pure (.ok v)
      | none => liveGetItem c vals k
    v.andThen fun v => (liveChainLoop c vals dct ks).andThen fun r => Prog.pure (.ok ((k, v) :: r))

/-- `_to_dict_whatever_possible`, `/repo/binobj/structures.py:444-472`. -/
def liveWhateverPossible (c : LiveClass S) (vals : Dict) : Prog S Dict :=
  (liveWhateverLoop c vals c.desc.components []).andThen fun dct =>
    let own := definedKeys vals
    liveChainLoop c vals dct (own ++ dct.keys.filter fun k => !own.contains k)

/-- The comprehension in `to_dict`, `/repo/binobj/structures.py:429-435`. -/
def liveMissingLoop (c : LiveClass S) (dct : Dict) : List Field → Prog S Dict
  | [] => Prog.pure (.ok [])
  | f :: fs =>
    if dct.contains f.name then liveMissingLoop c dct fs
    else (c.computeValueForDump f.base dct.view.live .none).andThen fun v =>
      (liveMissingLoop c dct fs).andThen fun r => Prog.pure (.ok ((f.name, v) :: r))

/-- `to_dict` up to the conversion of nested values, `/repo/binobj/structures.py:428-440`, with `keep_discardable=False`. -/
def liveToDictShallow (c : LiveClass S) (vals : Dict) : Prog S Dict :=
  (liveWhateverPossible c vals).andThen fun dct =>
    (liveMissingLoop c dct c.desc.components).andThen fun more =>
      Prog.pure (.ok ((c.desc.components.filter (·.base.discard)).foldl (fun dct f => dct.erase f.name) (dct.update more)))

/-- Map over a list, stopping at the first exception. -/
def liveMapE {α β : Type} (g : α → Prog S β) : List α → Prog S (List β)
  | [] => Prog.pure (.ok [])
  | a :: r => (g a).andThen fun b => (liveMapE g r).andThen fun bs => Prog.pure (.ok (b :: bs))

/-- Map over the values of a dictionary. -/
def liveMapDictE (g : Value → Prog S Value) (d : Dict) : Prog S Dict :=
  liveMapE (fun p => (g p.2).andThen fun v => Prog.pure (.ok (p.1, v))) d

/-- `recursive_to_dicts`, `/repo/binobj/structures.py:291-305`. -/
def liveToDicts (C : LiveClasses S) : Nat → Value → Prog S Value
  | 0, _ => Prog.pure (.error .outOfFuel)
  | n + 1, v =>
    match v with
    | .struct cls vals =>
      match C cls with
      | none => Prog.pure (.error .attributeErr)
      | some c =>
        (liveToDictShallow c vals).andThen fun dct =>
          (liveMapDictE (liveToDicts C n) dct).andThen fun r => Prog.pure (.ok (.dict r))
    | .dict dct => (liveMapDictE (liveToDicts C n) dct).andThen fun r => Prog.pure (.ok (.dict r))
    | .list l => (liveMapE (liveToDicts C n) l).andThen fun r => Prog.pure (.ok (.list r))
    | v => Prog.pure (.ok v)

/-- `Struct.to_dict`, `/repo/binobj/structures.py:401-442`. -/
def liveToDict (C : LiveClasses S) (n : Nat) (c : LiveClass S) (vals : Dict) : Prog S Dict :=
  (liveToDictShallow c vals).andThen fun dct => liveMapDictE (liveToDicts C n) dct

/-- The loop of `Struct.to_stream`, `/repo/binobj/structures.py:382-385`: what is written, and the state afterwards. -/
def liveDumpFields (c : LiveClass S) (toStream : Field → Value → W) (all : Dict) (ctx : Value) : List Field → S → W × S
  | [], s => (W.ok [], s)
  | f :: fs, s =>
    match c.computeValueForDump f.base all.view.live ctx s with
    | (.error e, s) => (W.fail e, s)
    | (.ok v, s) =>
      if v = .notPresent then liveDumpFields c toStream all ctx fs s
      else
        match (toStream f v).2 with
        | .error _ => (toStream f v, s)
        | .ok _ =>
          let rest := liveDumpFields c toStream all ctx fs s
          (((toStream f v).1 ++ rest.1.1, rest.1.2), rest.2)

/-- The classes without their callables. -/
def LiveClasses.plain (C : LiveClasses S) : Classes := fun cls => (C cls).map (·.desc)

/-- `Struct.to_stream(stream, context)` of the instance with `__values__ = vals`, `/repo/binobj/structures.py:366-385`: what
is written, how it ended, and the state of the world afterwards. -/
def liveToStream (C : LiveClasses S) (n : Nat) (c : LiveClass S) (vals : Dict) (ctx : Value) (s : S) : W × S :=
  match liveValidate c vals s with
  | (.error e, s) => (W.fail e, s)
  | (.ok _, s) =>
    match liveToDict C n c vals s with
    | (.error e, s) => (W.fail e, s)
    | (.ok all, s) => liveDumpFields c (fun f v => fieldToStream C.plain n f v ctx all) all ctx c.desc.components s

end Verif
