import Verif.Model.Field

/-!
# Structs: values, dictionaries, equality and dumping

`/repo/binobj/structures.py` and the dumping half of `/repo/binobj/fields/base.py` and `/repo/binobj/fields/containers.py`.

Nested structs make the code recursive through the class table, and user callables may produce arbitrarily nested values,
so functions that recurse take a fuel; fuel exhaustion is the value `Err.outOfFuel`, which no handler catches.  "The call
returns `r`" means: some fuel gives `r` and `r` is not `outOfFuel`; more fuel then gives the same `r` (proved in
`Verif.Proofs.Fuel`).
-/

namespace Verif

/-- `StructMetadata`, `/repo/binobj/structures.py:48-102`.  `components` is in dictionary order, each field under its own
name.  `fieldValidators` maps field names to validator methods (called with the struct and the value), `structValidators`
are called with the struct. -/
structure StructDesc where
  name : String
  components : List Field
  fieldValidators : List (String × List (View → Value → Except Err Unit)) := []
  structValidators : List (View → Except Err Unit) := []
  numOwnFields : Nat := 0
  argumentDefaults : List (String × Endian) := []
  /-- The class attribute `Meta` as a subclass sees it: its `argument_defaults`.  The only constructor argument that
  the built-in fields let a struct override is `endian` (numeric.py:175), so the values are byte orders. -/
  metaOpts : Option (List (String × Endian)) := none
  /-- `size_bytes`, structures.py:85-93, used by the PEP 526 decorator only. -/
  sizeBytes : Option Int := some 0

/-- The Struct classes of the program. -/
abbrev Classes := String → Option StructDesc

/-- `components[name]` -/
def StructDesc.find? (d : StructDesc) (name : String) : Option Field := d.components.find? (fun f => f.name = name)

/-- `name in components` -/
def StructDesc.has (d : StructDesc) (name : String) : Bool := (d.find? name).isSome

/-- `iter(struct)`: names with a value that is not `UNDEFINED`, `/repo/binobj/structures.py:756-759`. -/
def definedKeys (vals : Dict) : List String := Dict.keys (vals.filter fun p => decide (p.2 ≠ .undefined))

/-- `name in struct` (no `__contains__`: Python iterates). -/
def structContains (vals : Dict) (name : String) : Bool := (definedKeys vals).contains name

/-- `struct[name]` (`__getitem__`, `/repo/binobj/structures.py:735-740`) through `Field.__get__`
(`/repo/binobj/fields/base.py:1015-1020`).  Computing one field may read others; the callables are pure, so a chain longer
than the number of components repeats a field and never ends: `RecursionError`. -/
def structGet (d : StructDesc) (vals : Dict) : Nat → String → Except Err Value
  | 0, _ => .error .recursionErr
  | n + 1, name =>
    match d.find? name with
    | none => .error (.keyErr name)
    | some f =>
      match vals.get? name with
      | some v => .ok v
      | none =>
        f.base.computeValueForDump ⟨structContains vals, structGet d vals n⟩ .none

/-- `struct[name]` with the whole recursion depth available. -/
def structGetItem (d : StructDesc) (vals : Dict) (name : String) : Except Err Value :=
  structGet d vals (d.components.length + 1) name

/-- A struct instance as user callables see it. -/
def structView (d : StructDesc) (vals : Dict) : View where
  contains := structContains vals
  get := structGetItem d vals

/-- `Struct.__init__`, `/repo/binobj/structures.py:335-340`: the new instance's `__values__`. -/
def structInit (d : StructDesc) (kwargs : Dict) : Except Err Dict :=
  let extra := kwargs.keys.filter fun k => !d.has k
  if extra ≠ [] then .error (.unexpectedValue extra) else .ok kwargs

/-- Run a list of checks in order, stopping at the first failure. -/
def runAll {α : Type} (check : α → Except Err Unit) : List α → Except Err Unit
  | [] => .ok ()
  | a :: r =>
    match check a with
    | .error e => .error e
    | .ok _ => runAll check r

/-- The checks of one field in `validate_contents`, `/repo/binobj/structures.py:349-360`. -/
def validateField (d : StructDesc) (vals : Dict)
    (p : String × List (View → Value → Except Err Unit)) : Except Err Unit :=
  match d.find? p.1 with
  | none => .error (.keyErr p.1)
  | some f =>
    match structGetItem d vals p.1 with
    | .error e => .error e
    | .ok v =>
      match runValidators f.base.validators v with
      | .error e => .error e
      | .ok _ => runAll (fun m => m (structView d vals) v) p.2

/-- `validate_contents`, `/repo/binobj/structures.py:342-364`. -/
def validateContents (d : StructDesc) (vals : Dict) : Except Err Unit :=
  match runAll (validateField d vals) d.fieldValidators with
  | .error e => .error e
  | .ok _ => runAll (fun v => v (structView d vals)) d.structValidators

/-- The loop of `_to_dict_whatever_possible`, `/repo/binobj/structures.py:451-470`: every exception of the library is
swallowed (some with a warning), anything else propagates. -/
def whateverLoop (d : StructDesc) (vals : Dict) : List Field → Dict → Except Err Dict
  | [], acc => .ok acc
  | f :: fs, acc =>
    match f.base.computeValueForDump (structView d vals) .none with
    | .ok v => whateverLoop d vals fs (acc.set f.name v)
    | .error e => if e.isBinobj then whateverLoop d vals fs acc else .error e

/-- `dict(ChainMap(dct, MutableStructMappingProxy(self)))`, `/repo/binobj/structures.py:472`: the struct's own keys first,
then the rest of `dct`; values from `dct` where it has them. -/
def chainLoop (d : StructDesc) (vals dct : Dict) : List String → Except Err Dict
  | [] => .ok []
  | k :: ks =>
    let v : Except Err Value := match dct.get? k with
      | some v => .ok v
      | none => structGetItem d vals k
    match v with
    | .error e => .error e
    | .ok v =>
      match chainLoop d vals dct ks with
      | .error e => .error e
      | .ok r => .ok ((k, v) :: r)

/-- `_to_dict_whatever_possible`, `/repo/binobj/structures.py:444-472`. -/
def whateverPossible (d : StructDesc) (vals : Dict) : Except Err Dict :=
  match whateverLoop d vals d.components [] with
  | .error e => .error e
  | .ok dct =>
    let own := definedKeys vals
    chainLoop d vals dct (own ++ dct.keys.filter fun k => !own.contains k)

/-- The comprehension in `to_dict`, `/repo/binobj/structures.py:429-435`: values of the components missing from `dct`. -/
def missingLoop (dct : Dict) : List Field → Except Err Dict
  | [] => .ok []
  | f :: fs =>
    if dct.contains f.name then missingLoop dct fs
    else
      match f.base.computeValueForDump dct.view .none with
      | .error e => .error e
      | .ok v =>
        match missingLoop dct fs with
        | .error e => .error e
        | .ok r => .ok ((f.name, v) :: r)

/-- `to_dict` up to the conversion of nested values, `/repo/binobj/structures.py:428-440`. -/
def toDictShallow (d : StructDesc) (vals : Dict) (keepDiscardable : Bool) : Except Err Dict :=
  match whateverPossible d vals with
  | .error e => .error e
  | .ok dct =>
    match missingLoop dct d.components with
    | .error e => .error e
    | .ok more =>
      let dct := dct.update more
      .ok (if keepDiscardable then dct
        else (d.components.filter (·.base.discard)).foldl (fun dct f => dct.erase f.name) dct)

/-- Map over a list, stopping at the first exception. -/
def mapE {α β : Type} (g : α → Except Err β) : List α → Except Err (List β)
  | [] => .ok []
  | a :: r =>
    match g a with
    | .error e => .error e
    | .ok b =>
      match mapE g r with
      | .error e => .error e
      | .ok bs => .ok (b :: bs)

/-- Map over the values of a dictionary. -/
def mapDictE (g : Value → Except Err Value) (d : Dict) : Except Err Dict :=
  mapE (fun p => (g p.2).map fun v => (p.1, v)) d

/-- `recursive_to_dicts`, `/repo/binobj/structures.py:291-305`. -/
def recursiveToDicts (Γ : Classes) : Nat → Value → Except Err Value
  | 0, _ => .error .outOfFuel
  | n + 1, v =>
    match v with
    | .struct cls vals =>
      match Γ cls with
      | none => .error .attributeErr
      | some d =>
        match toDictShallow d vals false with
        | .error e => .error e
        | .ok dct => (mapDictE (recursiveToDicts Γ n) dct).map .dict
    | .dict dct => (mapDictE (recursiveToDicts Γ n) dct).map .dict
    | .list l => (mapE (recursiveToDicts Γ n) l).map .list
    | v => .ok v

/-- `Struct.to_dict`, `/repo/binobj/structures.py:401-442`. -/
def structToDict (Γ : Classes) (n : Nat) (d : StructDesc) (vals : Dict) (keepDiscardable : Bool := false) :
    Except Err Dict :=
  match toDictShallow d vals keepDiscardable with
  | .error e => .error e
  | .ok dct => mapDictE (recursiveToDicts Γ n) dct

/-! ### Dumping -/

/-- `Array.get_final_element_count`, `/repo/binobj/fields/containers.py:120-168`.  Simplification: a referenced value that is
neither an `int` nor `None` raises `TypeError` here instead of at its first use. -/
def finalElementCount (count : Count) (values : Dict) : Except Err (Option Int) :=
  match count with
  | .none => .ok none
  | .fixed n => .ok (some n)
  | .ref name =>
    if name = "" then .error .configuration
    else
      match values.get? name with
      | none => .error (.fieldReference name)
      | some (.int i) => .ok (some i)
      | some .none => .ok none
      | some _ => .error .typeErr

/-- Elements of a value `Array` can iterate over, and whether the value is `Sized`.  (A struct instance, which iterates over
its field names but has its byte size as `len()`, is treated as not iterable.) -/
def arrayElements : Value → Option (Bool × List Value)
  | .list l => some (true, l)
  | .iter l => some (false, l)
  | .bytes b => some (true, b.map fun x => .int x.toNat)
  | .str s => some (true, s.map fun c => .str [c])
  | .dict d => some (true, (Dict.keys d).map fun k => .str (k.toList.map Char.toNat))
  | _ => none

/-- `for value in data: self.component.to_stream(...)`, `/repo/binobj/fields/containers.py:269-270`. -/
def dumpAll (toStream : Value → W) : List Value → W
  | [] => W.ok []
  | v :: vs => (toStream v).seq fun _ => dumpAll toStream vs

/-- `Array._dump_unsized`, `/repo/binobj/fields/containers.py:272-298`. -/
def dumpUnsized (name : String) (toStream : Value → W) (nElems : Option Int) : (nWritten : Nat) → List Value → W
  | nWritten, [] =>
    match nElems with
    | some n => if (nWritten : Int) < n then W.fail (.arraySize name n nWritten) else W.ok []
    | none => W.ok []
  | nWritten, v :: vs =>
    if some (nWritten : Int) = nElems then W.fail (.arraySize name nWritten (nWritten + 1))
    else (toStream v).seq fun _ => dumpUnsized name toStream nElems (nWritten + 1) vs

/-- `Array._do_dump`, `/repo/binobj/fields/containers.py:239-270`. -/
def arrayDump (name : String) (toStream : Value → W) (count : Count) (data : Value) (all : Dict) : W :=
  match finalElementCount count all with
  | .error e => W.fail e
  | .ok nElems =>
    match arrayElements data with
    | none => W.fail .typeErr
    | some (false, elems) => dumpUnsized name toStream nElems 0 elems
    | some (true, elems) =>
      match nElems with
      | some n =>
        if (elems.length : Int) ≠ n then W.fail (.arraySize name n elems.length) else dumpAll toStream elems
      | none => dumpAll toStream elems

/-- The part of `Field.to_stream` after `_do_dump`: size check and padding, `/repo/binobj/fields/base.py:833-850`. -/
def finishDump (b : FieldBase) (expSize : Except Err Int) (addPadding : Bytes → Int → Except Err Bytes)
    (serialized : Bytes) : W :=
  let expected : Except Err Int :=
    match b.size with
    | .fixed n => .ok n
    | .none => .ok serialized.length
    | .ref _ => expSize
  match expected with
  | .error e => W.fail e
  | .ok n =>
    let sizeDiff := (serialized.length : Int) - n
    if sizeDiff > 0 then W.fail (.valueSize b.name)
    else if sizeDiff < 0 then W.ofExcept (addPadding serialized n)
    else W.ok serialized

/-- `Field.to_stream`, `/repo/binobj/fields/base.py:791-850`, given the field's `_do_dump`, `_get_null_repr`,
`get_expected_size` and `_add_padding` (all applied to the current `context` and `all_fields`). -/
def toStreamWith (b : FieldBase) (doDump : Value → W) (nullRepr : Except Err Bytes) (expSize : Except Err Int)
    (addPadding : Bytes → Int → Except Err Bytes) (data : Value) : W :=
  match (if data = .dflt then b.default else .ok data) with
  | .error e => W.fail e
  | .ok data =>
    if data = .undefined ∨ data = .dflt then W.fail (.missingRequired b.name)
    else
      match runValidators b.validators data with
      | .error e => W.fail e
      | .ok _ =>
        if data = .none then W.ofExcept nullRepr
        else
          match (doDump data).toExcept with
          | .error e => W.fail e
          | .ok serialized => finishDump b expSize addPadding serialized

/-- The loop of `Struct.to_stream`, `/repo/binobj/structures.py:382-385`. -/
def dumpFields (toStream : Field → Value → W) (all : Dict) (ctx : Value) : List Field → W
  | [] => W.ok []
  | f :: fs =>
    match f.base.computeValueForDump all.view ctx with
    | .error e => W.fail e
    | .ok v =>
      if v = .notPresent then dumpFields toStream all ctx fs
      else (toStream f v).seq fun _ => dumpFields toStream all ctx fs

/-- `Struct.to_stream`, `/repo/binobj/structures.py:366-385`, given `Field.to_stream`. -/
def structToStreamWith (Γ : Classes) (n : Nat) (toStream : Field → Value → Dict → W) (d : StructDesc) (vals : Dict)
    (ctx : Value) : W :=
  match validateContents d vals with
  | .error e => W.fail e
  | .ok _ =>
    match structToDict Γ n d vals with
    | .error e => W.fail e
    | .ok all => dumpFields (fun f v => toStream f v all) all ctx d.components

/-- `struct_class(**data).to_stream(stream, context)`, `/repo/binobj/fields/containers.py:364-365, 482`. -/
def dumpNew (Γ : Classes) (structToStream : StructDesc → Dict → Value → W) (cls : String) (kwargs : Dict) (ctx : Value) :
    W :=
  match Γ cls with
  | none => W.fail .attributeErr
  | some d =>
    match structInit d kwargs with
    | .error e => W.fail e
    | .ok vals => structToStream d vals ctx

/-- `_do_dump` of the container fields: Array containers.py:239-298, Nested containers.py:353-365, Union
containers.py:470-487.  `toStream` and `structToStream` are the recursive calls. -/
def containerDump (Γ : Classes) (toStream : Field → Value → Value → Dict → W)
    (structToStream : StructDesc → Dict → Value → W) (f : Field) (data ctx : Value) (all : Dict) : W :=
  match f with
  | .leaf .. => W.fail .typeErr          -- not used
  | .array b comp count _ => arrayDump b.name (fun v => toStream comp v ctx all) count data all
  | .nested _ cls =>
    match data with
    | .struct c vals =>
      match Γ c with
      | none => W.fail .attributeErr
      | some d => structToStream d vals ctx
    | .dict kwargs => dumpNew Γ structToStream cls kwargs ctx
    | _ => W.fail .typeErr
  | .union _ choices _ decider =>
    match decider data ctx all with
    | .error e => W.fail e
    | .ok i =>
      match choices[i]? with
      | none => W.fail .typeErr
      | some (.inl g) => toStream g data ctx all
      | some (.inr cls) =>
        match data with
        | .dict kwargs => dumpNew Γ structToStream cls kwargs ctx
        | _ => W.fail .typeErr

/-- `_size_for_value` of the container fields: the base implementation, `/repo/binobj/fields/base.py:545-566`. -/
def baseSizeForValue (b : FieldBase) (_ : Value) : Except Err (Option Int) :=
  match b.size with
  | .fixed n => .ok (some n)
  | _ => .ok none

/-- `get_expected_size` of a container field given its `_do_dump` (no container's `_do_dump` asks for its own expected size,
so only `null_value=DEFAULT` recurses). -/
def containerExpectedSize (b : FieldBase) (dumpNull : Value → W) (values : Dict) : Except Err Int :=
  b.expectedSizeWith (baseSizeForValue b) (b.nullReprWith dumpNull (.error (.buggyField b.name))) values

/-- `_get_null_repr` of a container field given its `_do_dump`. -/
def containerNullRepr (b : FieldBase) (dumpNull : Value → W) (values : Dict) : Except Err Bytes :=
  b.nullReprWith dumpNull (containerExpectedSize b dumpNull values)

mutual
/-- `Field.to_stream(data, context, all_fields)`: what is written to the stream, `/repo/binobj/fields/base.py:791-850`. -/
def fieldToStream (Γ : Classes) : Nat → Field → Value → (ctx : Value) → Dict → W
  | 0, _, _, _, _ => W.fail .outOfFuel
  | n + 1, f, data, ctx, all =>
    match f with
    | .leaf b k =>
      toStreamWith b (fun v => leafDump b k (leafExpectedSize b k all) v ctx all) (leafNullRepr b k all)
        (leafExpectedSize b k all) (leafAddPadding b k) data
    | f =>
      let dump := containerDump Γ (fieldToStream Γ n) (structToStream Γ n) f
      toStreamWith f.base (fun v => dump v ctx all)
        (containerNullRepr f.base (fun v => dump v .none all) all)
        (containerExpectedSize f.base (fun v => dump v .none all) all)
        (fun _ _ => .error (.valueSize f.name)) data
/-- `Struct.to_stream(stream, context)` of the instance with `__values__ = vals`, `/repo/binobj/structures.py:366-385`. -/
def structToStream (Γ : Classes) : Nat → StructDesc → Dict → (ctx : Value) → W
  | 0, _, _, _ => W.fail .outOfFuel
  | n + 1, d, vals, ctx =>
    structToStreamWith Γ n (fun f v all => fieldToStream Γ n f v ctx all) d vals ctx
end

/-- `_do_dump` of any field. -/
def fieldDoDump (Γ : Classes) (n : Nat) (f : Field) (data ctx : Value) (all : Dict) : W :=
  match f with
  | .leaf b k => leafDump b k (leafExpectedSize b k all) data ctx all
  | f => containerDump Γ (fieldToStream Γ n) (structToStream Γ n) f data ctx all

/-- `get_expected_size` of any field, `/repo/binobj/fields/base.py:578-656`. -/
def fieldExpectedSize (Γ : Classes) (n : Nat) (f : Field) (values : Dict) : Except Err Int :=
  match f with
  | .leaf b k => leafExpectedSize b k values
  | f => containerExpectedSize f.base (fun v => fieldDoDump Γ n f v .none values) values

/-- `_get_null_repr` of any field, `/repo/binobj/fields/base.py:910-963`. -/
def fieldNullRepr (Γ : Classes) (n : Nat) (f : Field) (values : Dict) : Except Err Bytes :=
  match f with
  | .leaf b k => leafNullRepr b k values
  | f => containerNullRepr f.base (fun v => fieldDoDump Γ n f v .none values) values

/-- `Field.to_bytes`, `/repo/binobj/fields/base.py:866-889`. -/
def fieldToBytes (Γ : Classes) (n : Nat) (f : Field) (data ctx : Value) (all : Dict := []) : Except Err Bytes :=
  (fieldToStream Γ n f data ctx all).toExcept

/-- `Struct.to_bytes`, `/repo/binobj/structures.py:387-399`. -/
def structToBytes (Γ : Classes) (n : Nat) (d : StructDesc) (vals : Dict) (ctx : Value) : Except Err Bytes :=
  (structToStream Γ n d vals ctx).toExcept

end Verif
