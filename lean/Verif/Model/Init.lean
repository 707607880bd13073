import Verif.Model.Struct

/-!
# Field constructors

`Field.__init__` (`/repo/binobj/fields/base.py:257-320`) and the constructors of the built-in field classes.  A constructor
returns the new field or the exception it raises.  `sysOrder` is `sys.byteorder`.
-/

namespace Verif

/-- Keyword arguments of `Field.__init__`, `/repo/binobj/fields/base.py:267-280`.  `dflt` is a non-callable `default`,
`dfltFn` a callable one; `explicit` are the names of all keyword arguments of the constructor call (`__new__`,
base.py:257-265). -/
structure FieldArgs where
  name : String := ""
  const : Value := .undefined
  dflt : Value := .undefined
  dfltFn : Option (Except Err Value) := none
  factory : Option (Except Err Value) := none
  discard : Bool := false
  nullValue : Value := .undefined
  size : FSize := .none
  validate : List (Value → Except Err Unit) := []
  present : View → (ctx : Value) → Option Stream → Except Err Bool := fun _ _ _ => .ok true
  notPresentValue : Value := .notPresent
  explicit : List String := []

/-- `Field.__init__`, `/repo/binobj/fields/base.py:267-320`.  `sizeForConst` is `_size_for_value` as it behaves inside the
constructor (where `_size` is not yet set). -/
def fieldInit (typeName : String) (sizeForConst : Value → Except Err (Option Int)) (a : FieldArgs) :
    Except Err FieldBase :=
  if a.factory.isSome ∧ (a.dflt ≠ .undefined ∨ a.dfltFn.isSome) then .error .configuration
  else
    let b : FieldBase :=
      { name := a.name, typeName := typeName, const := a.const
        dflt := if a.dflt = .undefined ∧ a.dfltFn = none ∧ a.const ≠ .undefined then a.const else a.dflt
        factory := if a.dfltFn.isSome then a.dfltFn else a.factory
        discard := a.discard, nullValue := a.nullValue, size := a.size, validators := a.validate
        present := a.present, notPresentValue := a.notPresentValue, explicit := a.explicit }
    if a.size ≠ .none ∨ a.const = .undefined then .ok b
    else
      match sizeForConst a.const with
      | .error e => .error e
      | .ok none => .ok b
      | .ok (some n) => .ok { b with size := .fixed n }

/-- `_size_for_value` inside the constructor.  The base implementation (`/repo/binobj/fields/base.py:545-566`) reads
`self._size`, which does not exist yet: `AttributeError`. -/
def constSize (k : Leaf) (v : Value) : Except Err (Option Int) :=
  match k with
  | .varint .. | .bytes | .string .. | .stringz .. => leafSizeForValue {} k v
  | .custom ops =>
    match ops.sizeFor with
    | some f => f v
    | none => .error .attributeErr
  | _ => .error .attributeErr

/-- Construct a field that contains no other field. -/
def mkLeaf (typeName : String) (k : Leaf) (a : FieldArgs) : Except Err Field :=
  (fieldInit typeName (constSize k) a).map fun b => .leaf b k

/-- `Integer`, numeric.py:177-186, and its subclasses of fixed size, numeric.py:277-343: `typeName` and `size` are those
of the class (`Int16`: 2, …; for `Integer` and `UnsignedInteger` the size is the caller's). -/
def mkInteger (sysOrder : Endian) (typeName : String) (size : FSize) (signed : Bool) (endian : Option Endian)
    (a : FieldArgs) : Except Err Field :=
  mkLeaf typeName (.integer signed (endian.getD sysOrder)) { a with size := size }

/-- `VariableLengthInteger`, numeric.py:225-247. -/
def mkVarInt (enc : VarIntEncoding) (maxBytes : Option Int) (a : FieldArgs) : Except Err Field :=
  mkLeaf "VariableLengthInteger" (.varint enc maxBytes) a

/-- `Float16`, `Float32`, `Float64`, numeric.py:72-89, 118-145. -/
def mkFloat (sysOrder : Endian) (typeName : String) (fmt : FloatFmt) (endian : Option Endian) (a : FieldArgs) :
    Except Err Field :=
  mkLeaf typeName (.float fmt (endian.getD sysOrder)) { a with size := .fixed fmt.bytes }

/-- `Timestamp`, `Timestamp32`, `Timestamp64`, numeric.py:395-422, 476-495. -/
def mkTimestamp (sysOrder : Endian) (typeName : String) (size : FSize) (res : Resolution) (tzAware signed : Bool)
    (endian : Option Endian) (a : FieldArgs) : Except Err Field :=
  mkLeaf typeName (.timestamp res tzAware signed (endian.getD sysOrder)) { a with size := size }

/-- `Bytes`, stringlike.py:29-49. -/
def mkBytes (a : FieldArgs) : Except Err Field := mkLeaf "Bytes" .bytes a

/-- `String`, stringlike.py:80-99. -/
def mkString (codec : CharCodec) (pad : Option Bytes) (a : FieldArgs) : Except Err Field :=
  match pad with
  | none => mkLeaf "String" (.string codec none) a
  | some [p] => mkLeaf "String" (.string codec (some p)) a
  | some _ => .error .configuration

/-- `StringZ`, stringlike.py:80-99, 152-189. -/
def mkStringZ (codec : CharCodec) (pad : Option Bytes) (a : FieldArgs) : Except Err Field :=
  match pad with
  | none => mkLeaf "StringZ" (.stringz codec none) a
  | some [p] => mkLeaf "StringZ" (.stringz codec (some p)) a
  | some _ => .error .configuration

/-- `UUID4`, stringlike.py:228-243. -/
def mkUUID (fmt : UUIDFormat) (a : FieldArgs) : Except Err Field :=
  mkLeaf "UUID4" (.uuid fmt) { a with size := .fixed fmt.size }

/-- Replace the attributes of a field. -/
def Field.withBase (f : Field) (b : FieldBase) : Field :=
  match f with
  | .leaf _ k => .leaf b k
  | .array _ c n h => .array b c n h
  | .nested _ c => .nested b c
  | .union _ c l d => .union b c l d

/-- `maybe_assign_name`, `/repo/binobj/fields/base.py:1040-1051`. -/
def maybeAssignName (f : Field) (name : String) : Except Err Field :=
  if f.name = "" then .ok (f.withBase { f.base with name := name })
  else if name ≠ f.name then .error .configuration
  else .ok f

/-- `Array.__init__`, `/repo/binobj/fields/containers.py:96-118`. -/
def mkArray (component : Field) (count : Count)
    (halt : Option (Stream → List Value → (ctx : Value) → Dict → Except Err (Bool × List Value))) (a : FieldArgs) : Except Err Field :=
  match fieldInit "Array" (fun _ => .error .attributeErr) a with
  | .error e => .error e
  | .ok b =>
    match maybeAssignName component b.name with
    | .error e => .error e
    | .ok component =>
      match count, component.base.size with
      | .fixed n, .fixed k => .ok (.array { b with size := .fixed (n * k) } component count halt)
      | _, _ => .ok (.array b component count halt)

/-- `Nested.__init__`, `/repo/binobj/fields/containers.py:347-350`. -/
def mkNested (Γ : Classes) (n : Nat) (cls : String) (a : FieldArgs) : Except Err Field :=
  match fieldInit "Nested" (fun _ => .error .attributeErr) a with
  | .error e => .error e
  | .ok b =>
    match Γ cls with
    | none => .error .attributeErr
    | some d =>
      match structGetSize Γ n d [] with
      | .error e => .error e
      | .ok none => .ok (.nested { b with size := .none } cls)
      | .ok (some k) => .ok (.nested { b with size := .fixed k } cls)

/-- `Union.__init__`, `/repo/binobj/fields/containers.py:452-468` (choices that are field classes cannot be expressed). -/
def mkUnion (choices : List (Field ⊕ String)) (loadDecider : Stream → (ctx : Value) → Dict → Except Err Nat)
    (dumpDecider : Value → (ctx : Value) → Dict → Except Err Nat) (a : FieldArgs) : Except Err Field :=
  (fieldInit "Union" (fun _ => .error .attributeErr) a).map fun b => .union b choices loadDecider dumpDecider

/-- `field.computes(method)`, `/repo/binobj/fields/base.py:462-506`. -/
def fieldComputes (f : Field) (fn : View → Except Err Value) : Except Err Field :=
  if f.base.computeFn.isSome then .error .configuration
  else if f.base.const ≠ .undefined then .error .configuration
  else .ok (f.withBase { f.base with computeFn := some fn })

end Verif
