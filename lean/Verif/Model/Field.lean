import Verif.Model.Value
import Verif.Model.Helpers
import Verif.Model.VarInt
import Verif.Model.Codec
import Verif.Model.UUID
import Verif.Model.Float
import Verif.Model.Timestamp

/-!
# Fields: attributes, and the field types that contain no other field

`/repo/binobj/fields/base.py`, `/repo/binobj/fields/numeric.py`, `/repo/binobj/fields/stringlike.py`.

Everything the user passes as a callable (validators, `present`, `factory`, compute functions, deciders, halt checks) is
an arbitrary *pure* function here: it may raise (return `Except.error`), but it neither moves the stream nor mutates
anything.
-/

namespace Verif

/-- What user callables see as `all_fields` / `loaded_fields`: a dictionary, or a `Struct` instance used like one. -/
structure View where
  contains : String → Bool
  get : String → Except Err Value

/-- A dictionary as a `View`. -/
def Dict.view (d : Dict) : View where
  contains k := d.contains k
  get k := match d.get? k with
    | some v => .ok v
    | none => .error (.keyErr k)

/-- What an operation wrote to its output stream before it returned or raised. -/
abbrev W := Bytes × Except Err Unit

namespace W
def ok (b : Bytes) : W := (b, .ok ())
def fail (e : Err) : W := ([], .error e)
/-- `a; b` -/
def seq (a : W) (b : Unit → W) : W :=
  match a.2 with
  | .error _ => a
  | .ok _ => (a.1 ++ (b ()).1, (b ()).2)
/-- Compute first (may raise), then write. -/
def ofExcept : Except Err Bytes → W
  | .ok b => ok b
  | .error e => fail e
/-- Contents of a fresh `BytesIO` the operation wrote into, or the exception. -/
def toExcept (a : W) : Except Err Bytes :=
  match a.2 with
  | .error e => .error e
  | .ok _ => .ok a.1
end W

/-- Result of a loader: a value or an exception, and the stream afterwards. -/
abbrev R (α : Type) := Except Err α × Stream

/-- Apply a function to the value of a successful result. -/
def R.map {α β : Type} (r : R α) (g : α → β) : R β := (r.1.map g, r.2)

/-- Continue with a computation that may raise but leaves the stream alone. -/
def R.andThen {α β : Type} (r : R α) (g : α → Except Err β) : R β := (r.1.bind g, r.2)

/-- The `size` argument: `None`, an `int`, or (the name of) another field.  `/repo/binobj/fields/base.py:276, 322-331` -/
inductive FSize where
  | none
  | fixed (n : Int)
  | ref (name : String)
  deriving DecidableEq, Repr, Inhabited

/-- A user-defined field type without children: overrides of `_do_dump`, `_do_load`, `_size_for_value` and
`_add_padding`. -/
structure CustomOps where
  dump : Value → (ctx : Value) → Dict → W
  load : Stream → (ctx : Value) → Dict → Except Err Value × Stream
  sizeFor : Option (Value → Except Err (Option Int)) := none
  pad : Option (Bytes → Int → Except Err Bytes) := none

/-- Field types that contain no other field. -/
inductive Leaf where
  | float (fmt : FloatFmt) (endian : Endian)                          -- numeric.py:56-145
  | integer (signed : Bool) (endian : Endian)                         -- numeric.py:148-212, 277-343
  | varint (enc : VarIntEncoding) (maxBytes : Option Int)             -- numeric.py:215-274
  | timestamp (res : Resolution) (tzAware signed : Bool) (endian : Endian)   -- numeric.py:346-495
  | bytes                                                             -- stringlike.py:29-49
  | string (codec : CharCodec) (padByte : Option UInt8)               -- stringlike.py:52-149
  | stringz (codec : CharCodec) (padByte : Option UInt8)              -- stringlike.py:152-189
  | uuid (fmt : UUIDFormat)                                           -- stringlike.py:220-274
  | custom (ops : CustomOps)

/-- Attributes common to all fields, `/repo/binobj/fields/base.py:267-320`.  `const`, `dflt` (`_default`) and `nullValue`
use `Value.undefined` for "not given", as the code does.  `name = ""` stands for `None` (a field that was never bound). -/
structure FieldBase where
  name : String := ""
  typeName : String := ""                   -- `type(self).__name__`, used by `bind_to_container`
  const : Value := .undefined
  dflt : Value := .undefined
  factory : Option (Except Err Value) := none
  discard : Bool := false
  nullValue : Value := .undefined
  size : FSize := .none
  validators : List (Value → Except Err Unit) := []
  present : View → (ctx : Value) → Option Stream → Except Err Bool := fun _ _ _ => .ok true
  notPresentValue : Value := .notPresent
  computeFn : Option (View → Except Err Value) := none
  index : Nat := 0
  offset : Option Int := none
  explicit : List String := []              -- `__explicit_init_args__`, base.py:257-265

/-- The `count` argument of `Array`, `/repo/binobj/fields/containers.py:100`. -/
inductive Count where
  | none
  | fixed (n : Int)
  | ref (name : String)
  deriving DecidableEq, Repr, Inhabited

/-- A field: its attributes and its type. -/
inductive Field where
  | leaf (base : FieldBase) (k : Leaf)
  /-- containers.py:62-324; `halt` is a user-supplied `halt_check`: whether to stop, and the list of values, which it may have
  changed. -/
  | array (base : FieldBase) (component : Field) (count : Count)
      (halt : Option (Stream → List Value → (ctx : Value) → Dict → Except Err (Bool × List Value)))
  /-- containers.py:327-371; the struct class is given by name and looked up in the class table. -/
  | nested (base : FieldBase) (cls : String)
  /-- containers.py:374-501; choices are fields (`inl`) or struct classes (`inr`), deciders return the index of a choice
  (out of range: something that is neither a field nor a struct class). -/
  | union (base : FieldBase) (choices : List (Field ⊕ String))
      (loadDecider : Stream → (ctx : Value) → Dict → Except Err Nat)
      (dumpDecider : Value → (ctx : Value) → Dict → Except Err Nat)

def Field.base : Field → FieldBase
  | .leaf b _ | .array b .. | .nested b _ | .union b .. => b

def Field.name (f : Field) : String := f.base.name

/-- `has_fixed_size`, `/repo/binobj/fields/base.py:333-339`. -/
def FieldBase.hasFixedSize (b : FieldBase) : Bool :=
  match b.size with
  | .fixed _ => true
  | _ => false

/-- `allow_null`, `/repo/binobj/fields/base.py:517-523`. -/
def FieldBase.allowNull (b : FieldBase) : Bool := b.nullValue ≠ .undefined

/-- the `default` property, `/repo/binobj/fields/base.py:525-535`. -/
def FieldBase.default (b : FieldBase) : Except Err Value :=
  match b.factory with
  | some r => r
  | none => .ok b.dflt

/-- `required`, `/repo/binobj/fields/base.py:537-543`. -/
def FieldBase.required (b : FieldBase) : Except Err Bool :=
  if b.const ≠ .undefined then .ok false
  else
    match b.default with
    | .error e => .error e
    | .ok v => .ok (v = .undefined)

/-- Run validators in order, stopping at the first failure (base.py:702-703, 729-730, 823-824, 1026-1027). -/
def runValidators (vs : List (Value → Except Err Unit)) (v : Value) : Except Err Unit :=
  match vs with
  | [] => .ok ()
  | f :: r =>
    match f v with
    | .error e => .error e
    | .ok _ => runValidators r v

/-- `compute_value_for_dump`, `/repo/binobj/fields/base.py:400-460`. -/
def FieldBase.computeValueForDump (b : FieldBase) (all : View) (ctx : Value) : Except Err Value :=
  let value : Except Err Value :=
    if all.contains b.name then all.get b.name
    else if b.dflt ≠ .undefined then b.default
    else
      match b.computeFn with
      | some fn => fn all
      | none => .ok .undefined
  match value with
  | .error e => .error e
  | .ok v =>
    if v = .notPresent then .ok .notPresent
    else
      match b.present all ctx none with
      | .error e => .error e
      | .ok false => .ok .notPresent
      | .ok true => if v = .undefined then .error (.missingRequired b.name) else .ok v

/-- `_size_for_value`: base implementation `/repo/binobj/fields/base.py:545-566`; overrides `numeric.py:273-274`,
`stringlike.py:48-49, 148-149, 188-189`.  Ill-typed values raise `TypeError`. -/
def leafSizeForValue (b : FieldBase) (k : Leaf) (v : Value) : Except Err (Option Int) :=
  let dflt : Except Err (Option Int) :=
    match b.size with
    | .fixed n => .ok (some n)
    | _ => .ok none
  match k, v with
  | .varint enc _, .int i => (enc.encode i).map fun bs => some (bs.length : Int)
  | .varint .., _ => .error .typeErr
  | .bytes, .bytes bs => .ok (some bs.length)
  | .bytes, _ => .error .typeErr
  | .string codec _, .str s => (codec.encode s).map fun bs => some (bs.length : Int)
  | .string .., _ => .error .attributeErr
  | .stringz codec _, .str s => (codec.encode (s ++ [0])).map fun bs => some (bs.length : Int)
  | .stringz .., _ => .error .typeErr
  | .custom ops, v =>
    match ops.sizeFor with
    | some f => f v
    | none => dflt
  | _, _ => dflt

/-- Turn the `ValueError`/`OverflowError` of an integer conversion into `UnserializableValueError`
(numeric.py:209-212, 263-266, 469-473). -/
def unserializableOnRange (name : String) (r : Except Err Bytes) : Except Err Bytes :=
  match r with
  | .ok b => .ok b
  | .error e => if e.isValueErr ∨ e = .overflowErr then .error (.unserializable name) else .error e

/-- `String._encode_and_resize`, `/repo/binobj/fields/stringlike.py:116-141`. -/
def encodeAndResize (name : String) (codec : CharCodec) (pad : Option UInt8) (s : List Nat)
    (expSize : Except Err Int) : Except Err Bytes :=
  match codec.encode s with
  | .error e => .error e
  | .ok toDump =>
    match expSize with
    | .error e => .error e
    | .ok writeSize =>
      let sizeDiff := (toDump.length : Int) - writeSize
      if sizeDiff > 0 then .error (.valueSize name)
      else if sizeDiff < 0 then
        match pad with
        | none => .error (.valueSize name)
        | some p => .ok (toDump ++ List.replicate (-sizeDiff).toNat p)
      else .ok toDump

/-- `_do_dump` of the field types without children.  `expSize` is what `self.get_expected_size(all_fields)` yields.

* Float: numeric.py:103-115 (`struct.error` becomes `SerializationError`, `OverflowError` propagates)
* Integer: numeric.py:199-212
* VariableLengthInteger: numeric.py:256-271
* Timestamp: numeric.py:437-473 (the deprecation warnings have no effect)
* Bytes: stringlike.py:38-46
* String: stringlike.py:109-114
* StringZ: stringlike.py:182-186
* UUID4: stringlike.py:261-274

Values of the wrong type raise `AttributeError` or `TypeError` (Float: `SerializationError`). -/
def leafDump (b : FieldBase) (k : Leaf) (expSize : Except Err Int) (v : Value) (ctx : Value) (all : Dict) : W :=
  match k with
  | .float fmt endian =>
    match v with
    | .float bits =>
      match floatPack fmt endian bits with
      | some bs => W.ok bs
      | none => W.fail .overflowErr
    | .int i =>
      match floatOfInt i with
      | none => W.fail (.serialization b.name)
      | some bits =>
        match floatPack fmt endian bits with
        | some bs => W.ok bs
        | none => W.fail .overflowErr
    | _ => W.fail (.serialization b.name)
  | .integer signed endian =>
    match b.size with
    | .fixed n =>
      match v with
      | .int i => W.ofExcept (unserializableOnRange b.name (writeInt i n signed endian))
      | _ => W.fail .attributeErr
    | _ => W.fail (.undefinedSize b.name)
  | .varint enc maxBytes =>
    match v with
    | .int i =>
      match unserializableOnRange b.name (enc.encode i) with
      | .error e => W.fail e
      | .ok bs =>
        match maxBytes with
        | some m => if (bs.length : Int) > m then W.fail (.valueSize b.name) else W.ok bs
        | none => W.ok bs
    | _ => W.fail .typeErr
  | .timestamp res _ signed endian =>
    match v with
    | .datetime us aware =>
      match tsDump res us aware with
      | .error e => W.fail e
      | .ok i =>
        match expSize with
        | .error e => W.fail e
        | .ok n => W.ofExcept (unserializableOnRange b.name (writeInt i n signed endian))
    | _ => W.fail .attributeErr
  | .bytes =>
    match expSize with
    | .error e => W.fail e
    | .ok n =>
      match v with
      | .bytes bs => if (bs.length : Int) ≠ n then W.fail (.valueSize b.name) else W.ok bs
      | _ => W.fail .typeErr
  | .string codec pad =>
    match v with
    | .str s => W.ofExcept (encodeAndResize b.name codec pad s expSize)
    | _ => W.fail .attributeErr
  | .stringz codec _ =>
    match v with
    | .str s => W.ofExcept (codec.encode (s ++ [0]))
    | _ => W.fail .typeErr
  | .uuid fmt =>
    match v with
    | .uuid n => W.ok (uuidDump fmt n)
    | _ => W.fail .attributeErr
  | .custom ops => ops.dump v ctx all

/-- `_add_padding`: base.py:852-864 raises, String stringlike.py:143-146 pads. -/
def leafAddPadding (b : FieldBase) (k : Leaf) (serialized : Bytes) (toSize : Int) : Except Err Bytes :=
  match k with
  | .string _ pad | .stringz _ pad =>
    match pad with
    | none => .error (.valueSize b.name)
    | some p => .ok (serialized ++ List.replicate (toSize - serialized.length).toNat p)
  | .custom ops =>
    match ops.pad with
    | some f => f serialized toSize
    | none => .error (.valueSize b.name)
  | _ => .error (.valueSize b.name)

/-- The tail of `get_expected_size` for a field whose `size` names another field, `/repo/binobj/fields/base.py:608-619`. -/
def sizeFromRef (values : Dict) (name : String) : Except Err Int :=
  match values.get? name with
  | some (.int i) => .ok i
  | some _ => .error .typeErr
  | none => .error (.missingRequired name)

/-- The value `__get_expected_possibly_undefined_size` measures: the field's own entry in `field_values`, else its default
(`/repo/binobj/fields/base.py:628-635`). -/
def FieldBase.sizingValue (b : FieldBase) (values : Dict) : Except Err Value :=
  match values.get? b.name with
  | some v => .ok v
  | none =>
    match b.default with
    | .error e => .error e
    | .ok v => if v = .undefined then .error (.undefinedSize b.name) else .ok v

/-- `_get_null_repr`, `/repo/binobj/fields/base.py:910-963`, given `self._do_dump(·, context=None, all_fields)` and
`self.get_expected_size(all_fields)`. -/
def FieldBase.nullReprWith (b : FieldBase) (dumpNull : Value → W) (expSize : Except Err Int) : Except Err Bytes :=
  match b.nullValue with
  | .undefined => .error (.unserializable b.name)
  | .dflt | .none =>
    match expSize with
    | .ok n => .ok (List.replicate n.toNat 0)
    | .error (.undefinedSize _) => .error (.unserializable b.name)
    | .error e => .error e
  | .bytes bs => .ok bs
  | v => (dumpNull v).toExcept

/-- `get_expected_size`, `/repo/binobj/fields/base.py:578-656`, given `_size_for_value` and the length of the null
representation. -/
def FieldBase.expectedSizeWith (b : FieldBase) (sizeFor : Value → Except Err (Option Int))
    (nullRepr : Except Err Bytes) (values : Dict) : Except Err Int :=
  match b.size with
  | .fixed n => .ok n
  | .ref name => sizeFromRef values name
  | .none =>
    match b.sizingValue values with
    | .error e => .error e
    | .ok .none => nullRepr.map fun bs => (bs.length : Int)
    | .ok v =>
      match sizeFor v with
      | .error e => .error e
      | .ok (some n) => .ok n
      | .ok none => .error (.undefinedSize b.name)

/-- `get_expected_size` of a field without children.

When the field has no `size` and its own value is `None`, `get_expected_size` needs `_get_null_repr`, which for
`null_value=DEFAULT` (or `None`), and for null values that `Bytes`, `String` and `Timestamp` serialize through
`get_expected_size`, calls it back: infinite recursion, which `base.py:644-652` reports as
`BuggyFieldImplementationError`.  That is the `buggyField` passed down here. -/
def leafExpectedSize (b : FieldBase) (k : Leaf) (values : Dict) : Except Err Int :=
  let buggy : Except Err Int := .error (.buggyField b.name)
  b.expectedSizeWith (leafSizeForValue b k)
    (b.nullReprWith (fun v => leafDump b k buggy v .none values) buggy) values

/-- `_get_null_repr` of a field without children. -/
def leafNullRepr (b : FieldBase) (k : Leaf) (values : Dict) : Except Err Bytes :=
  b.nullReprWith (fun v => leafDump b k (leafExpectedSize b k values) v .none values) (leafExpectedSize b k values)

/-- `_read_exact_size`, `/repo/binobj/fields/base.py:965-996`. -/
def readExactSize (name : String) (expSize : Except Err Int) (s : Stream) : Except Err Bytes × Stream :=
  let offset := s.tell
  match expSize with
  | .error e => (.error e, s)
  | .ok n =>
    let (data, s) := s.read n
    if (data.length : Int) < n then (.error (.eof (some name) n offset), s) else (.ok data, s)

/-- The loop of `StringZ._do_load` over `codecs.iterdecode(helpers.iter_bytes(stream, max_bytes))`,
`/repo/binobj/fields/stringlike.py:168-180`, `/repo/binobj/helpers.py:91-108`: `buf` is the decoder's buffer, `acc` the text so
far, `nRead` the number of bytes taken.  The fuel bounds the number of bytes left in the stream. -/
def stringzLoop (name : String) (codec : CharCodec) (maxBytes : Option Int) :
    Nat → (nRead : Nat) → (buf : Bytes) → (acc : List Nat) → Stream → Except Err (List Nat) × Stream
  | fuel, nRead, buf, acc, s =>
    let atEnd : Stream → Except Err (List Nat) × Stream := fun s =>
      -- `decoder.decode(b"", final=True)`, then the `raise` at stringlike.py:178
      (if buf = [] then .error (.deser (some name)) else .error .unicodeErr, s)
    let stop : Bool := match maxBytes with
      | some m => decide ((nRead : Int) ≥ m)
      | none => false
    if stop then atEnd s
    else
      match s.read 1 with
      | ([], s) => atEnd s
      | (b :: _, s) =>
        match codec.feed (buf ++ [b]) with
        | .error e => (.error e, s)
        | .ok (out, buf') =>
          if out = [0] then (.ok acc, s)
          else
            match fuel with
            | 0 => (.error .outOfFuel, s)
            | fuel + 1 => stringzLoop name codec maxBytes fuel (nRead + 1) buf' (acc ++ out) s

/-- `_do_load` of the field types without children.  `expSize` is `self.get_expected_size(loaded_fields)`.

* Float: numeric.py:91-101 (always of fixed size; `get_expected_size({})`)
* Integer: numeric.py:188-197
* VariableLengthInteger: numeric.py:249-254
* Timestamp: numeric.py:424-435
* Bytes: stringlike.py:32-36
* String: stringlike.py:101-107
* StringZ: stringlike.py:158-180
* UUID4: stringlike.py:245-259 -/
def leafLoad (b : FieldBase) (k : Leaf) (expSize : Except Err Int) (s : Stream) (ctx : Value) (loaded : Dict) :
    R Value :=
  match k with
  | .float fmt endian =>
    R.andThen (readExactSize b.name expSize s) fun data =>
      if data.length = fmt.bytes then .ok (.float (floatUnpack fmt endian data)) else .error (.deser (some b.name))
  | .integer signed endian =>
    match b.size with
    | .fixed n => R.map (readInt s n signed endian) .int
    | _ => (.error (.undefinedSize b.name), s)
  | .varint enc _ => R.map (enc.decode s) .int
  | .timestamp res tzAware signed endian =>
    match expSize with
    | .error e => (.error e, s)
    | .ok n =>
      R.andThen (readInt s n signed endian) fun i =>
        (tsLoad res tzAware i).map fun us => .datetime us tzAware
  | .bytes => R.map (readExactSize b.name expSize s) .bytes
  | .string codec _ => R.andThen (readExactSize b.name expSize s) fun data => (codec.decode data).map .str
  | .stringz codec _ =>
    match expSize with
    | .ok n => R.map (stringzLoop b.name codec (some n) s.rest.length 0 [] [] s) .str
    | .error (.undefinedSize _) => R.map (stringzLoop b.name codec none s.rest.length 0 [] [] s) .str
    | .error e => (.error e, s)
  | .uuid fmt =>
    let (raw, s) := s.read fmt.size
    if (raw.length : Int) < fmt.size then (.error (.eof (some b.name) fmt.size s.tell), s)
    else ((uuidParse fmt raw).map .uuid, s)
  | .custom ops => ops.load s ctx loaded

end Verif
