/-!
# Python primitives used by binobj

Byte strings, `io.BytesIO`, exceptions as values, `int.to_bytes` / `int.from_bytes` / `int.bit_length`.
None of this is code of `/repo`; it models the CPython behaviour the code relies on.
-/

namespace Verif

/-- A Python `bytes` object. -/
abbrev Bytes := List UInt8

/-- Exceptions as values: one constructor per class that the code raises or distinguishes.
`/repo/binobj/errors.py:48-487`.  Payload is kept only where some handler or property looks at it
(`field` is the `name` of `err.field`, `""` for an unnamed field). -/
inductive Err where
  -- DeserializationError and subclasses (errors.py:150-174, 464-487)
  | eof (field : Option String) (size : Int) (offset : Nat)    -- UnexpectedEOFError
  | extraneous                                                 -- ExtraneousDataError
  | deser (field : Option String)                              -- DeserializationError itself
  -- SerializationError and subclasses (errors.py:123-147, 366-461)
  | serialization (field : String)                             -- SerializationError itself
  | unserializable (field : String)                            -- UnserializableValueError
  | valueSize (field : String)                                 -- ValueSizeError
  | missingRequired (field : String)                           -- MissingRequiredValueError
  | unexpectedValue (names : List String)                      -- UnexpectedValueError
  | arraySize (field : String) (expected given : Int)          -- ArraySizeError
  -- ValidationError, FieldReferenceError, IllegalOperationError, ImmutableFieldError (errors.py:177-246)
  | validation (field : String)
  | fieldReference (name : String)
  | illegalOperation
  | immutableField (field : String)
  -- ConfigurationError and subclasses (errors.py:61-120, 249-363)
  | configuration
  | multipleInheritance
  | fieldRedefined (field : String)
  | undefinedSize (field : String)
  | noDefinedFields
  | mixedDeclarations
  | invalidTypeAnnotation
  | cannotDetermineNull (field : String)
  | buggyField (field : String)
  -- builtin exceptions
  | typeErr | valueErr | keyErr (name : String) | overflowErr | unicodeErr | eofErr | attributeErr
  | recursionErr
  /-- Any exception raised by user code that is none of the above. -/
  | user (tag : String)
  /-- Not an exception: the fuel of the model ran out.  No handler catches it. -/
  | outOfFuel
  deriving DecidableEq, Repr, Inhabited

deriving instance DecidableEq for Except

namespace Err

/-- `isinstance(e, errors.UnexpectedEOFError)` (errors.py:464-483) -/
def isEOF : Err → Bool
  | .eof .. => true
  | _ => false

/-- `isinstance(e, errors.DeserializationError)` (errors.py:150-174, 464-487) -/
def isDeserialization : Err → Bool
  | .eof .. | .extraneous | .deser _ => true
  | _ => false

/-- `isinstance(e, errors.UnserializableValueError)` (errors.py:366-386, 422-436) -/
def isUnserializable : Err → Bool
  | .unserializable _ | .valueSize _ => true
  | _ => false

/-- `isinstance(e, errors.SerializationError)` (errors.py:123-147, 366-461) -/
def isSerialization : Err → Bool
  | .serialization _ | .unserializable _ | .valueSize _ | .missingRequired _
  | .unexpectedValue _ | .arraySize .. => true
  | _ => false

/-- `isinstance(e, errors.ConfigurationError)` (errors.py:61-120, 249-363) -/
def isConfiguration : Err → Bool
  | .configuration | .multipleInheritance | .fieldRedefined _ | .undefinedSize _ | .noDefinedFields
  | .mixedDeclarations | .invalidTypeAnnotation | .cannotDetermineNull _ | .buggyField _ => true
  | _ => false

/-- `isinstance(e, errors.Error)` (errors.py:48-59): every exception defined by binobj. -/
def isBinobj (e : Err) : Bool :=
  e.isDeserialization || e.isSerialization || e.isConfiguration ||
    match e with
    | .validation _ | .fieldReference _ | .illegalOperation | .immutableField _ => true
    | _ => false

/-- `isinstance(e, ValueError)`; `UnicodeError` is a subclass of `ValueError`; none of binobj's own exceptions is. -/
def isValueErr : Err → Bool
  | .valueErr | .unicodeErr => true
  | _ => false

end Err

/-- A readable binary stream with the behaviour of `io.BytesIO`. -/
structure Stream where
  data : Bytes
  pos : Nat
  deriving DecidableEq, Repr, Inhabited

namespace Stream

/-- `BytesIO.read(n)`: `n < 0` reads to the end; short reads return what is there; beyond the end nothing. -/
def read (s : Stream) (n : Int) : Bytes × Stream :=
  let avail := s.data.drop s.pos
  let out := if n < 0 then avail else avail.take n.toNat
  (out, { s with pos := s.pos + out.length })

/-- `BytesIO.seek(p)` for `p ≥ 0` (may go beyond the end). -/
def seek (s : Stream) (p : Nat) : Stream := { s with pos := p }

/-- `BytesIO.tell()`. -/
def tell (s : Stream) : Nat := s.pos

/-- The bytes from the current position on. -/
def rest (s : Stream) : Bytes := s.data.drop s.pos

end Stream

/-- Byte order, `typedefs.EndianString`. -/
inductive Endian where
  | big | little
  deriving DecidableEq, Repr, Inhabited

/-- A little-endian byte string arranged in byte order `e` (and vice versa). -/
def Endian.arrange : Endian → Bytes → Bytes
  | .little, b => b
  | .big, b => b.reverse

/-- `int.bit_length()` of a non-negative integer. -/
def bitLength (v : Nat) : Nat := if v = 0 then 0 else Nat.log2 v + 1

/-- `n` bytes of `v`, least significant first. -/
def natToLE : Nat → Nat → Bytes
  | 0, _ => []
  | n + 1, v => UInt8.ofNat (v % 256) :: natToLE n (v / 256)

/-- The value of a little-endian byte string. -/
def natOfLE : Bytes → Nat
  | [] => 0
  | b :: bs => b.toNat + 256 * natOfLE bs

/-- `int.to_bytes(v, n, endian, signed=signed)`.  `ValueError` if `n < 0`; `OverflowError` if the value does not
fit.  (CPython 3.11 quirk, checked: `(-1).to_bytes(0, signed=True) == b""`.) -/
def intToBytes (v n : Int) (endian : Endian) (signed : Bool) : Except Err Bytes :=
  if n < 0 then .error .valueErr
  else
    let k := n.toNat
    let fits : Bool :=
      if signed then
        if k = 0 then v == 0 || v == -1
        else decide (-(2 ^ (8 * k - 1) : Int) ≤ v) && decide (v < (2 ^ (8 * k - 1) : Int))
      else decide (0 ≤ v) && decide (v < (2 ^ (8 * k) : Int))
    if fits then
      let le := natToLE k (v % (2 ^ (8 * k) : Int)).toNat
      .ok (endian.arrange le)
    else .error .overflowErr

/-- `int.from_bytes(b, endian, signed=signed)`. -/
def intOfBytes (b : Bytes) (endian : Endian) (signed : Bool) : Int :=
  let u := natOfLE (endian.arrange b)
  if signed && decide (2 ^ (8 * b.length) ≤ 2 * u) && !b.isEmpty then (u : Int) - 2 ^ (8 * b.length) else u

end Verif
