import Verif.Model.Helpers

/-!
# `/repo/binobj/varints.py`

The encoders work on unbounded integers with Python's bit operations.  The decoders' `while True` loops read one byte
per iteration; they get a fuel of (bytes left + 1), which `Verif/Props/VarInt.lean` proves to be enough.
-/

namespace Verif

/-- `varints.VarIntEncoding`, `/repo/binobj/varints.py:24-49`. -/
inductive VarIntEncoding where
  | compact | leb128 | uleb128 | vlq
  deriving DecidableEq, Repr, Inhabited

/-- `_read_uint8`, `/repo/binobj/varints.py:52-54`. -/
def readUInt8 (s : Stream) : Except Err Nat × Stream :=
  match readInt s 1 false .little with
  | (.ok v, s) => (.ok v.toNat, s)
  | (.error e, s) => (.error e, s)

/-- `buf[-1] &= 0x7F` (`/repo/binobj/varints.py:84, 138, 237`). -/
def clearLast : Bytes → Bytes
  | [] => []
  | [b] => [UInt8.ofNat (b.toNat &&& 0x7F)]
  | b :: bs => b :: clearLast bs

/-- `int(math.ceil(a / 7))` (`/repo/binobj/varints.py:75, 131`); simplification: the float division is taken as exact,
which C91 justifies (`Model/CeilFloat.lean`). -/
def ceilDiv7 (a : Int) : Int := -((-a) / 7)

/-- The loop `for i in range(n - 1, …, -1): buf[i] = 0x80 | (value & 0x7F); value >>= 7`, `n` iterations, filling the
buffer from the back (`/repo/binobj/varints.py:79-81, 134-136`).  Returns the filled part and the final `value`. -/
def fillBack : Nat → Nat → Bytes → Bytes × Nat
  | 0, value, buf => (buf, value)
  | n + 1, value, buf => fillBack n (value >>> 7) (UInt8.ofNat (0x80 ||| (value &&& 0x7F)) :: buf)

/-- The loop `for i in range(n): output[i] = 0x80 | (value & 0x7F); value >>= 7`
(`/repo/binobj/varints.py:232-234`). -/
def fillFront : Nat → Nat → Bytes
  | 0, _ => []
  | n + 1, value => UInt8.ofNat (0x80 ||| (value &&& 0x7F)) :: fillFront n (value >>> 7)

/-- `encode_integer_compact`, `/repo/binobj/varints.py:57-86`. -/
def encodeCompact (value : Int) : Except Err Bytes :=
  if value = 0 then .ok [0]
  else
    let signBit : Nat := if value < 0 then 0x40 else 0
    let mag : Nat := value.natAbs
    let nBits := bitLength mag
    let nBytes := (1 + ceilDiv7 ((nBits : Int) - 6)).toNat
    let (tail, v) := fillBack (nBytes - 1) mag []
    let buf := UInt8.ofNat (0x80 ||| signBit ||| (v &&& 0x3F)) :: tail
    .ok (clearLast buf)

/-- The loop of `decode_integer_compact`, `/repo/binobj/varints.py:100-112`. -/
def decodeCompactLoop : Nat → Option Int → Nat → Stream → Except Err Int × Stream
  | 0, _, _, s => (.error .outOfFuel, s)
  | fuel + 1, sign, value, s =>
    match readUInt8 s with
    | (.error e, s) => (.error e, s)
    | (.ok int8, s) =>
      let (value, sgn) : Nat × Int :=
        match sign with
        | none => (int8 &&& 0x3F, if int8 &&& 64 ≠ 0 then -1 else 1)
        | some sgn => ((value <<< 7) ||| (int8 &&& 0x7F), sgn)
      if int8 &&& 0x80 = 0 then (.ok ((value : Int) * sgn), s)
      else decodeCompactLoop fuel (some sgn) value s

/-- Enough fuel for one iteration per byte left. -/
def loopFuel (s : Stream) : Nat := s.rest.length + 1

/-- `decode_integer_compact`, `/repo/binobj/varints.py:89-112`. -/
def decodeCompact (s : Stream) : Except Err Int × Stream := decodeCompactLoop (loopFuel s) none 0 s

/-- `encode_integer_vlq`, `/repo/binobj/varints.py:115-139`. -/
def encodeVlq (value : Int) : Except Err Bytes :=
  if value < 0 then .error .valueErr
  else if value = 0 then .ok [0]
  else
    let nBits := bitLength value.toNat
    let nBytes := (ceilDiv7 (nBits : Int)).toNat
    let (buf, _) := fillBack nBytes value.toNat []
    .ok (clearLast buf)

/-- The loop of `decode_integer_vlq`, `/repo/binobj/varints.py:151-156`. -/
def decodeVlqLoop : Nat → Nat → Stream → Except Err Int × Stream
  | 0, _, s => (.error .outOfFuel, s)
  | fuel + 1, value, s =>
    match readUInt8 s with
    | (.error e, s) => (.error e, s)
    | (.ok int8, s) =>
      let value := (value <<< 7) ||| (int8 &&& 0x7F)
      if int8 &&& 0x80 = 0 then (.ok (value : Int), s)
      else decodeVlqLoop fuel value s

/-- `decode_integer_vlq`, `/repo/binobj/varints.py:142-156`. -/
def decodeVlq (s : Stream) : Except Err Int × Stream := decodeVlqLoop (loopFuel s) 0 s

/-- The loop of `encode_integer_uleb128`, `/repo/binobj/varints.py:176-179`. -/
def encodeUleb128Loop (value : Nat) : Bytes :=
  if _h : value > 0 then
    let continueBit := if value > 127 then 128 else 0
    UInt8.ofNat (continueBit ||| (value &&& 0x7F)) :: encodeUleb128Loop (value >>> 7)
  else []
termination_by value
decreasing_by
  rw [Nat.shiftRight_eq_div_pow]
  exact Nat.div_lt_self _h (by decide)

/-- `encode_integer_uleb128`, `/repo/binobj/varints.py:159-181`. -/
def encodeUleb128 (value : Int) : Except Err Bytes :=
  if value < 0 then .error .valueErr
  else if value = 0 then .ok [0]
  else .ok (encodeUleb128Loop value.toNat)

/-- The loop of `decode_integer_uleb128`, `/repo/binobj/varints.py:195-201`. -/
def decodeUleb128Loop : Nat → Nat → Nat → Stream → Except Err Nat × Stream
  | 0, _, _, s => (.error .outOfFuel, s)
  | fuel + 1, value, bitsRead, s =>
    match readUInt8 s with
    | (.error e, s) => (.error e, s)
    | (.ok int8, s) =>
      let value := value ||| ((int8 &&& 0x7F) <<< bitsRead)
      let bitsRead := bitsRead + 7
      if int8 &&& 0x80 = 0 then (.ok value, s)
      else decodeUleb128Loop fuel value bitsRead s

/-- `decode_integer_uleb128` as a natural number. -/
def decodeUleb128Nat (s : Stream) : Except Err Nat × Stream := decodeUleb128Loop (loopFuel s) 0 0 s

/-- `decode_integer_uleb128`, `/repo/binobj/varints.py:184-201`. -/
def decodeUleb128 (s : Stream) : Except Err Int × Stream :=
  match decodeUleb128Nat s with
  | (.ok v, s) => (.ok (v : Int), s)
  | (.error e, s) => (.error e, s)

/-- `encode_integer_leb128`, `/repo/binobj/varints.py:204-238`.  `int.bit_length()` of a negative number is that of its
magnitude.  `value & mask` on a Python integer is reduction modulo `2 ** n_bits`. -/
def encodeLeb128 (value : Int) : Except Err Bytes :=
  if value = 0 then .ok [0]
  else
    let nBits := bitLength value.natAbs + 1
    let nBits := if nBits % 7 ≠ 0 then nBits + (7 - nBits % 7) else nBits
    let value : Nat := (value % (2 ^ nBits : Int)).toNat
    .ok (clearLast (fillFront (nBits / 7) value))

/-- `decode_integer_leb128`, `/repo/binobj/varints.py:241-262`. -/
def decodeLeb128 (s : Stream) : Except Err Int × Stream :=
  let startingOffset := s.tell
  match decodeUleb128Nat s with
  | (.error e, s) => (.error e, s)
  | (.ok value, s) =>
    if value = 0 then (.ok 0, s)
    else
      let nBytesRead := s.tell - startingOffset
      let nBitsRead := nBytesRead * 7
      let nValueBits := bitLength value
      if nBitsRead > nValueBits then (.ok (value : Int), s)
      else (.ok (-((2 ^ nBitsRead : Int) - (value : Int))), s)

/-- `INTEGER_ENCODING_MAP[…].encode`, `/repo/binobj/varints.py:283-308`. -/
def VarIntEncoding.encode : VarIntEncoding → Int → Except Err Bytes
  | .compact => encodeCompact
  | .leb128 => encodeLeb128
  | .uleb128 => encodeUleb128
  | .vlq => encodeVlq

/-- `INTEGER_ENCODING_MAP[…].decode`, `/repo/binobj/varints.py:283-308`. -/
def VarIntEncoding.decode : VarIntEncoding → Stream → Except Err Int × Stream
  | .compact => decodeCompact
  | .leb128 => decodeLeb128
  | .uleb128 => decodeUleb128
  | .vlq => decodeVlq

/-- `INTEGER_ENCODING_MAP[…].signed`, `/repo/binobj/varints.py:283-308`. -/
def VarIntEncoding.signed : VarIntEncoding → Bool
  | .compact | .leb128 => true
  | .uleb128 | .vlq => false

end Verif
