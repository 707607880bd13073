import Verif.Model.VarInt
import Verif.Model.Timestamp

/-!
# The number of bytes of a variable-length integer, in floating-point arithmetic

`encode_integer_compact` and `encode_integer_vlq` compute how long their result is with `int(math.ceil(n / 7))`
(`/repo/binobj/varints.py:75, 131`), where `/` makes a float.  `Model/VarInt.lean` uses exact arithmetic for it; here
are the two encoders as they are written.
-/

namespace Verif

/-- `a / b` for integers, `b > 0`: CPython's `int.__truediv__` rounds correctly to a binary64 and raises `OverflowError`
if there is none (used at `/repo/binobj/varints.py:75, 131`). -/
def intTrueDiv (a : Int) (b : Nat) : Except Err Nat :=
  let M := binary64.roundMag a.natAbs b
  if binary64.infBits ≤ M then .error .overflowErr else .ok (binary64.withSign (decide (a < 0)) M)

/-- `math.ceil(x)` of a float, an `int` (so the `int(…)` around it changes nothing); infinities raise `OverflowError`,
NaN `ValueError` (`/repo/binobj/varints.py:75, 131`). -/
def floatCeil (bits : Nat) : Except Err Int :=
  match binary64.decode bits with
  | .fin true m q => .ok (-(wholePart m q : Int))
  | .fin false m q => .ok (if 0 ≤ q ∨ m % 2 ^ (-q).toNat = 0 then (wholePart m q : Int) else wholePart m q + 1)
  | .inf _ => .error .overflowErr
  | .nan .. => .error .valueErr

/-- `int(math.ceil(a / 7))`, `/repo/binobj/varints.py:75, 131`. -/
def ceilDiv7Float (a : Int) : Except Err Int :=
  match intTrueDiv a 7 with
  | .error e => .error e
  | .ok bits => floatCeil bits

/-- `encode_integer_compact`, `/repo/binobj/varints.py:57-86`, with the float division of line 75. -/
def encodeCompactFloat (value : Int) : Except Err Bytes :=
  if value = 0 then .ok [0]
  else
    let signBit : Nat := if value < 0 then 0x40 else 0
    let mag : Nat := value.natAbs
    let nBits := bitLength mag
    match ceilDiv7Float ((nBits : Int) - 6) with
    | .error e => .error e
    | .ok c =>
      let nBytes := (1 + c).toNat
      let (tail, v) := fillBack (nBytes - 1) mag []
      let buf := UInt8.ofNat (0x80 ||| signBit ||| (v &&& 0x3F)) :: tail
      .ok (clearLast buf)

/-- `encode_integer_vlq`, `/repo/binobj/varints.py:115-139`, with the float division of line 131. -/
def encodeVlqFloat (value : Int) : Except Err Bytes :=
  if value < 0 then .error .valueErr
  else if value = 0 then .ok [0]
  else
    let nBits := bitLength value.toNat
    match ceilDiv7Float (nBits : Int) with
    | .error e => .error e
    | .ok c =>
      let nBytes := c.toNat
      let (buf, _) := fillBack nBytes value.toNat []
      .ok (clearLast buf)

end Verif
