import Verif.Model.Float
import Verif.Model.Helpers

/-!
# Timestamps

`Timestamp`, `/repo/binobj/fields/numeric.py:346-473`, with CPython's `datetime.timestamp()` and
`datetime.fromtimestamp()`.  A `datetime` is its distance from the epoch in microseconds.

Simplification: the platform's local time zone (which naive datetimes refer to) is taken to be UTC (`Model/LocalTime` is about
other zones).  An `OSError` from `gmtime` for absurdly distant times is reported as `ValueError`.
-/

namespace Verif

/-- `Timestamp._RESOLUTION_UNITS`, `/repo/binobj/fields/numeric.py:397`. -/
inductive Resolution where
  | s | ms | us | ns
  deriving DecidableEq, Repr, Inhabited

def Resolution.units : Resolution → Nat
  | .s => 1
  | .ms => 1000
  | .us => 1000000
  | .ns => 1000000000

/-- A finite float divided by a float holding the positive integer `k` (correctly rounded; never overflows). -/
def floatDivNat (bits k : Nat) : Nat :=
  match binary64.decode bits with
  | .fin s m q =>
    binary64.withSign s
      (if 0 ≤ q then binary64.roundMag (m * 2 ^ q.toNat) k else binary64.roundMag m (2 ^ (-q).toNat * k))
  | _ => bits

/-- A finite float times a float holding the positive integer `k`; magnitude may reach infinity. -/
def floatMulNat (bits k : Nat) : Nat :=
  match binary64.decode bits with
  | .fin s m q => binary64.withSign s (min (binary64.roundDyadic (m * k) q) binary64.infBits)
  | _ => bits

/-- The whole part of `m · 2^q`, as `modf` gives it. -/
def wholePart (m : Nat) (q : Int) : Nat := if 0 ≤ q then m * 2 ^ q.toNat else m / 2 ^ (-q).toNat

/-- `int(x)`: truncation; infinities raise `OverflowError`, NaN `ValueError`. -/
def floatTrunc (bits : Nat) : Except Err Int :=
  match binary64.decode bits with
  | .fin s m q => .ok (if s then -(wholePart m q : Int) else wholePart m q)
  | .inf _ => .error .overflowErr
  | .nan .. => .error .valueErr

/-- `value / self._units`, `/repo/binobj/fields/numeric.py:432`. -/
def tsQuotient (res : Resolution) (value : Int) : Except Err Nat :=
  match floatOfInt value with
  | none => .error .overflowErr
  | some bits => .ok (if res = .s then bits else floatDivNat bits res.units)

/-- First and last microsecond of the years 1 and 9999. -/
def datetimeMin : Int := -62135596800000000
def datetimeMax : Int := 253402300799999999

/-- The first moment that can be converted to or from a datetime.  For a naive one, CPython compares the local time with that of
the day before, in search of changes of the clocks, and raises `ValueError` if that is in the year 0. -/
def datetimeFirst (aware : Bool) : Int := if aware then datetimeMin else datetimeMin + 86400000000

/-- The search for changes of the clocks: nothing happens, except that it fails in the first day of the year 1. -/
def localTime (aware : Bool) (us : Int) : Except Err Int := if us < datetimeFirst aware then .error .valueErr else .ok us

/-- The fraction of `m · 2^q`, multiplied by 10⁶ in floating point and rounded half-even
(`_PyTime_DoubleToDenominator`). -/
def microsPart (m : Nat) (q : Int) : Nat :=
  if 0 ≤ q then 0
  else
    match binary64.decode (binary64.roundMag (m % 2 ^ (-q).toNat * 1000000) (2 ^ (-q).toNat)) with
    | .fin _ m' q' => scaleRound m' 1 (-q')
    | _ => 0

/-- `datetime.fromtimestamp(x, utc)`: whole seconds and microseconds; the year must be in 1…9999. -/
def fromTimestamp (bits : Nat) : Except Err Int :=
  match binary64.decode bits with
  | .inf _ => .error .overflowErr
  | .nan .. => .error .valueErr
  | .fin s m q =>
    let total : Int := (wholePart m q : Int) * 1000000 + microsPart m q
    let total := if s then -total else total
    if 2 ^ 63 ≤ wholePart m q then .error .overflowErr
    else if datetimeMin ≤ total ∧ total ≤ datetimeMax then .ok total
    else .error .valueErr

/-- `datetime.timestamp()`.  Aware: total microseconds divided by 10⁶, correctly rounded.  Naive: whole seconds plus
`microsecond / 1e6`, the division and the sum each rounded. -/
def toTimestamp (us : Int) (aware : Bool) : Nat :=
  if aware then binary64.withSign (decide (us < 0)) (binary64.roundMag us.natAbs 1000000)
  else
    let secs := us / 1000000
    let frac := binary64.roundMag (us % 1000000).toNat 1000000
    match binary64.decode frac with
    | .fin _ m q =>
      -- secs + m·2^q with q ≤ 0, over the common denominator 2^(-q)
      let den : Nat := 2 ^ (-q).toNat
      let num : Int := secs * den + (if 0 ≤ q then m * 2 ^ q.toNat else m : Nat)
      binary64.withSign (decide (num < 0)) (binary64.roundMag num.natAbs den)
    | _ => frac

/-- `datetime.fromtimestamp(value / self._units, …)`, `/repo/binobj/fields/numeric.py:431-435`. -/
def tsLoad (res : Resolution) (aware : Bool) (value : Int) : Except Err Int :=
  ((tsQuotient res value).bind fromTimestamp).bind (localTime aware)

/-- `int(data.timestamp() * self._units)`, once `data` is known to be a moment. -/
def tsStored (res : Resolution) (us : Int) (aware : Bool) : Except Err Int :=
  let t := toTimestamp us aware
  floatTrunc (if res = .s then t else floatMulNat t res.units)

/-- `int(data.timestamp() * self._units)`, `/repo/binobj/fields/numeric.py:460`. -/
def tsDump (res : Resolution) (us : Int) (aware : Bool) : Except Err Int :=
  (localTime aware us).bind fun us => tsStored res us aware

end Verif
