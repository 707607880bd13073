import Verif.Model.Field

/-!
# Naive timestamps in a local time zone

`Timestamp` with `tz_aware=False`, `/repo/binobj/fields/numeric.py:346-473`, on a machine with an arbitrary local time zone.
`Model/Timestamp` takes the zone to be UTC; here it is a parameter, and a naive `datetime` is what Python makes of it: the
reading of a wall clock and the attribute `fold`.

The conversions are those of CPython, `datetime._fromtimestamp` and `datetime._mktime` in `Lib/datetime.py` (the C version
does the same).  Simplifications: no leap seconds in the zone; the platform is not Windows; an `OSError` from
`localtime` for absurdly distant times is reported as `ValueError`.
-/

namespace Verif

/-- What `time.localtime` knows about the zone: the offset from UTC in seconds, for every moment in seconds since the epoch. -/
structure Zone where
  offset : Int → Int

/-- A naive `datetime`: the wall clock, in microseconds since it showed 1970-01-01 00:00, and `fold`. -/
structure Wall where
  us : Int
  fold : Bool
  deriving DecidableEq, Repr

/-- `max_fold_seconds` of `Lib/datetime.py`. -/
def maxFold : Int := 24 * 3600

/-- `local(u)` in `datetime._mktime`: what a wall clock shows, in seconds.  The year must be in 1…9999. -/
def Zone.clock (z : Zone) (u : Int) : Except Err Int :=
  let t := u + z.offset u
  if datetimeMin ≤ t * 1000000 ∧ t * 1000000 ≤ datetimeMax then .ok t else .error .valueErr

/-- The whole seconds and microseconds of a float, as microseconds: the beginning of `datetime._fromtimestamp`.  Not being
finite and being beyond `time_t` are errors. -/
def timeval (bits : Nat) : Except Err Int :=
  match binary64.decode bits with
  | .inf _ => .error .overflowErr
  | .nan .. => .error .valueErr
  | .fin s m q =>
    let total : Int := (wholePart m q : Int) * 1000000 + microsPart m q
    let total := if s then -total else total
    if 2 ^ 63 ≤ wholePart m q then .error .overflowErr else .ok total

/-- `datetime._fromtimestamp(t, utc=False, tz=None)` in `Lib/datetime.py`, after the splitting of `t`. -/
def Zone.fromTimeval (z : Zone) (total : Int) : Except Err Wall := do
  let t := total / 1000000
  let us := total % 1000000
  let result ← z.clock t
  let probe ← z.clock (t - maxFold)
  let trans := result - probe - maxFold
  if trans < 0 then
    let probe ← z.clock (t + trans)
    return ⟨result * 1000000 + us, decide (probe = result)⟩
  else
    return ⟨result * 1000000 + us, false⟩

/-- `datetime._mktime` in `Lib/datetime.py`: the moment at which the clock shows `t`. -/
def Zone.mktime (z : Zone) (t : Int) (fold : Bool) : Except Err Int := do
  let a := (← z.clock t) - t
  let u1 := t - a
  let t1 ← z.clock u1
  if t1 = t then
    let u2 := u1 + (if fold then maxFold else -maxFold)
    let b := (← z.clock u2) - u2
    if a = b then return u1
    let u2 := t - b
    let t2 ← z.clock u2
    if t2 = t then return u2
    return u1
  else
    let b := t1 - u1
    let u2 := t - b
    let t2 ← z.clock u2
    if t2 = t then return u2
    return (if fold then min u1 u2 else max u1 u2)

/-- `Timestamp._do_load`, `/repo/binobj/fields/numeric.py:425-433`, `tz_aware=False`, once the integer has been read. -/
def Zone.load (z : Zone) (res : Resolution) (value : Int) : Except Err Wall := do
  z.fromTimeval (← timeval (← tsQuotient res value))

/-- `int(data.timestamp() * self._units)`, `/repo/binobj/fields/numeric.py:460`, for a naive `data`. -/
def Zone.stored (z : Zone) (res : Resolution) (w : Wall) : Except Err Int := do
  let s ← z.mktime (w.us / 1000000) w.fold
  tsStored res (s * 1000000 + w.us % 1000000) false

/-- `Timestamp._do_load` from the bytes of the field, `/repo/binobj/fields/numeric.py:425-433`. -/
def Zone.timestampLoad (z : Zone) (res : Resolution) (signed : Bool) (e : Endian) (data : Bytes) : Except Err Wall :=
  z.load res (intOfBytes data e signed)

/-- `Timestamp._do_dump` of a naive `datetime`, `/repo/binobj/fields/numeric.py:438-473`: the bytes written by the field
called `name`. -/
def Zone.timestampDump (z : Zone) (name : String) (res : Resolution) (signed : Bool) (e : Endian) (size : Nat) (w : Wall) :
    Except Err Bytes := do
  unserializableOnRange name (writeInt (← z.stored res w) size signed e)

end Verif
