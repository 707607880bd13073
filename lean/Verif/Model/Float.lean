import Verif.Py.Basic

/-!
# Floating point

IEEE 754 binary interchange formats, as far as `struct.pack`/`struct.unpack` with `e`, `f`, `d` and the arithmetic of
`Timestamp` need them: exact decoding, and rounding of a rational to nearest-even.  A Python `float` is the bit pattern
of a binary64.
-/

namespace Verif

/-- An IEEE binary format: `mbits` stored fraction bits, `ebits` exponent bits. -/
structure FloatFmt where
  ebits : Nat
  mbits : Nat
  deriving DecidableEq, Repr, Inhabited

/-- `e`, `f` and `d` of the `struct` module (`/repo/binobj/fields/numeric.py:118-145`). -/
def binary16 : FloatFmt := ⟨5, 10⟩
def binary32 : FloatFmt := ⟨8, 23⟩
def binary64 : FloatFmt := ⟨11, 52⟩

namespace FloatFmt

/-- Exponent of the least subnormal: its value is `2 ^ qmin`. -/
def qmin (f : FloatFmt) : Int := 2 - 2 ^ (f.ebits - 1) - f.mbits

/-- Exponent field of infinities and NaNs. -/
def expMax (f : FloatFmt) : Nat := 2 ^ f.ebits - 1

/-- Magnitude bits (everything but the sign) of infinity. -/
def infBits (f : FloatFmt) : Nat := f.expMax * 2 ^ f.mbits

/-- Weight of the sign bit. -/
def signBit (f : FloatFmt) : Nat := 2 ^ (f.ebits + f.mbits)

/-- Number of bytes (`struct.calcsize`). -/
def bytes (f : FloatFmt) : Nat := (f.ebits + f.mbits + 1) / 8

end FloatFmt

/-- A decoded floating-point datum.  `fin s m q` is `±m · 2^q`. -/
inductive FVal where
  | fin (sign : Bool) (m : Nat) (q : Int)
  | inf (sign : Bool)
  | nan (sign : Bool) (payload : Nat)
  deriving DecidableEq, Repr

/-- Decode a bit pattern. -/
def FloatFmt.decode (f : FloatFmt) (bits : Nat) : FVal :=
  let sign := decide (f.signBit ≤ bits)
  let mag := bits % f.signBit
  let e := mag / 2 ^ f.mbits
  let m := mag % 2 ^ f.mbits
  if e = f.expMax then if m = 0 then .inf sign else .nan sign m
  else if e = 0 then .fin sign m f.qmin
  else .fin sign (2 ^ f.mbits + m) (f.qmin + (e - 1 : Nat))

/-- Attach a sign to magnitude bits. -/
def FloatFmt.withSign (f : FloatFmt) (sign : Bool) (mag : Nat) : Nat := (if sign then f.signBit else 0) + mag

/-- `a / b` rounded to the nearest integer, ties to even. -/
def divRoundEven (a b : Nat) : Nat :=
  let q := a / b
  let r := a % b
  if 2 * r < b then q
  else if b < 2 * r then q + 1
  else if q % 2 = 0 then q else q + 1

/-- `⌊log₂ (num / den)⌋` for positive `num`, `den`. -/
def floorLog2 (num den : Nat) : Int :=
  let k : Int := (Nat.log2 num : Int) - (Nat.log2 den : Int)
  -- 2^(k-1) < num/den < 2^(k+1)
  if 0 ≤ k then if den * 2 ^ k.toNat ≤ num then k else k - 1
  else if den ≤ num * 2 ^ (-k).toNat then k else k - 1

/-- `num/den` divided by `2^q`, rounded to nearest even. -/
def scaleRound (num den : Nat) (q : Int) : Nat :=
  if 0 ≤ q then divRoundEven num (den * 2 ^ q.toNat) else divRoundEven (num * 2 ^ (-q).toNat) den

/-- The magnitude bits of `num/den` (non-negative) rounded to nearest even in format `f`; at or above `f.infBits` means
the rounded value overflows. -/
def FloatFmt.roundMag (f : FloatFmt) (num den : Nat) : Nat :=
  if num = 0 then 0
  else
    let q := max (floorLog2 num den - f.mbits) f.qmin
    (q - f.qmin).toNat * 2 ^ f.mbits + scaleRound num den q

/-- The magnitude bits of `m · 2^q` rounded. -/
def FloatFmt.roundDyadic (f : FloatFmt) (m : Nat) (q : Int) : Nat :=
  if 0 ≤ q then f.roundMag (m * 2 ^ q.toNat) 1 else f.roundMag m (2 ^ (-q).toNat)

/-- `float(i)` for an `int`; `none` is `OverflowError`. -/
def floatOfInt (i : Int) : Option Nat :=
  let mag := binary64.roundMag i.natAbs 1
  if binary64.infBits ≤ mag then none else some (binary64.withSign (decide (i < 0)) mag)

/-- Conversion of a binary64 bit pattern to format `f` as `struct.pack` does it; `none` is the `OverflowError` raised when
a finite value rounds to infinity.

* `d`: the bits themselves;
* `f`: C cast `(float) x` (NaNs keep the upper payload bits and become quiet);
* `e`: `PyFloat_Pack2` (every NaN becomes the quiet NaN with the same sign). -/
def packBits (f : FloatFmt) (bits : Nat) : Option Nat :=
  if f = binary64 then some bits
  else
    match binary64.decode bits with
    | .inf s => some (f.withSign s f.infBits)
    | .nan s p =>
      let quiet := 2 ^ (f.mbits - 1)
      if f = binary16 then some (f.withSign s (f.infBits + quiet))
      else
        let top := p / 2 ^ (52 - f.mbits)
        some (f.withSign s (f.infBits + (if top < quiet then top + quiet else top)))
    | .fin s m q =>
      let mag := f.roundDyadic m q
      if f.infBits ≤ mag then none else some (f.withSign s mag)

/-- Conversion of a bit pattern of format `f` to binary64 as `struct.unpack` does it (exact for numbers).

* `f`: C cast `(double) x` (a signalling NaN becomes quiet);
* `e`: `PyFloat_Unpack2` (every NaN becomes the positive or negative quiet NaN). -/
def unpackBits (f : FloatFmt) (bits : Nat) : Nat :=
  if f = binary64 then bits
  else
    match f.decode bits with
    | .inf s => binary64.withSign s binary64.infBits
    | .nan s p =>
      let quiet := 2 ^ (f.mbits - 1)
      if f = binary16 then binary64.withSign s (binary64.infBits + 2 ^ 51)
      else binary64.withSign s (binary64.infBits + (if p < quiet then p + quiet else p) * 2 ^ (52 - f.mbits))
    | .fin s m q => binary64.withSign s (binary64.roundDyadic m q)

/-- `struct.unpack(fmt, data)[0]` for `data` of the right length: the float's bits. -/
def floatUnpack (f : FloatFmt) (e : Endian) (data : Bytes) : Nat := unpackBits f (natOfLE (e.arrange data))

/-- `struct.pack(fmt, x)` for a float `x`; `none` is `OverflowError`. -/
def floatPack (f : FloatFmt) (e : Endian) (bits : Nat) : Option Bytes :=
  (packBits f bits).map fun b => e.arrange (natToLE f.bytes b)

end Verif
