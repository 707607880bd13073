import Verif.Py.Basic

/-!
# Independent specification of the four variable-length integer formats

Positional (base-128) reading of a byte string, with no reference to the model's encoders or decoders.
-/

namespace Verif.Spec

/-- A byte string is one delimited group iff exactly its last byte has a clear high bit. -/
def Delimited (bs : Bytes) : Prop :=
  ∃ init last, bs = init ++ [last] ∧ (∀ b ∈ init, 128 ≤ b.toNat) ∧ last.toNat < 128

/-- The 7 payload bits of a byte. -/
def low7 (b : UInt8) : Nat := b.toNat % 128

/-- Base-128 value, most significant byte first (VLQ). -/
def beValue (bs : Bytes) : Nat := bs.foldl (fun acc b => acc * 128 + low7 b) 0

/-- Base-128 value, least significant byte first (ULEB128). -/
def leValue : Bytes → Nat
  | [] => 0
  | b :: bs => low7 b + 128 * leValue bs

/-- Two's-complement reading of an unsigned number of `bits` bits. -/
def twosComplement (bits u : Nat) : Int :=
  if 2 * u < 2 ^ bits then (u : Int) else (u : Int) - 2 ^ bits

/-- Signed LEB128: the little-endian base-128 number in two's complement of `7 * length` bits. -/
def leb128Value (bs : Bytes) : Int := twosComplement (7 * bs.length) (leValue bs)

/-- Compact indices: the first byte holds a sign bit (0x40) and 6 magnitude bits, the following bytes 7 bits each,
most significant first. -/
def compactValue : Bytes → Int
  | [] => 0
  | b :: bs =>
    let magnitude : Nat := bs.foldl (fun acc b => acc * 128 + low7 b) (b.toNat % 64)
    if b.toNat % 128 < 64 then (magnitude : Int) else -(magnitude : Int)

end Verif.Spec
