import Verif.Model.Float
import Mathlib.Algebra.Order.Field.Power
import Mathlib.Data.Rat.Cast.Order

/-!
# Specification of the IEEE 754 interchange formats

Written from §3.4 of the standard: a bit pattern is a sign bit, a biased exponent and a trailing significand.
-/

namespace Verif.Spec

/-- Sign bit. -/
def Negative (f : FloatFmt) (bits : Nat) : Prop := bits / 2 ^ (f.ebits + f.mbits) % 2 = 1

/-- Biased exponent. -/
def exponent (f : FloatFmt) (bits : Nat) : Nat := bits / 2 ^ f.mbits % 2 ^ f.ebits

/-- Trailing significand. -/
def significand (f : FloatFmt) (bits : Nat) : Nat := bits % 2 ^ f.mbits

/-- Exponent bias. -/
def bias (f : FloatFmt) : Int := 2 ^ (f.ebits - 1) - 1

def IsNaN (f : FloatFmt) (bits : Nat) : Prop := exponent f bits = 2 ^ f.ebits - 1 ∧ significand f bits ≠ 0
def IsInfinite (f : FloatFmt) (bits : Nat) : Prop := exponent f bits = 2 ^ f.ebits - 1 ∧ significand f bits = 0
def IsFinite (f : FloatFmt) (bits : Nat) : Prop := exponent f bits ≠ 2 ^ f.ebits - 1

instance (f : FloatFmt) (bits : Nat) : Decidable (Negative f bits) := by unfold Negative; infer_instance
instance (f : FloatFmt) (bits : Nat) : Decidable (IsNaN f bits) := by unfold IsNaN; infer_instance
instance (f : FloatFmt) (bits : Nat) : Decidable (IsFinite f bits) := by unfold IsFinite; infer_instance

/-- The absolute value a finite bit pattern stands for. -/
def magnitude (f : FloatFmt) (bits : Nat) : ℚ :=
  if exponent f bits = 0 then 2 ^ (1 - bias f) * ((significand f bits : ℚ) / 2 ^ f.mbits)
  else 2 ^ ((exponent f bits : Int) - bias f) * (1 + (significand f bits : ℚ) / 2 ^ f.mbits)

/-- Two finite bit patterns, possibly of different formats, standing for the same number (zeros of different sign are
different numbers here). -/
def SameNumber (f : FloatFmt) (a : Nat) (g : FloatFmt) (b : Nat) : Prop :=
  IsFinite f a ∧ IsFinite g b ∧ (Negative f a ↔ Negative g b) ∧ magnitude f a = magnitude g b

/-- Infinities of the same sign. -/
def SameInfinity (f : FloatFmt) (a : Nat) (g : FloatFmt) (b : Nat) : Prop :=
  IsInfinite f a ∧ IsInfinite g b ∧ (Negative f a ↔ Negative g b)

/-- The number a finite binary64 pattern stands for. -/
def floatNumber (x : Nat) : ℚ := if Negative binary64 x then -magnitude binary64 x else magnitude binary64 x

/-- The three formats that `Float16`, `Float32` and `Float64` use. -/
def Standard (f : FloatFmt) : Prop := f = binary16 ∨ f = binary32 ∨ f = binary64

/-- The largest finite number of the format. -/
def largest (f : FloatFmt) : ℚ := 2 ^ bias f * (2 - 1 / 2 ^ f.mbits)

/-- Half the gap above the largest finite number: from `largest + halfGap` on, rounding to nearest gives infinity. -/
def halfGap (f : FloatFmt) : ℚ := 2 ^ (bias f - f.mbits - 1)

end Verif.Spec
