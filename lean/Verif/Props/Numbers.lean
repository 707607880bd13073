import Verif.Proofs.Numbers
import Verif.Props.Equality

/-! Property theorems: numbers compare by value. -/

namespace Verif
open Spec

/-! ## C59, numbers: an int equals a float with exactly the same value, in either order.  (The float is
never rounded, and an int is never converted to a float.) -/

theorem C59_int_float {Γ : Classes} (i : Int) {x : Nat} (hx : Fits binary64 x) :
    (EqReturns Γ (.int i) (.float x) true ↔ IsFinite binary64 x ∧ floatNumber x = i) ∧
    (EqReturns Γ (.float x) (.int i) true ↔ IsFinite binary64 x ∧ floatNumber x = i) ∧
    (Same (.int i) (.float x) ↔ IsFinite binary64 x ∧ floatNumber x = i) ∧
    (Same (.float x) (.int i) ↔ IsFinite binary64 x ∧ floatNumber x = i) := by
  refine ⟨⟨?_, fun h => ⟨1, ?_⟩⟩, ⟨?_, fun h => ⟨1, ?_⟩⟩, ⟨?_, fun h => .scalar ?_⟩, ⟨?_, fun h => .scalar ?_⟩⟩
  · rintro ⟨n, hn⟩
    cases n with
    | zero => simp [pyEq] at hn
    | succ n => rw [← intEqFloat_iff i hx]; simpa [pyEq] using hn
  · rw [← intEqFloat_iff i hx] at h; simp [pyEq, h]
  · rintro ⟨n, hn⟩
    cases n with
    | zero => simp [pyEq] at hn
    | succ n => rw [← intEqFloat_iff i hx]; simpa [pyEq] using hn
  · rw [← intEqFloat_iff i hx] at h; simp [pyEq, h]
  · rintro ⟨h⟩; exact (intEqFloat_iff i hx).1 h
  · exact (intEqFloat_iff i hx).2 h
  · rintro ⟨h⟩; exact (intEqFloat_iff i hx).1 h
  · exact (intEqFloat_iff i hx).2 h

/-- Two floats are equal when they are finite with the same value, or the same infinity.  So `0.0 == -0.0`, and NaN
equals nothing. -/
theorem C59_float_float {Γ : Classes} {x y : Nat} (hx : Fits binary64 x) (hy : Fits binary64 y) :
    (EqReturns Γ (.float x) (.float y) true ↔
      (IsFinite binary64 x ∧ IsFinite binary64 y ∧ floatNumber x = floatNumber y) ∨ SameInfinity binary64 x binary64 y) ∧
    (Same (.float x) (.float y) ↔
      (IsFinite binary64 x ∧ IsFinite binary64 y ∧ floatNumber x = floatNumber y) ∨ SameInfinity binary64 x binary64 y) := by
  refine ⟨⟨?_, fun h => ⟨1, ?_⟩⟩, ⟨?_, fun h => .scalar ?_⟩⟩
  · rintro ⟨n, hn⟩
    cases n with
    | zero => simp [pyEq] at hn
    | succ n => rw [← floatEq_iff hx hy]; simpa [pyEq] using hn
  · rw [← floatEq_iff hx hy] at h; simp [pyEq, h]
  · rintro ⟨h⟩; exact (floatEq_iff hx hy).1 h
  · exact (floatEq_iff hx hy).2 h

/-! ### The hypotheses can be met -/

/-- `3 == 3.0`, `2 ** 53 + 1 != 9007199254740992.0`, `0.0 == -0.0`, and NaN differs from itself. -/
example : Fits binary64 0x4008000000000000 ∧ EqReturns Sample.noClasses (.int 3) (.float 0x4008000000000000) true ∧
    EqReturns Sample.noClasses (.int 9007199254740993) (.float 0x4340000000000000) false ∧
    EqReturns Sample.noClasses (.float 0) (.float 0x8000000000000000) true ∧
    EqReturns Sample.noClasses (.float 0x7FF8000000000000) (.float 0x7FF8000000000000) false :=
  ⟨by unfold Fits; decide, ⟨1, by decide +kernel⟩, ⟨1, by decide +kernel⟩, ⟨1, by decide +kernel⟩, ⟨1, by decide +kernel⟩⟩

example : ∃ x, Fits binary64 x ∧ IsFinite binary64 x ∧ floatNumber x = (3 : Int) :=
  ⟨0x4008000000000000, by unfold Fits; decide, by unfold IsFinite; decide,
    ((C59_int_float (Γ := Sample.noClasses) 3 (by unfold Fits; decide)).1.1 ⟨1, by decide +kernel⟩).2⟩

end Verif
