import Verif.Model.CeilFloat
import Verif.Proofs.Timestamp

/-! Helper lemmas: `math.ceil(n / 7)` in binary64. -/

namespace Verif
open Spec

/-- The float quotient by 7: finite, exact for multiples of 7 and otherwise off by less than a seventh. -/
theorem div7_close {n : Nat} (h : n < 2 ^ 52) :
    binary64.roundMag n 7 < binary64.infBits ∧
      (n % 7 = 0 → mval binary64 (binary64.roundMag n 7) = (n / 7 : Nat)) ∧
      |(n : ℚ) / (7 : Nat) - mval binary64 (binary64.roundMag n 7)| < 1 / 7 := by
  have hlt : (n : ℚ) / (7 : Nat) < 2 ^ ((50 : Nat) : Int) := by
    rw [zpow_natCast, div_lt_iff₀ (by norm_num)]
    have : (n : ℚ) < 2 ^ 52 := by exact_mod_cast h
    norm_num at this ⊢
    linarith
  refine ⟨round_finite (by omega) (by omega) hlt, ?_, ?_⟩
  · intro h7
    have e : (n : ℚ) / (7 : Nat) = (n / 7 : Nat) := by
      rw [div_eq_iff (by norm_num)]
      exact_mod_cast (Nat.div_mul_cancel (Nat.dvd_of_mod_eq_zero h7)).symm
    exact ((Holds.small (n := n / 7) (by omega)).round (by omega) e).2
  · refine lt_of_le_of_lt (round_error binary64 (L := ((50 : Nat) : Int)) (by omega) (by decide) hlt) ?_
    rw [show ((50 : Nat) : Int) - binary64.mbits - 2 = -4 from by decide]
    norm_num

theorem whole_exact {m : Nat} {q : Int} : (0 ≤ q ∨ m % 2 ^ (-q).toNat = 0) ↔ (m : ℚ) * 2 ^ q = wholePart m q := by
  by_cases h : 0 ≤ q
  · simp only [h, true_or, true_iff]
    unfold wholePart
    rw [if_pos h, two_zpow_toNat h]
    push_cast
    rfl
  · have hf := fracPart_spec (m := m) (q := q) (by omega)
    have hp : (0 : ℚ) < (2 ^ (-q).toNat : Nat) := by exact_mod_cast Nat.two_pow_pos _
    simp only [h, false_or]
    constructor
    · intro h0
      rw [h0] at hf
      simp only [Nat.cast_zero, zero_div] at hf
      linarith
    · intro h0
      rw [h0, sub_self, div_eq_zero_iff] at hf
      rcases hf with hf | hf
      · exact_mod_cast hf
      · exact absurd hf (ne_of_gt hp)

/-- `int(math.ceil(a / 7))` is the exact quotient rounded up. -/
theorem ceilDiv7Float_eq {a : Int} (h : a.natAbs < 2 ^ 52) : ceilDiv7Float a = .ok (ceilDiv7 a) := by
  obtain ⟨hfin, hex, herr⟩ := div7_close h
  obtain ⟨m, q, hdec, hval⟩ := decode_withSign (decide (a < 0)) hfin
  have hw := wholePart_spec m q
  unfold ceilDiv7Float intTrueDiv
  simp only
  rw [if_neg (by omega)]
  simp only
  unfold floatCeil
  rw [hdec]
  have hn : (a.natAbs : ℚ) = 7 * (a.natAbs / 7 : Nat) + (a.natAbs % 7 : Nat) := by
    exact_mod_cast (Nat.div_add_mod a.natAbs 7).symm
  rw [abs_lt] at herr
  have hr : (a.natAbs % 7 : Nat) < 7 := Nat.mod_lt _ (by omega)
  rw [← hval] at hex herr
  generalize hN : a.natAbs / 7 = N at *
  generalize hR : a.natAbs % 7 = R at *
  generalize hW : wholePart m q = W at *
  generalize hx : (m : ℚ) * 2 ^ q = x at *
  rw [hn] at herr
  push_cast at herr
  -- the whole part of the float is the whole part of the quotient
  have hxl : (N : ℚ) ≤ x := by
    rcases Nat.eq_zero_or_pos R with h0 | h0
    · rw [hex h0]
    · have : (1 : ℚ) ≤ R := by exact_mod_cast h0
      linarith
  have hxu : x < N + 1 := by
    have : (R : ℚ) ≤ 6 := by exact_mod_cast (by omega : R ≤ 6)
    linarith
  have hWN : W = N := by
    have h1 : (W : ℚ) < N + 1 := lt_of_le_of_lt hw.1 hxu
    have h2 : (N : ℚ) < W + 1 := lt_of_le_of_lt hxl hw.2
    have h1' : W < N + 1 := by exact_mod_cast h1
    have h2' : N < W + 1 := by exact_mod_cast h2
    omega
  unfold ceilDiv7
  by_cases hs : a < 0
  · simp only [hs, decide_true]
    congr 1
    omega
  · simp only [hs, decide_false]
    have hiff : (0 ≤ q ∨ m % 2 ^ (-q).toNat = 0) ↔ R = 0 := by
      rw [whole_exact, hx, hW, hWN]
      constructor
      · intro he
        rw [he] at herr
        have : (R : ℚ) < 1 := by linarith
        have : R < 1 := by exact_mod_cast this
        omega
      · exact hex
    simp only [hiff]
    split <;> (congr 1; omega)

end Verif
