import Verif.Spec.Float
import Mathlib.Tactic.Linarith
import Mathlib.Tactic.Ring
import Mathlib.Tactic.FieldSimp
import Mathlib.Tactic.NormNum
import Mathlib.Tactic.Positivity

/-! Helper lemmas about floating-point numbers. -/

namespace Verif
open Spec

theorem two_zpow_pos (q : Int) : (0 : ℚ) < 2 ^ q := zpow_pos (by norm_num) q

theorem two_zpow_add (a b : Int) : (2 : ℚ) ^ (a + b) = 2 ^ a * 2 ^ b := zpow_add₀ (by norm_num) a b

theorem two_zpow_toNat {q : Int} (h : 0 ≤ q) : (2 : ℚ) ^ q = ((2 ^ q.toNat : Nat) : ℚ) := by
  conv => lhs; rw [← Int.toNat_of_nonneg h]
  rw [zpow_natCast]
  push_cast
  rfl

theorem two_zpow_neg_toNat {q : Int} (h : q < 0) : (2 : ℚ) ^ q = (((2 ^ (-q).toNat : Nat) : ℚ))⁻¹ := by
  have : (2 : ℚ) ^ (-q) = ((2 ^ (-q).toNat : Nat) : ℚ) := two_zpow_toNat (by omega)
  rw [← this, zpow_neg, inv_inv]

theorem two_zpow_lt {a b : Int} : (2 : ℚ) ^ a < 2 ^ b ↔ a < b := zpow_lt_zpow_iff_right₀ (by norm_num)
theorem two_zpow_le {a b : Int} : (2 : ℚ) ^ a ≤ 2 ^ b ↔ a ≤ b := zpow_le_zpow_iff_right₀ (by norm_num)

theorem divmod_of {M B q t : Nat} (h : M = q * B + t) (ht : t < B) : M / B = q ∧ M % B = t := by
  subst h
  constructor
  · rw [Nat.add_comm, Nat.add_mul_div_right _ _ (by omega), Nat.div_eq_of_lt ht, Nat.zero_add]
  · rw [Nat.add_comm, Nat.add_mul_mod_self_right, Nat.mod_eq_of_lt ht]

/-! ### Magnitudes -/

/-- The number that magnitude bits `M` stand for (also meaningful at and above `infBits`). -/
def mval (f : FloatFmt) (M : Nat) : ℚ :=
  if M / 2 ^ f.mbits = 0 then (M % 2 ^ f.mbits : Nat) * 2 ^ f.qmin
  else ((2 ^ f.mbits + M % 2 ^ f.mbits : Nat) : ℚ) * 2 ^ (f.qmin + ((M / 2 ^ f.mbits - 1 : Nat) : Int))

theorem mval_succ (f : FloatFmt) (M : Nat) :
    mval f (M + 1) = mval f M + 2 ^ (f.qmin + ((M / 2 ^ f.mbits - 1 : Nat) : Int)) := by
  have hB : 0 < 2 ^ f.mbits := Nat.two_pow_pos _
  unfold mval
  generalize hBB : (2 : Nat) ^ f.mbits = B at hB ⊢
  have hd := Nat.div_add_mod M B
  have hm := Nat.mod_lt M hB
  by_cases hr : M % B + 1 = B
  · obtain ⟨h1, h2⟩ : (M + 1) / B = M / B + 1 ∧ (M + 1) % B = 0 := by
      apply divmod_of _ hB
      rw [Nat.add_mul, Nat.mul_comm (M / B)]
      omega
    rw [h1, h2, if_neg (Nat.succ_ne_zero _)]
    have hBq : (B : ℚ) = (M % B : Nat) + 1 := by exact_mod_cast hr.symm
    by_cases h0 : M / B = 0
    · rw [if_pos h0, h0]
      simp only [Nat.zero_add, Nat.sub_self, Nat.zero_sub, Nat.cast_zero, add_zero, hBq]
      ring
    · rw [if_neg h0]
      have h3 : ((M / B + 1 - 1 : Nat) : Int) = ((M / B - 1 : Nat) : Int) + 1 := by
        generalize M / B = c at h0
        omega
      rw [h3, ← add_assoc, two_zpow_add _ 1]
      push_cast
      rw [hBq]
      ring
  · obtain ⟨h1, h2⟩ : (M + 1) / B = M / B ∧ (M + 1) % B = M % B + 1 := by
      apply divmod_of _ (by omega)
      rw [Nat.mul_comm (M / B)]
      omega
    rw [h1, h2]
    by_cases h0 : M / B = 0
    · rw [if_pos h0, if_pos h0, h0]
      simp only [Nat.zero_sub, Nat.cast_zero, add_zero]
      push_cast
      ring
    · rw [if_neg h0, if_neg h0]
      push_cast
      ring

theorem mval_strictMono (f : FloatFmt) : StrictMono (mval f) := by
  apply strictMono_nat_of_lt_succ
  intro M
  rw [mval_succ]
  have := two_zpow_pos (f.qmin + ((M / 2 ^ f.mbits - 1 : Nat) : Int))
  linarith

theorem mval_of (f : FloatFmt) {k r : Nat} (hr : r ≤ 2 * 2 ^ f.mbits) (hk : k = 0 ∨ 2 ^ f.mbits ≤ r) :
    mval f (k * 2 ^ f.mbits + r) = r * 2 ^ (f.qmin + (k : Int)) := by
  have hB : 0 < 2 ^ f.mbits := Nat.two_pow_pos _
  unfold mval
  generalize hBB : (2 : Nat) ^ f.mbits = B at hB hr hk ⊢
  by_cases h1 : r < B
  · have hk : k = 0 := by omega
    subst hk
    simp [Nat.div_eq_of_lt h1, Nat.mod_eq_of_lt h1]
  · by_cases h2 : r < 2 * B
    · obtain ⟨h3, h4⟩ : (k * B + r) / B = k + 1 ∧ (k * B + r) % B = r - B := by
        apply divmod_of _ (by omega)
        rw [Nat.add_mul]
        omega
      rw [h3, h4, if_neg (by omega)]
      have h6 : B + (r - B) = r := by omega
      rw [h6]
      simp
    · have hr2 : r = 2 * B := by omega
      subst hr2
      obtain ⟨h3, h4⟩ : (k * B + 2 * B) / B = k + 2 ∧ (k * B + 2 * B) % B = 0 := by
        apply divmod_of _ hB
        rw [Nat.add_mul]
        omega
      rw [h3, h4, if_neg (by omega)]
      have h6 : ((k + 2 - 1 : Nat) : Int) = k + 1 := by omega
      rw [h6, ← add_assoc, two_zpow_add _ 1]
      push_cast
      ring

/-! ### Rounding -/

theorem divRoundEven_spec (a b : Nat) (hb : 0 < b) :
    2 * |(a : ℚ) / b - divRoundEven a b| ≤ 1 ∧ (2 * |(a : ℚ) / b - divRoundEven a b| = 1 → divRoundEven a b % 2 = 0) := by
  have hd : (a : ℚ) = b * (a / b : Nat) + (a % b : Nat) := by exact_mod_cast (Nat.div_add_mod a b).symm
  have hm : a % b < b := Nat.mod_lt a hb
  have hbq : (0 : ℚ) < b := by exact_mod_cast hb
  have hq : (a : ℚ) / b = (a / b : Nat) + (a % b : Nat) / b := by
    rw [hd]; field_simp
  rw [hq]
  unfold divRoundEven
  generalize a / b = q at *
  generalize a % b = r at *
  have hr0 : (0 : ℚ) ≤ r / b := by positivity
  simp only
  by_cases h1 : 2 * r < b
  · rw [if_pos h1]
    have : 2 * ((r : ℚ) / b) < 1 := by
      rw [← mul_div_assoc, div_lt_one hbq]; exact_mod_cast h1
    have e : |(q : ℚ) + r / b - q| = r / b := by rw [add_sub_cancel_left, abs_of_nonneg hr0]
    rw [e]
    exact ⟨by linarith, fun h => by linarith⟩
  · rw [if_neg h1]
    by_cases h2 : b < 2 * r
    · rw [if_pos h2]
      have h3 : 1 < 2 * ((r : ℚ) / b) := by
        rw [← mul_div_assoc, lt_div_iff₀ hbq, one_mul]; exact_mod_cast h2
      have h4 : (r : ℚ) / b < 1 := by rw [div_lt_one hbq]; exact_mod_cast hm
      have e : |(q : ℚ) + r / b - (q + 1 : Nat)| = 1 - r / b := by
        push_cast
        rw [abs_of_nonpos (by linarith)]; ring
      rw [e]
      exact ⟨by linarith, fun h => by linarith⟩
    · rw [if_neg h2]
      have h5 : 2 * r = b := by omega
      have h6 : (r : ℚ) / b = 1 / 2 := by
        rw [div_eq_iff (by positivity), ← h5]; push_cast; ring
      by_cases h7 : q % 2 = 0
      · rw [if_pos h7, h6]
        refine ⟨?_, fun _ => h7⟩
        rw [add_sub_cancel_left]; norm_num
      · rw [if_neg h7, h6]
        refine ⟨?_, fun _ => by omega⟩
        have e : (q : ℚ) + 1 / 2 - (q + 1 : Nat) = -(1 / 2) := by push_cast; ring
        rw [e]; norm_num

/-- Nearest integers are at least as near as any other integer. -/
theorem nearest_int {y : ℚ} {r : Nat} (h : 2 * |y - r| ≤ 1) (k : Int) : |y - r| ≤ |y - k| := by
  by_cases hk : k = r
  · rw [hk]; push_cast; exact le_refl _
  · have h1 : (1 : ℚ) ≤ |(k : ℚ) - r| := by
      have : (1 : Int) ≤ |k - r| := Int.one_le_abs (by omega)
      exact_mod_cast this
    have h2 : |(k : ℚ) - r| ≤ |y - k| + |y - r| := by
      have := abs_sub_le (k : ℚ) y r
      rw [abs_sub_comm (k : ℚ) y] at this
      linarith
    linarith

theorem scaleRound_spec (num den : Nat) (q : Int) (hd : 0 < den) :
    2 * |(num : ℚ) / den / 2 ^ q - scaleRound num den q| ≤ 1 ∧
      (2 * |(num : ℚ) / den / 2 ^ q - scaleRound num den q| = 1 → scaleRound num den q % 2 = 0) := by
  unfold scaleRound
  by_cases h : 0 ≤ q
  · rw [if_pos h]
    have := divRoundEven_spec num (den * 2 ^ q.toNat) (Nat.mul_pos hd (Nat.two_pow_pos _))
    have e : (num : ℚ) / den / 2 ^ q = num / (den * 2 ^ q.toNat : Nat) := by
      rw [two_zpow_toNat h, div_div]; push_cast; rfl
    rw [e]
    exact this
  · rw [if_neg h]
    have := divRoundEven_spec (num * 2 ^ (-q).toNat) den hd
    have e : (num : ℚ) / den / 2 ^ q = (num * 2 ^ (-q).toNat : Nat) / den := by
      rw [two_zpow_neg_toNat (by omega), div_inv_eq_mul]; push_cast; ring
    rw [e]
    exact this

theorem log2_bounds {n : Nat} (h : 0 < n) : (2 : ℚ) ^ (Nat.log2 n : Int) ≤ n ∧ (n : ℚ) < 2 ^ ((Nat.log2 n : Int) + 1) := by
  have h1 : 2 ^ Nat.log2 n ≤ n := Nat.log2_self_le (by omega)
  have h2 : n < 2 ^ (Nat.log2 n + 1) := Nat.lt_log2_self
  constructor
  · rw [zpow_natCast]; exact_mod_cast h1
  · have : (2 : ℚ) ^ ((Nat.log2 n : Int) + 1) = 2 ^ (Nat.log2 n + 1) := by
      rw [← zpow_natCast]; push_cast; rfl
    rw [this]; exact_mod_cast h2

theorem floorLog2_spec {num den : Nat} (hn : 0 < num) (hd : 0 < den) :
    (2 : ℚ) ^ floorLog2 num den ≤ (num : ℚ) / den ∧ (num : ℚ) / den < 2 ^ (floorLog2 num den + 1) := by
  obtain ⟨n1, n2⟩ := log2_bounds hn
  obtain ⟨d1, d2⟩ := log2_bounds hd
  have hdq : (0 : ℚ) < den := by exact_mod_cast hd
  have hnq : (0 : ℚ) < num := by exact_mod_cast hn
  unfold floorLog2
  generalize ha : (Nat.log2 num : Int) = a at *
  generalize hb : (Nat.log2 den : Int) = b at *
  simp only
  -- bounds with k = a - b
  have lo : (2 : ℚ) ^ (a - b - 1) < num / den := by
    rw [lt_div_iff₀ hdq]
    calc (2 : ℚ) ^ (a - b - 1) * den < 2 ^ (a - b - 1) * 2 ^ (b + 1) := by
            apply mul_lt_mul_of_pos_left d2 (two_zpow_pos _)
      _ = 2 ^ a := by rw [← two_zpow_add]; congr 1; ring
      _ ≤ num := n1
  have hi : (num : ℚ) / den < 2 ^ (a - b + 1) := by
    rw [div_lt_iff₀ hdq]
    calc (num : ℚ) < 2 ^ (a + 1) := n2
      _ = 2 ^ (a - b + 1) * 2 ^ b := by rw [← two_zpow_add]; congr 1; ring
      _ ≤ 2 ^ (a - b + 1) * den := by apply mul_le_mul_of_nonneg_left d1 (le_of_lt (two_zpow_pos _))
  by_cases h0 : 0 ≤ a - b
  · rw [if_pos h0]
    have key : den * 2 ^ (a - b).toNat ≤ num ↔ (2 : ℚ) ^ (a - b) ≤ num / den := by
      rw [le_div_iff₀ hdq, two_zpow_toNat h0, mul_comm]
      exact_mod_cast Iff.rfl
    by_cases h1 : den * 2 ^ (a - b).toNat ≤ num
    · rw [if_pos h1]; exact ⟨key.1 h1, hi⟩
    · rw [if_neg h1]
      refine ⟨le_of_lt lo, ?_⟩
      rw [show a - b - 1 + 1 = a - b by ring]
      exact not_le.1 fun h => h1 (key.2 h)
  · rw [if_neg h0]
    have key : den ≤ num * 2 ^ (-(a - b)).toNat ↔ (2 : ℚ) ^ (a - b) ≤ num / den := by
      have hp : (0 : ℚ) < ((2 ^ (-(a - b)).toNat : Nat) : ℚ) := by exact_mod_cast Nat.two_pow_pos _
      rw [le_div_iff₀ hdq, two_zpow_neg_toNat (by omega), inv_mul_le_iff₀ hp, mul_comm]
      exact_mod_cast Iff.rfl
    by_cases h1 : den ≤ num * 2 ^ (-(a - b)).toNat
    · rw [if_pos h1]; exact ⟨key.1 h1, hi⟩
    · rw [if_neg h1]
      refine ⟨le_of_lt lo, ?_⟩
      rw [show a - b - 1 + 1 = a - b by ring]
      exact not_le.1 fun h => h1 (key.2 h)

/-- What rounding does: it picks a unit `2^(qmin + k)` and an integral multiple `r` of it. -/
theorem roundMag_shape (f : FloatFmt) {num den : Nat} (hn : 0 < num) (hd : 0 < den) :
    ∃ k r : Nat, f.roundMag num den = k * 2 ^ f.mbits + r ∧ mval f (f.roundMag num den) = r * 2 ^ (f.qmin + (k : Int)) ∧
      r ≤ 2 * 2 ^ f.mbits ∧ (num : ℚ) / den < 2 * 2 ^ f.mbits * 2 ^ (f.qmin + (k : Int)) ∧
      (k = 0 ∨ ((2 : ℚ) ^ f.mbits * 2 ^ (f.qmin + (k : Int)) ≤ num / den ∧ 2 ^ f.mbits ≤ r)) ∧
      2 * |(num : ℚ) / den / 2 ^ (f.qmin + (k : Int)) - r| ≤ 1 ∧
      (2 * |(num : ℚ) / den / 2 ^ (f.qmin + (k : Int)) - r| = 1 → r % 2 = 0) := by
  obtain ⟨l1, l2⟩ := floorLog2_spec hn hd
  unfold FloatFmt.roundMag
  rw [if_neg (by omega)]
  simp only
  generalize floorLog2 num den = L at *
  generalize hq : max (L - (f.mbits : Int)) f.qmin = q
  have hq0 : f.qmin ≤ q := by rw [← hq]; exact le_max_right _ _
  have hqL : L - f.mbits ≤ q := by rw [← hq]; exact le_max_left _ _
  have hqe : q = f.qmin + ((q - f.qmin).toNat : Int) := by omega
  have s := scaleRound_spec num den q hd
  generalize hk : (q - f.qmin).toNat = k at *
  generalize hr : scaleRound num den q = r at *
  have hu : (0 : ℚ) < 2 ^ q := two_zpow_pos q
  have hB : ((2 : ℚ) ^ f.mbits) = 2 ^ (f.mbits : Int) := by rw [zpow_natCast]
  -- the quotient is below 2^(mbits+1)
  have y1 : (num : ℚ) / den < 2 * 2 ^ f.mbits * 2 ^ q := by
    calc (num : ℚ) / den < 2 ^ (L + 1) := l2
      _ ≤ 2 ^ (1 + (f.mbits : Int) + q) := two_zpow_le.2 (by omega)
      _ = 2 * 2 ^ f.mbits * 2 ^ q := by rw [two_zpow_add, two_zpow_add, hB]; norm_num
  have y2 : (num : ℚ) / den / 2 ^ q < 2 * 2 ^ f.mbits := by rw [div_lt_iff₀ hu]; exact y1
  have hr2 : r ≤ 2 * 2 ^ f.mbits := by
    by_contra hc
    have h1 : ((2 * 2 ^ f.mbits + 1 : Nat) : ℚ) ≤ r := by exact_mod_cast (by omega : 2 * 2 ^ f.mbits + 1 ≤ r)
    push_cast at h1
    have := abs_le.1 (show |(num : ℚ) / den / 2 ^ q - r| ≤ 1 / 2 by linarith [s.1])
    linarith
  have low : k = 0 ∨ ((2 : ℚ) ^ f.mbits * 2 ^ q ≤ num / den ∧ 2 ^ f.mbits ≤ r) := by
    by_cases hk0 : k = 0
    · exact Or.inl hk0
    · right
      have hLq : q = L - f.mbits := by
        rw [← hq]; apply max_eq_left
        by_contra hc
        have : q = f.qmin := by rw [← hq]; exact max_eq_right (by omega)
        omega
      have h1 : (2 : ℚ) ^ f.mbits * 2 ^ q ≤ num / den := by
        rw [hB, ← two_zpow_add, hLq, show (f.mbits : Int) + (L - f.mbits) = L by ring]; exact l1
      refine ⟨h1, ?_⟩
      by_contra hc
      have h2 : (r : ℚ) + 1 ≤ 2 ^ f.mbits := by exact_mod_cast (by omega : r + 1 ≤ 2 ^ f.mbits)
      have h3 : (2 : ℚ) ^ f.mbits ≤ num / den / 2 ^ q := by rw [le_div_iff₀ hu]; exact h1
      have := abs_le.1 (show |(num : ℚ) / den / 2 ^ q - r| ≤ 1 / 2 by linarith [s.1])
      linarith
  refine ⟨k, r, rfl, ?_, hr2, by rw [← hqe]; exact y1, by rw [← hqe]; exact low, by rw [← hqe]; exact s⟩
  rw [mval_of f hr2 (by rcases low with h | h; exact Or.inl h; exact Or.inr h.2)]

/-- Every magnitude is an integral multiple of the unit of its binade. -/
theorem mval_multiple (f : FloatFmt) (M k : Nat) (h : (2 : ℚ) ^ f.mbits * 2 ^ (f.qmin + (k : Int)) ≤ mval f M ∨ k = 0) :
    ∃ c : Int, mval f M = c * 2 ^ (f.qmin + (k : Int)) := by
  have hB : 0 < 2 ^ f.mbits := Nat.two_pow_pos _
  have hlt := Nat.mod_lt M hB
  by_cases h0 : M / 2 ^ f.mbits = 0
  · have hv : mval f M = (M % 2 ^ f.mbits : Nat) * 2 ^ f.qmin := by unfold mval; rw [if_pos h0]
    have hk : k = 0 := by
      rcases h with h | h
      · by_contra hk
        rw [hv] at h
        have h1 : ((M % 2 ^ f.mbits : Nat) : ℚ) < 2 ^ f.mbits := by exact_mod_cast hlt
        have h2 : (2 : ℚ) ^ f.qmin ≤ 2 ^ (f.qmin + (k : Int)) := two_zpow_le.2 (by omega)
        have h3 := two_zpow_pos f.qmin
        have h4 : (0 : ℚ) < 2 ^ f.mbits := by positivity
        nlinarith
      · exact h
    subst hk
    exact ⟨((M % 2 ^ f.mbits : Nat) : Int), by rw [hv, Int.cast_natCast]; simp⟩
  · have hv : mval f M = ((2 ^ f.mbits + M % 2 ^ f.mbits : Nat) : ℚ) * 2 ^ (f.qmin + ((M / 2 ^ f.mbits - 1 : Nat) : Int)) := by
      unfold mval; rw [if_neg h0]
    generalize M / 2 ^ f.mbits - 1 = j at hv
    have hjk : k ≤ j := by
      rcases h with h | h
      · rw [hv] at h
        have h1 : ((2 ^ f.mbits + M % 2 ^ f.mbits : Nat) : ℚ) < 2 * 2 ^ f.mbits := by
          exact_mod_cast (by omega : 2 ^ f.mbits + M % 2 ^ f.mbits < 2 * 2 ^ f.mbits)
        have h2 := two_zpow_pos (f.qmin + (j : Int))
        have h4 : (0 : ℚ) < 2 ^ f.mbits := by positivity
        have h5 : (2 : ℚ) ^ f.mbits * 2 ^ (f.qmin + (k : Int)) < 2 ^ f.mbits * (2 * 2 ^ (f.qmin + (j : Int))) := by
          calc _ ≤ _ := h
            _ < 2 * 2 ^ f.mbits * 2 ^ (f.qmin + (j : Int)) := mul_lt_mul_of_pos_right h1 h2
            _ = _ := by ring
        have h6 : (2 : ℚ) ^ (f.qmin + (k : Int)) < 2 ^ (f.qmin + (j : Int) + 1) := by
          rw [two_zpow_add _ 1, zpow_one, mul_comm _ (2 : ℚ)]
          exact lt_of_mul_lt_mul_left h5 (le_of_lt h4)
        have := two_zpow_lt.1 h6
        omega
      · omega
    refine ⟨(((2 ^ f.mbits + M % 2 ^ f.mbits) * 2 ^ (j - k) : Nat) : Int), ?_⟩
    rw [Int.cast_natCast, hv, show f.qmin + (j : Int) = ((j - k : Nat) : Int) + (f.qmin + (k : Int)) by omega, two_zpow_add, zpow_natCast]
    push_cast
    ring

/-- Rounding picks a nearest magnitude. -/
theorem roundMag_nearest (f : FloatFmt) (num den : Nat) (hd : 0 < den) (M : Nat) :
    |(num : ℚ) / den - mval f (f.roundMag num den)| ≤ |(num : ℚ) / den - mval f M| := by
  by_cases hn : num = 0
  · subst hn
    have : mval f (f.roundMag 0 den) = 0 := by simp [FloatFmt.roundMag, mval]
    rw [this]
    simp
  · obtain ⟨k, r, _, hv, _, _, hlow, hs, _⟩ := roundMag_shape f (Nat.pos_of_ne_zero hn) hd
    rw [hv]
    generalize hu : (2 : ℚ) ^ (f.qmin + (k : Int)) = u at *
    have hu0 : 0 < u := hu ▸ two_zpow_pos _
    generalize (num : ℚ) / den = x at *
    -- compare with integral multiples of the unit
    have mult : ∀ c : Int, |x - r * u| ≤ |x - c * u| := by
      intro c
      have h1 := nearest_int hs c
      have e : ∀ t : ℚ, |x - t * u| = |x / u - t| * u := by
        intro t
        rw [← abs_of_pos hu0, ← abs_mul, abs_of_pos hu0]
        congr 1
        field_simp
      rw [e, e]
      exact mul_le_mul_of_nonneg_right h1 (le_of_lt hu0)
    by_cases hM : (2 : ℚ) ^ f.mbits * u ≤ mval f M ∨ k = 0
    · obtain ⟨c, hc⟩ := mval_multiple f M k (by rw [hu]; exact hM)
      rw [hc, hu]
      exact mult c
    · rw [not_or] at hM
      have hx : (2 : ℚ) ^ f.mbits * u ≤ x := (hlow.resolve_left hM.2).1
      have h1 := mult ((2 ^ f.mbits : Nat) : Int)
      push_cast at h1
      have h2 := not_le.1 hM.1
      calc |x - r * u| ≤ |x - 2 ^ f.mbits * u| := h1
        _ = x - 2 ^ f.mbits * u := abs_of_nonneg (by linarith)
        _ ≤ x - mval f M := by linarith
        _ ≤ |x - mval f M| := le_abs_self _

/-- Representable numbers are not changed by rounding. -/
theorem roundMag_exact (f : FloatFmt) {num den M : Nat} (hd : 0 < den) (h : (num : ℚ) / den = mval f M) :
    f.roundMag num den = M := by
  have h1 := roundMag_nearest f num den hd M
  rw [h] at h1
  simp only [sub_self, abs_zero] at h1
  have h2 := abs_nonpos_iff.1 h1
  have h3 : mval f (f.roundMag num den) = mval f M := by linarith
  exact (mval_strictMono f).injective h3

/-- A tie between neighbours goes to the even one. -/
theorem roundMag_tie (f : FloatFmt) (hf : 1 ≤ f.mbits) {num den M : Nat} (hd : 0 < den)
    (h : (num : ℚ) / den = (mval f M + mval f (M + 1)) / 2) (hM : f.roundMag num den = M) : M % 2 = 0 := by
  by_cases hn : num = 0
  · subst hn; rw [← hM]; simp [FloatFmt.roundMag]
  · obtain ⟨k, r, he, hv, hr, hx, hlow, _, ht⟩ := roundMag_shape f (Nat.pos_of_ne_zero hn) hd
    rw [hM] at he hv
    have hB : 0 < 2 ^ f.mbits := Nat.two_pow_pos _
    have hBeven : 2 ^ f.mbits % 2 = 0 := by
      obtain ⟨c, hc⟩ : ∃ c, f.mbits = c + 1 := ⟨f.mbits - 1, by omega⟩
      rw [hc, Nat.pow_succ]; omega
    have hs := mval_succ f M
    have hu0 := two_zpow_pos (f.qmin + (k : Int))
    -- the unit of M is the unit of the rounding
    have hd' : M / 2 ^ f.mbits - 1 = k := by
      by_cases h1 : r < 2 ^ f.mbits
      · have hk : k = 0 := by
          rcases hlow with h | h
          · exact h
          · omega
        subst hk
        rw [he]
        simp [Nat.div_eq_of_lt h1]
      · by_cases h2 : r < 2 * 2 ^ f.mbits
        · have : M / 2 ^ f.mbits = k + 1 := by
            refine (divmod_of (t := r - 2 ^ f.mbits) ?_ (by omega)).1
            rw [he, Nat.add_mul]
            omega
          omega
        · exfalso
          have hr2 : r = 2 * 2 ^ f.mbits := by omega
          rw [hr2] at hv
          push_cast at hv
          have := mval_strictMono f (Nat.lt_succ_self M)
          simp only [Nat.succ_eq_add_one] at this
          linarith
    rw [hd'] at hs
    have h3 : 2 * |(num : ℚ) / den / 2 ^ (f.qmin + (k : Int)) - r| = 1 := by
      have : (num : ℚ) / den / 2 ^ (f.qmin + (k : Int)) - r = 1 / 2 := by
        rw [h, hs, hv]
        field_simp
        ring
      rw [this]; norm_num
    have h4 := ht h3
    rw [he, Nat.add_mod, Nat.mul_mod, hBeven]
    omega

/-- When rounding reaches at least an even magnitude. -/
theorem roundMag_ge (f : FloatFmt) (hf : 1 ≤ f.mbits) {num den : Nat} (hd : 0 < den) {N : Nat} (hN : (N + 1) % 2 = 0) :
    N + 1 ≤ f.roundMag num den ↔ (mval f N + mval f (N + 1)) / 2 ≤ (num : ℚ) / den := by
  have hmono := mval_strictMono f
  generalize hM : f.roundMag num den = M
  have near := roundMag_nearest f num den hd
  rw [hM] at near
  have tie := roundMag_tie f hf (num := num) hd (M := M)
  generalize (num : ℚ) / den = x at *
  have hs : mval f N < mval f (N + 1) := hmono (Nat.lt_succ_self N)
  constructor
  · intro h
    have h1 := hmono.monotone h
    have h2 := near N
    by_contra hc
    have hc := not_le.1 hc
    have e1 : |x - mval f M| = mval f M - x := by rw [abs_of_nonpos (by linarith)]; ring
    rw [e1] at h2
    have : |x - mval f N| < mval f M - x := by
      rw [abs_lt]; constructor <;> linarith
    linarith
  · intro h
    by_contra hc
    have hMN : M ≤ N := by omega
    have h1 := hmono.monotone hMN
    have h2 := near (N + 1)
    have e1 : |x - mval f M| = x - mval f M := abs_of_nonneg (by linarith)
    rw [e1] at h2
    rcases le_abs'.1 h2 with h3 | h3
    · have h4 : mval f M = mval f N := by linarith
      have h5 := hmono.injective h4
      subst h5
      have := tie (by linarith) hM
      omega
    · linarith

/-! ### Dyadic numbers -/

theorem roundDyadic_eq (f : FloatFmt) (m : Nat) (q : Int) :
    ∃ num den : Nat, 0 < den ∧ (num : ℚ) / den = m * 2 ^ q ∧ f.roundDyadic m q = f.roundMag num den := by
  unfold FloatFmt.roundDyadic
  by_cases h : 0 ≤ q
  · refine ⟨m * 2 ^ q.toNat, 1, by omega, ?_, if_pos h⟩
    rw [two_zpow_toNat h]; push_cast; ring
  · refine ⟨m, 2 ^ (-q).toNat, Nat.two_pow_pos _, ?_, if_neg h⟩
    rw [two_zpow_neg_toNat (by omega), div_eq_mul_inv]

theorem roundDyadic_exact (f : FloatFmt) {m M : Nat} {q : Int} (h : (m : ℚ) * 2 ^ q = mval f M) : f.roundDyadic m q = M := by
  obtain ⟨num, den, hd, hx, he⟩ := roundDyadic_eq f m q
  rw [he]
  exact roundMag_exact f hd (hx.trans h)

/-- Numbers with few digits and a large enough exponent are representable. -/
theorem roundDyadic_representable (f : FloatFmt) {m : Nat} {q : Int} (hm : m < 2 * 2 ^ f.mbits) (hq : f.qmin ≤ q) :
    mval f (f.roundDyadic m q) = m * 2 ^ q := by
  obtain ⟨num, den, hd, hx, he⟩ := roundDyadic_eq f m q
  rw [he]
  by_cases hn : num = 0
  · subst hn
    rw [← hx]
    simp [FloatFmt.roundMag, mval]
  · obtain ⟨k, r, _, hv, _, _, hlow, hs, _⟩ := roundMag_shape f (Nat.pos_of_ne_zero hn) hd
    rw [hx] at hlow hs
    rw [hv]
    have hkq : f.qmin + (k : Int) ≤ q := by
      rcases hlow with h | h
      · omega
      · have h1 : (m : ℚ) < 2 * 2 ^ f.mbits := by exact_mod_cast hm
        have h2 : (2 : ℚ) ^ f.mbits * 2 ^ (f.qmin + (k : Int)) < 2 ^ f.mbits * 2 ^ (q + 1) := by
          calc _ ≤ _ := h.1
            _ < 2 * 2 ^ f.mbits * 2 ^ q := mul_lt_mul_of_pos_right h1 (two_zpow_pos q)
            _ = _ := by rw [two_zpow_add _ 1]; norm_num; ring
        have := two_zpow_lt.1 (lt_of_mul_lt_mul_left h2 (by positivity))
        omega
    obtain ⟨j, hj⟩ : ∃ j : Nat, q = (j : Int) + (f.qmin + (k : Int)) := ⟨(q - (f.qmin + k)).toNat, by omega⟩
    have hu0 := two_zpow_pos (f.qmin + (k : Int))
    have e : (m : ℚ) * 2 ^ q / 2 ^ (f.qmin + (k : Int)) = ((m * 2 ^ j : Nat) : Int) := by
      rw [hj, two_zpow_add, zpow_natCast]
      push_cast
      field_simp
    have h1 := nearest_int hs ((m * 2 ^ j : Nat) : Int)
    rw [e] at h1
    simp only [sub_self, abs_zero] at h1
    have h2 := abs_nonpos_iff.1 h1
    have h3 : (r : ℚ) = ((m * 2 ^ j : Nat) : Int) := by linarith
    rw [h3, ← e]
    field_simp

end Verif
