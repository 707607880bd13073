import Verif.Proofs.FloatBits
import Verif.Proofs.Equality

/-! Comparing ints and floats: the comparisons of decoded patterns are comparisons of rational numbers. -/

namespace Verif
open Spec

theorem decode_number {x : Nat} (hx : Fits binary64 x) (h : IsFinite binary64 x) :
    ∃ s m q, binary64.decode x = .fin s m q ∧ floatNumber x = (if s then -(m : ℚ) else m) * 2 ^ q := by
  obtain ⟨m, q, hdec, hval, -, -⟩ := decode_finite h
  refine ⟨_, m, q, hdec, ?_⟩
  unfold floatNumber
  rw [← mval_magnitude, ← hval]
  by_cases hn : binary64.signBit ≤ x
  · simp [hn, (negative_iff hx).1 hn]
  · rw [if_neg fun h => hn ((negative_iff hx).2 h)]
    simp [hn]

theorem intEqFloat_iff (i : Int) {x : Nat} (hx : Fits binary64 x) :
    intEqFloat i x = true ↔ IsFinite binary64 x ∧ floatNumber x = i := by
  by_cases hf : IsFinite binary64 x
  · obtain ⟨s, m, q, hdec, hval⟩ := decode_number hx hf
    simp only [hf, true_and]
    unfold intEqFloat
    rw [hdec, hval]
    simp only
    have hsm : (if s then -(m : ℚ) else m) = ((if s then -(m : Int) else m : Int) : ℚ) := by split <;> simp
    rw [hsm]
    generalize (if s then -(m : Int) else (m : Int)) = sm
    have h2 : (2 : ℚ) ≠ 0 := by norm_num
    by_cases hq : 0 ≤ q
    · obtain ⟨k, rfl⟩ := Int.eq_ofNat_of_zero_le hq
      rw [if_pos hq]
      simp only [decide_eq_true_eq, Int.toNat_natCast, zpow_natCast]
      constructor
      · intro h; rw [h]; push_cast; rfl
      · intro h; exact_mod_cast h.symm
    · rw [if_neg hq]
      obtain ⟨k, hk⟩ := Int.eq_ofNat_of_zero_le (show 0 ≤ -q by omega)
      have hq' : q = -(k : Int) := by omega
      subst hq'
      simp only [decide_eq_true_eq, neg_neg, Int.toNat_natCast, zpow_neg, zpow_natCast]
      have hp : (2 : ℚ) ^ k ≠ 0 := pow_ne_zero _ h2
      rw [← div_eq_mul_inv, div_eq_iff hp]
      constructor
      · intro h; rw [← h]; push_cast; rfl
      · intro h; exact_mod_cast h.symm
  · simp only [hf, false_and, iff_false, Bool.not_eq_true]
    unfold intEqFloat
    have he : exponent binary64 x = 2 ^ binary64.ebits - 1 := not_not.1 hf
    by_cases hs : significand binary64 x = 0
    · rw [decode_inf ⟨he, hs⟩]
    · rw [decode_nan ⟨he, hs⟩]

/-- Patterns with the same magnitude and sign decode alike. -/
theorem decode_congr {x y : Nat} (hm : x % binary64.signBit = y % binary64.signBit)
    (hs : binary64.signBit ≤ x ↔ binary64.signBit ≤ y) : binary64.decode x = binary64.decode y := by
  unfold FloatFmt.decode
  simp only [hm, hs]

theorem floatEq_iff {x y : Nat} (hx : Fits binary64 x) (hy : Fits binary64 y) :
    floatEq x y = true ↔ (IsFinite binary64 x ∧ IsFinite binary64 y ∧ floatNumber x = floatNumber y) ∨
      SameInfinity binary64 x binary64 y := by
  have split : ∀ z, IsFinite binary64 z ∨ IsInfinite binary64 z ∨ IsNaN binary64 z := by
    intro z
    by_cases hf : IsFinite binary64 z
    · exact .inl hf
    · have he : exponent binary64 z = 2 ^ binary64.ebits - 1 := not_not.1 hf
      by_cases hs : significand binary64 z = 0
      · exact .inr (.inl ⟨he, hs⟩)
      · exact .inr (.inr ⟨he, hs⟩)
  have hfi : ∀ {z}, IsFinite binary64 z → ¬ IsInfinite binary64 z := fun h h' => h h'.1
  have hif : ∀ {z}, IsInfinite binary64 z → ¬ IsFinite binary64 z := fun h h' => h' h.1
  have hni : ∀ {z}, IsNaN binary64 z → ¬ IsInfinite binary64 z := fun h h' => h.2 h'.2
  have hnf : ∀ {z}, IsNaN binary64 z → ¬ IsFinite binary64 z := fun h h' => h' h.1
  unfold floatEq SameInfinity
  rcases split x with h1 | h1 | h1 <;> rcases split y with h2 | h2 | h2
  · simp only [h1, h2, hfi h1, true_and, false_and, or_false]
    obtain ⟨m, q, hd, hv, -, -⟩ := decode_finite h1
    obtain ⟨m', q', hd', hv', -, -⟩ := decode_finite h2
    have hz : ∀ (m : Nat) (q : Int), (m : ℚ) * 2 ^ q = 0 ↔ m = 0 := by
      intro m q
      have h2 : (2 : ℚ) ^ q ≠ 0 := zpow_ne_zero _ (by norm_num)
      simp [mul_eq_zero, h2]
    have hpos : ∀ (m : Nat) (q : Int), (0 : ℚ) ≤ (m : ℚ) * 2 ^ q := fun m q => by positivity
    have hnum : ∀ {z : Nat}, Fits binary64 z →
        floatNumber z = if binary64.signBit ≤ z then -mval binary64 (z % binary64.signBit) else mval binary64 (z % binary64.signBit) := by
      intro z hz
      unfold floatNumber
      rw [← mval_magnitude]
      by_cases hn : binary64.signBit ≤ z
      · rw [if_pos hn, if_pos ((negative_iff hz).1 hn)]
      · rw [if_neg hn, if_neg fun h => hn ((negative_iff hz).2 h)]
    rw [hnum hx, hnum hy, ← hv, ← hv']
    have hp := hpos m q
    have hp' := hpos m' q'
    have hz1 := hz m q
    have hz2 := hz m' q'
    by_cases hmm : m = 0 ∧ m' = 0
    · obtain ⟨rfl, rfl⟩ := hmm
      rw [hd, hd']
      simp
    · have hgoal : (decide (binary64.decode x = binary64.decode y) = true) ↔
          (if binary64.signBit ≤ x then -((m : ℚ) * 2 ^ q) else (m : ℚ) * 2 ^ q) =
          (if binary64.signBit ≤ y then -((m' : ℚ) * 2 ^ q') else (m' : ℚ) * 2 ^ q') := by
        rw [decide_eq_true_eq]
        constructor
        · intro h
          rw [hd, hd'] at h
          simp only [FVal.fin.injEq, decide_eq_decide] at h
          obtain ⟨h3, h4, h5⟩ := h
          simp only [h3, h4, h5]
        · intro h
          have hsame : (m : ℚ) * 2 ^ q = (m' : ℚ) * 2 ^ q' ∧ (binary64.signBit ≤ x ↔ binary64.signBit ≤ y) := by
            by_cases h3 : binary64.signBit ≤ x <;> by_cases h4 : binary64.signBit ≤ y <;> simp only [h3, h4, if_true, if_false] at h ⊢
            · exact ⟨by linarith, trivial⟩
            · exact absurd ⟨hz1.1 (by linarith), hz2.1 (by linarith)⟩ hmm
            · exact absurd ⟨hz1.1 (by linarith), hz2.1 (by linarith)⟩ hmm
            · exact ⟨h, trivial⟩
          refine decode_congr ((mval_strictMono binary64).injective ?_) hsame.2
          show mval binary64 _ = mval binary64 _
          rw [← hv, ← hv', hsame.1]
      rw [← hgoal, hd, hd']
      cases m with
      | zero =>
        cases m' with
        | zero => exact absurd ⟨rfl, rfl⟩ hmm
        | succ m' => rfl
      | succ m => cases m' <;> rfl
  · rw [decode_inf h2]
    obtain ⟨m, q, hd, -⟩ := decode_finite h1
    rw [hd]
    cases m <;> simp [hif h2, hfi h1]
  · rw [decode_nan h2]
    obtain ⟨m, q, hd, -⟩ := decode_finite h1
    rw [hd]
    cases m <;> simp [hnf h2, hni h2]
  · rw [decode_inf h1]
    obtain ⟨m, q, hd, -⟩ := decode_finite h2
    rw [hd]
    simp [hif h1, hfi h2]
  · rw [decode_inf h1, decode_inf h2]
    simp [h1, h2, hif h1, negative_iff hx, negative_iff hy]
  · rw [decode_inf h1, decode_nan h2]; simp [hnf h2, hni h2]
  · rw [decode_nan h1]; simp [hnf h1, hni h1]
  · rw [decode_nan h1]; simp [hnf h1, hni h1]
  · rw [decode_nan h1]; simp [hnf h1, hni h1]

end Verif
