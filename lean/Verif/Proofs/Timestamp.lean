import Verif.Proofs.FloatBits
import Verif.Model.Timestamp

/-! Helper lemmas about timestamps: error bounds for the floating-point arithmetic. -/

namespace Verif
open Spec

/-- Half a unit in the last place below `2 ^ L`. -/
theorem round_error (f : FloatFmt) {num den : Nat} {L : Int} (hd : 0 < den) (hL : f.qmin ≤ L - 1 - f.mbits)
    (hx : (num : ℚ) / den < 2 ^ L) : |(num : ℚ) / den - mval f (f.roundMag num den)| ≤ 2 ^ (L - f.mbits - 2) := by
  by_cases hn : num = 0
  · subst hn
    have : mval f (f.roundMag 0 den) = 0 := by simp [FloatFmt.roundMag, mval]
    rw [this]
    simp only [Nat.cast_zero, zero_div, sub_zero, abs_zero]
    exact le_of_lt (two_zpow_pos _)
  · obtain ⟨k, r, _, hv, _, _, hlow, hs, _⟩ := roundMag_shape f (Nat.pos_of_ne_zero hn) hd
    have hk : f.qmin + (k : Int) ≤ L - 1 - f.mbits := by
      rcases hlow with h | h
      · omega
      · have h1 : (2 : ℚ) ^ ((f.mbits : Int) + (f.qmin + (k : Int))) < 2 ^ L := by
          rw [two_zpow_add, zpow_natCast]; exact lt_of_le_of_lt h.1 hx
        have := two_zpow_lt.1 h1
        omega
    rw [hv]
    generalize hu : (2 : ℚ) ^ (f.qmin + (k : Int)) = u at *
    have hu0 : 0 < u := hu ▸ two_zpow_pos _
    have e : |(num : ℚ) / den - r * u| = |(num : ℚ) / den / u - r| * u := by
      rw [← abs_of_pos hu0, ← abs_mul, abs_of_pos hu0]
      congr 1
      field_simp
    have hu2 : u ≤ 2 * 2 ^ (L - f.mbits - 2) := by
      rw [← hu]
      calc (2 : ℚ) ^ (f.qmin + (k : Int)) ≤ 2 ^ (L - 1 - f.mbits) := two_zpow_le.2 hk
        _ = 2 ^ (1 + (L - f.mbits - 2)) := by congr 1; ring
        _ = _ := by rw [two_zpow_add]; norm_num
    rw [e]
    nlinarith [abs_nonneg ((num : ℚ) / den / u - r)]

/-- Rounding stays below a power of two... up to the power itself, and so finite. -/
theorem round_finite {num den : Nat} {L : Nat} (hd : 0 < den) (hL : L ≤ 1000) (hx : (num : ℚ) / den < 2 ^ (L : Int)) :
    binary64.roundMag num den < binary64.infBits := by
  have h0 : 0 < binary64.infBits := by decide
  by_contra hc
  have hge := (roundMag_ge binary64 (by decide) (num := num) hd (N := binary64.infBits - 1) (by decide)).1
    (by omega)
  rw [Nat.sub_add_cancel (by omega), (largest_eq (by decide)).1, (largest_eq (by decide)).2] at hge
  have h1 := (largest_bounds binary64).1
  have h2 : 0 < halfGap binary64 := two_zpow_pos _
  have h3 : (2 : ℚ) ^ (L : Int) ≤ 2 ^ bias binary64 := two_zpow_le.2 (by
    rw [show bias binary64 = 1023 from by decide]; omega)
  linarith

/-- A finite binary64 with a given sign, taken apart. -/
theorem decode_withSign (s : Bool) {M : Nat} (h : M < binary64.infBits) :
    ∃ m q, binary64.decode (binary64.withSign s M) = .fin s m q ∧ (m : ℚ) * 2 ^ q = mval binary64 M := by
  obtain ⟨w1, w2, w3⟩ := withSign_fields (f := binary64) s (lt_trans h (infBits_lt binary64))
  obtain ⟨m, q, h1, h2, _, _⟩ := decode_finite (f := binary64) (bits := binary64.withSign s M)
    (by rw [finite_iff, w1]; exact h)
  rw [w1] at h2
  refine ⟨m, q, ?_, h2⟩
  rw [h1]
  congr 1
  rw [Bool.eq_iff_iff, decide_eq_true_iff, w3]

theorem wholePart_spec (m : Nat) (q : Int) :
    (wholePart m q : ℚ) ≤ m * 2 ^ q ∧ (m : ℚ) * 2 ^ q < wholePart m q + 1 := by
  unfold wholePart
  by_cases h : 0 ≤ q
  · rw [if_pos h, two_zpow_toNat h]
    push_cast
    exact ⟨le_refl _, by linarith⟩
  · rw [if_neg h, two_zpow_neg_toNat (by omega)]
    have hp : 0 < 2 ^ (-q).toNat := Nat.two_pow_pos _
    generalize 2 ^ (-q).toNat = D at hp
    have hpq : (0 : ℚ) < D := by exact_mod_cast hp
    rw [← div_eq_mul_inv]
    have h1 := Nat.div_mul_le_self m D
    have h2 := Nat.lt_div_mul_add (a := m) hp
    constructor
    · rw [le_div_iff₀ hpq]; exact_mod_cast h1
    · rw [div_lt_iff₀ hpq]
      have : ((m : Nat) : ℚ) < ((m / D * D + D : Nat) : ℚ) := by exact_mod_cast h2
      push_cast at this
      linarith

theorem fracPart_spec {m : Nat} {q : Int} (h : q < 0) :
    ((m % 2 ^ (-q).toNat : Nat) : ℚ) / (2 ^ (-q).toNat : Nat) = m * 2 ^ q - wholePart m q := by
  unfold wholePart
  rw [if_neg (by omega), two_zpow_neg_toNat h]
  have hp : 0 < 2 ^ (-q).toNat := Nat.two_pow_pos _
  generalize 2 ^ (-q).toNat = D at hp
  have hpq : (0 : ℚ) < D := by exact_mod_cast hp
  have h1 : (m : ℚ) = D * (m / D : Nat) + (m % D : Nat) := by exact_mod_cast (Nat.div_add_mod m D).symm
  field_simp
  rw [h1]
  ring

/-- `int(x)`. -/
theorem floatTrunc_spec (s : Bool) {M : Nat} (h : M < binary64.infBits) :
    ∃ N : Nat, floatTrunc (binary64.withSign s M) = .ok (if s then -(N : Int) else N) ∧
      (N : ℚ) ≤ mval binary64 M ∧ mval binary64 M < N + 1 := by
  obtain ⟨m, q, hdec, hval⟩ := decode_withSign s h
  refine ⟨wholePart m q, ?_, ?_⟩
  · unfold floatTrunc
    rw [hdec]
  · rw [← hval]; exact wholePart_spec m q

/-- The number of microseconds that `fromtimestamp` makes of the fraction. -/
theorem micros_spec (frac D : Nat) (hD : 0 < D) (hlt : frac < D) :
    ∃ z : ℚ, ∃ m q, binary64.decode (binary64.roundMag (frac * 1000000) D) = .fin false m q ∧
      |z - (frac : ℚ) / D * 1000000| ≤ 2 ^ (-34 : Int) ∧ 2 * |z - scaleRound m 1 (-q)| ≤ 1 := by
  have hDq : (0 : ℚ) < D := by exact_mod_cast hD
  have hx : ((frac * 1000000 : Nat) : ℚ) / D < 2 ^ ((20 : Nat) : Int) := by
    rw [div_lt_iff₀ hDq, zpow_natCast]
    have : (frac : ℚ) < D := by exact_mod_cast hlt
    push_cast
    linarith
  have hfin := round_finite hD (by omega) hx
  obtain ⟨m, q, hdec, hval⟩ := decode_withSign false hfin
  have hw : binary64.withSign false (binary64.roundMag (frac * 1000000) D) = binary64.roundMag (frac * 1000000) D := by
    simp [FloatFmt.withSign]
  rw [hw] at hdec
  refine ⟨mval binary64 (binary64.roundMag (frac * 1000000) D), m, q, hdec, ?_, ?_⟩
  · have := round_error binary64 hD (L := ((20 : Nat) : Int)) (by decide) hx
    rw [abs_sub_comm]
    have e : ((frac * 1000000 : Nat) : ℚ) / D = (frac : ℚ) / D * 1000000 := by push_cast; ring
    rw [e] at this
    exact this
  · have := (scaleRound_spec m 1 (-q) (by omega)).1
    rw [← hval]
    have e : (m : ℚ) / (1 : Nat) / 2 ^ (-q) = m * 2 ^ q := by
      rw [zpow_neg, div_inv_eq_mul]; simp
    rw [e] at this
    exact this

theorem eq_of_close {a b : Nat} (h : |(a : ℚ) - b| < 1) : a = b := by
  have h4 : |(a : Int) - (b : Int)| < 1 := by exact_mod_cast h
  have := Int.abs_lt_one_iff.1 h4
  omega

/-- `datetime.fromtimestamp` recovers a number of microseconds from a float that is close enough. -/
theorem fromTimestamp_close (s : Bool) {M w : Nat} (hM : M < binary64.infBits) (hw : w < 2 ^ 63)
    (hclose : |mval binary64 M * 1000000 - w| < 1 / 2 - 2 ^ (-34 : Int))
    (hrange : datetimeMin ≤ (if s then -(w : Int) else w) ∧ (if s then -(w : Int) else w) ≤ datetimeMax) :
    fromTimestamp (binary64.withSign s M) = .ok (if s then -(w : Int) else w) := by
  obtain ⟨m, q, hdec, hval⟩ := decode_withSign s hM
  unfold fromTimestamp
  rw [hdec]
  simp only
  rw [← hval] at hclose
  obtain ⟨N1, N2⟩ := wholePart_spec m q
  -- the microseconds
  have htot : wholePart m q * 1000000 + microsPart m q = w := by
    have hfinish : ∀ micros : Nat, ∀ z : ℚ, |z - (m * 2 ^ q - wholePart m q) * 1000000| ≤ 2 ^ (-34 : Int) →
        2 * |z - micros| ≤ 1 → wholePart m q * 1000000 + micros = w := by
      intro micros z hz hr
      have h1 := abs_lt.1 hclose
      have h2 := abs_le.1 hz
      have h3 := abs_le.1 (show |z - micros| ≤ 1 / 2 by linarith)
      refine eq_of_close ?_
      push_cast
      rw [abs_lt]
      generalize (2 : ℚ) ^ (-34 : Int) = ε at *
      generalize (m : ℚ) * 2 ^ q = X at *
      constructor <;> linarith [h1.1, h1.2, h2.1, h2.2, h3.1, h3.2]
    by_cases h0 : 0 ≤ q
    · have hm0 : microsPart m q = 0 := if_pos h0
      rw [hm0]
      apply hfinish 0 0
      · have : (m : ℚ) * 2 ^ q = wholePart m q := by
          unfold wholePart; rw [if_pos h0, two_zpow_toNat h0]; push_cast; rfl
        rw [this]
        simp only [sub_self, zero_mul, abs_zero]
        exact le_of_lt (two_zpow_pos _)
      · simp
    · obtain ⟨z, m', q', hd, hz, hr⟩ := micros_spec (m % 2 ^ (-q).toNat) (2 ^ (-q).toNat) (Nat.two_pow_pos _)
        (Nat.mod_lt _ (Nat.two_pow_pos _))
      have hm0 : microsPart m q = scaleRound m' 1 (-q') := by
        unfold microsPart
        rw [if_neg h0, hd]
      rw [hm0]
      apply hfinish _ z _ hr
      rw [fracPart_spec (by omega)] at hz
      exact hz
  have htotZ : (wholePart m q : Int) * 1000000 + microsPart m q = w := by exact_mod_cast htot
  rw [if_neg (by omega), htotZ]
  exact if_pos hrange

/-! ### Quotients -/

theorem mval_zero (f : FloatFmt) : mval f 0 = 0 := by simp [mval]

/-- Integers below 2^53 are exact. -/
theorem floatOfInt_small {i : Int} (h : i.natAbs < 2 ^ 53) :
    ∃ M, floatOfInt i = some (binary64.withSign (decide (i < 0)) M) ∧ M < binary64.infBits ∧ mval binary64 M = i.natAbs := by
  have hx : ((i.natAbs : Nat) : ℚ) / (1 : Nat) < 2 ^ ((53 : Nat) : Int) := by
    rw [zpow_natCast]; simp only [Nat.cast_one, div_one]; exact_mod_cast h
  have hfin := round_finite (by omega) (by omega) hx
  refine ⟨binary64.roundMag i.natAbs 1, ?_, hfin, ?_⟩
  · unfold floatOfInt
    simp only
    rw [if_neg (by omega)]
  · have := roundDyadic_representable binary64 (m := i.natAbs) (q := 0) (by show _ < 2 * 2 ^ 52; omega) (by decide)
    unfold FloatFmt.roundDyadic at this
    simpa using this

/-- Dividing a finite float by an integer. -/
theorem floatDivNat_spec (s : Bool) {M k : Nat} (hM : M < binary64.infBits) (hk : 0 < k) :
    ∃ num den : Nat, 0 < den ∧ (num : ℚ) / den = mval binary64 M / k ∧
      floatDivNat (binary64.withSign s M) k = binary64.withSign s (binary64.roundMag num den) := by
  obtain ⟨m, q, hdec, hval⟩ := decode_withSign s hM
  unfold floatDivNat
  rw [hdec]
  simp only
  by_cases h : 0 ≤ q
  · refine ⟨m * 2 ^ q.toNat, k, hk, ?_, by rw [if_pos h]⟩
    rw [← hval, two_zpow_toNat h]; push_cast; rfl
  · refine ⟨m, 2 ^ (-q).toNat * k, Nat.mul_pos (Nat.two_pow_pos _) hk, ?_, by rw [if_neg h]⟩
    rw [← hval, two_zpow_neg_toNat (by omega), ← div_eq_mul_inv, div_div]; push_cast; rfl

/-- Multiplying a finite float by an integer, without overflow. -/
theorem floatMulNat_spec (s : Bool) {M k L : Nat} (hM : M < binary64.infBits) (hL : L ≤ 1000)
    (hx : mval binary64 M * k < 2 ^ (L : Int)) :
    ∃ num den : Nat, 0 < den ∧ (num : ℚ) / den = mval binary64 M * k ∧
      floatMulNat (binary64.withSign s M) k = binary64.withSign s (binary64.roundMag num den) := by
  obtain ⟨m, q, hdec, hval⟩ := decode_withSign s hM
  obtain ⟨num, den, hd, hv, hr⟩ := roundDyadic_eq binary64 (m * k) q
  have hv' : (num : ℚ) / den = mval binary64 M * k := by
    rw [hv, ← hval]; push_cast; ring
  refine ⟨num, den, hd, hv', ?_⟩
  unfold floatMulNat
  rw [hdec]
  simp only
  rw [hr, min_eq_left (le_of_lt (round_finite hd hL (by rw [hv']; exact hx)))]

/-- A natural number that a binary64 holds exactly. -/
def Holds (n : Nat) : Prop := ∃ c j, n = c * 2 ^ j ∧ c < 2 ^ 53 ∧ n < 2 ^ 200

theorem Holds.small {n : Nat} (h : n < 2 ^ 53) : Holds n :=
  ⟨n, 0, by simp, h, lt_trans h (Nat.pow_lt_pow_right (by omega) (by omega))⟩

/-- Rounding leaves such numbers alone. -/
theorem Holds.round {n : Nat} (h : Holds n) {num den : Nat} (hd : 0 < den) (hx : (num : ℚ) / den = n) :
    binary64.roundMag num den < binary64.infBits ∧ mval binary64 (binary64.roundMag num den) = n := by
  obtain ⟨c, j, h1, h2, h3⟩ := h
  have hfin : binary64.roundMag num den < binary64.infBits := by
    apply round_finite (L := 200) hd (by omega)
    rw [hx, zpow_natCast]
    exact_mod_cast h3
  refine ⟨hfin, ?_⟩
  have hr := roundDyadic_representable binary64 (m := c) (q := (j : Int)) (by show _ < 2 * 2 ^ 52; omega)
    (by have : binary64.qmin ≤ 0 := by decide
        omega)
  have hv : (c : ℚ) * 2 ^ (j : Int) = n := by rw [h1, zpow_natCast]; push_cast; rfl
  rw [hv] at hr
  rw [roundMag_exact binary64 hd (hx.trans hr.symm)]
  exact hr

theorem Holds.floatOfInt {i : Int} (h : Holds i.natAbs) :
    ∃ M, floatOfInt i = some (binary64.withSign (decide (i < 0)) M) ∧ M < binary64.infBits ∧ mval binary64 M = i.natAbs := by
  obtain ⟨h1, h2⟩ := h.round (num := i.natAbs) (den := 1) (by omega) (by simp)
  refine ⟨_, ?_, h1, h2⟩
  unfold Verif.floatOfInt
  simp only
  rw [if_neg (by omega)]

theorem Resolution.units_pos (r : Resolution) : 0 < r.units := by cases r <;> decide

theorem signed_natAbs (i : Int) (w : Nat) (h : (w : Int) = i.natAbs) : (if decide (i < 0) then -(w : Int) else w) = i := by
  by_cases hi : i < 0
  · simp [hi]; omega
  · simp [hi]; omega

/-- Loading whole seconds. -/
theorem tsLoad_whole (res : Resolution) {k : Int} (hk : k.natAbs < 2 ^ 43) (hu : Holds (k * res.units).natAbs)
    (hrange : datetimeMin ≤ k * 1000000 ∧ k * 1000000 ≤ datetimeMax) :
    (tsQuotient res (k * res.units)).bind fromTimestamp = .ok (k * 1000000) := by
  have hU := res.units_pos
  have hsign : decide (k * (res.units : Int) < 0) = decide (k < 0) := by
    rw [decide_eq_decide]
    constructor
    · intro h; by_contra hc; have := Int.mul_nonneg (by omega : 0 ≤ k) (by omega : (0 : Int) ≤ res.units); omega
    · intro h; exact Int.mul_neg_of_neg_of_pos h (by omega)
  obtain ⟨M, h1, h2, h3⟩ := hu.floatOfInt
  have fin : ∀ M', M' < binary64.infBits → mval binary64 M' = k.natAbs →
      fromTimestamp (binary64.withSign (decide (k < 0)) M') = .ok (k * 1000000) := by
    intro M' hM' hv
    have hs := signed_natAbs (k * 1000000) (k.natAbs * 1000000) (by omega)
    have hd : decide (k * 1000000 < 0) = decide (k < 0) := by rw [decide_eq_decide]; omega
    rw [hd] at hs
    have := fromTimestamp_close (decide (k < 0)) (M := M') (w := k.natAbs * 1000000) hM' (by omega)
      (by rw [hv]; push_cast; rw [sub_self, abs_zero]; norm_num) (by rw [hs]; exact hrange)
    rw [hs] at this
    exact this
  unfold tsQuotient
  rw [h1, hsign]
  simp only [Except.bind]
  by_cases hr : res = .s
  · subst hr
    rw [if_pos rfl]
    apply fin _ h2
    rw [h3]; simp [Resolution.units]
  · rw [if_neg hr]
    obtain ⟨num, den, hd, hv, he⟩ := floatDivNat_spec (decide (k < 0)) h2 hU
    rw [he]
    have hx : (num : ℚ) / den = k.natAbs := by
      rw [hv, h3, Int.natAbs_mul]
      have : (0 : ℚ) < res.units := by exact_mod_cast hU
      push_cast
      simp only [Int.natAbs_natCast]
      field_simp
    obtain ⟨h4, h5⟩ := (Holds.small (n := k.natAbs) (by omega)).round hd hx
    exact fin _ h4 h5

/-- A stored number of seconds that can be loaded is a moment of the years 1 to 9999, and loaded as exactly that. -/
theorem tsLoad_inv {i us : Int} (h : (tsQuotient .s i).bind fromTimestamp = .ok us) :
    (datetimeMin ≤ i * 1000000 ∧ i * 1000000 ≤ datetimeMax) ∧ us = i * 1000000 := by
  have hrange : datetimeMin ≤ i * 1000000 ∧ i * 1000000 ≤ datetimeMax := by
    have hbits : ∃ M, floatOfInt i = some (binary64.withSign (decide (i < 0)) M) ∧ M < binary64.infBits ∧
        ((i.natAbs : ℚ) ≤ mval binary64 M ∨ (2 : ℚ) ^ 52 ≤ mval binary64 M) := by
      by_cases hs : i.natAbs < 2 ^ 53
      · obtain ⟨M, h1, h2, h3⟩ := floatOfInt_small hs
        exact ⟨M, h1, h2, Or.inl (le_of_eq h3.symm)⟩
      · have hf : binary64.roundMag i.natAbs 1 < binary64.infBits := by
          by_contra hc
          unfold tsQuotient floatOfInt at h
          simp [if_pos (not_lt.1 hc), Except.bind] at h
        refine ⟨binary64.roundMag i.natAbs 1, ?_, hf, Or.inr ?_⟩
        · unfold floatOfInt
          simp only
          rw [if_neg (by omega)]
        · obtain ⟨N, -, -, hN⟩ := floatOfInt_small (i := 2 ^ 52) (by decide)
          have hN' : mval binary64 N = 2 ^ 52 := by rw [hN]; norm_num
          have hnear := roundMag_nearest binary64 i.natAbs 1 (by omega) N
          rw [hN'] at hnear
          have hbig : (2 : ℚ) ^ 53 ≤ i.natAbs := by exact_mod_cast not_lt.1 hs
          simp only [Nat.cast_one, div_one] at hnear
          rw [abs_of_nonneg (show (0 : ℚ) ≤ (i.natAbs : ℚ) - 2 ^ 52 by linarith)] at hnear
          have := (abs_le.1 hnear).2
          linarith
    obtain ⟨M, h1, h2, h3⟩ := hbits
    obtain ⟨m, q, hdec, hval⟩ := decode_withSign (decide (i < 0)) h2
    unfold tsQuotient at h
    simp only [h1, if_true, Except.bind] at h
    unfold fromTimestamp at h
    rw [hdec] at h
    simp only at h
    have hw := (wholePart_spec m q).2
    rw [hval] at hw
    have hwn : i.natAbs ≤ wholePart m q ∨ 2 ^ 52 ≤ wholePart m q := by
      rcases h3 with h3 | h3
      · left
        have : (i.natAbs : ℚ) < wholePart m q + 1 := lt_of_le_of_lt h3 hw
        have : i.natAbs < wholePart m q + 1 := by exact_mod_cast this
        omega
      · right
        have : (2 : ℚ) ^ 52 < wholePart m q + 1 := lt_of_le_of_lt h3 hw
        have : 2 ^ 52 < wholePart m q + 1 := by exact_mod_cast this
        omega
    generalize wholePart m q = w at *
    generalize microsPart m q = u at *
    have key : ∀ t : Int, (if 2 ^ 63 ≤ w then (.error .overflowErr : Except Err Int)
        else if datetimeMin ≤ t ∧ t ≤ datetimeMax then .ok t else .error .valueErr) = .ok us → datetimeMin ≤ t ∧ t ≤ datetimeMax := by
      intro t ht
      split at ht
      · simp at ht
      · split at ht
        · assumption
        · simp at ht
    have hr := key _ h
    unfold datetimeMin datetimeMax at hr ⊢
    by_cases hi : i < 0
    · simp only [hi, decide_true, if_true] at hr; omega
    · simp only [hi, decide_false, Bool.false_eq_true, if_false] at hr; omega
  refine ⟨hrange, ?_⟩
  have := tsLoad_whole .s (k := i) (by unfold datetimeMin datetimeMax at hrange; omega)
    (by simp [Resolution.units]; exact Holds.small (by unfold datetimeMin datetimeMax at hrange; omega)) hrange
  simp only [Resolution.units, Nat.cast_one, mul_one] at this
  rw [this] at h
  cases h; rfl

/-- Loading milliseconds or microseconds. -/
theorem tsLoad_close {res : Resolution} (hres : res = .ms ∨ res = .us) {i : Int} (hi : i.natAbs < 2 ^ 33 * res.units) :
    (tsQuotient res i).bind fromTimestamp = .ok (i * (1000000 / res.units : Nat)) := by
  have hU := res.units_pos
  have hU2 : res.units * (1000000 / res.units) = 1000000 ∧ res.units ≤ 1000000 ∧ 1 ≤ 1000000 / res.units := by
    rcases hres with rfl | rfl <;> decide
  generalize hV : 1000000 / res.units = V at hU2
  have hs : res ≠ .s := by rcases hres with rfl | rfl <;> decide
  have hlt : i.natAbs < 2 ^ 53 := by
    calc i.natAbs < 2 ^ 33 * res.units := hi
      _ ≤ 2 ^ 33 * 1000000 := Nat.mul_le_mul_left _ hU2.2.1
      _ < 2 ^ 53 := by decide
  obtain ⟨M, h1, h2, h3⟩ := floatOfInt_small hlt
  obtain ⟨num, den, hd, hv, he⟩ := floatDivNat_spec (decide (i < 0)) h2 hU
  have hUq : (0 : ℚ) < res.units := by exact_mod_cast hU
  have hx : (num : ℚ) / den < 2 ^ ((33 : Nat) : Int) := by
    rw [hv, h3, div_lt_iff₀ hUq, zpow_natCast]
    exact_mod_cast hi
  have herr := round_error binary64 hd (L := ((33 : Nat) : Int)) (by decide) hx
  have hfin := round_finite hd (by omega) hx
  have hwB : i.natAbs * V < 2 ^ 33 * 1000000 := by
    calc i.natAbs * V < 2 ^ 33 * res.units * V := Nat.mul_lt_mul_of_pos_right hi (by omega)
      _ = 2 ^ 33 * 1000000 := by rw [Nat.mul_assoc, hU2.1]
  unfold tsQuotient
  rw [h1]
  simp only [Except.bind]
  rw [if_neg hs, he]
  have hsg := signed_natAbs (i * V) (i.natAbs * V) (by rw [Int.natAbs_mul]; simp)
  have hd' : decide (i * (V : Int) < 0) = decide (i < 0) := by
    rw [decide_eq_decide]
    constructor
    · intro h; by_contra hc; have := Int.mul_nonneg (by omega : 0 ≤ i) (by omega : (0 : Int) ≤ V); omega
    · intro h; exact Int.mul_neg_of_neg_of_pos h (by omega)
  rw [hd'] at hsg
  have hrange : datetimeMin ≤ i * V ∧ i * V ≤ datetimeMax := by
    have : (i * (V : Int)).natAbs < 2 ^ 33 * 1000000 := by rw [Int.natAbs_mul]; simpa using hwB
    unfold datetimeMin datetimeMax
    omega
  have := fromTimestamp_close (decide (i < 0)) (M := binary64.roundMag num den) (w := i.natAbs * V) hfin (by omega)
    (by
      have e : ((i.natAbs * V : Nat) : ℚ) = (num : ℚ) / den * 1000000 := by
        rw [hv, h3]
        have : (res.units : ℚ) * V = 1000000 := by exact_mod_cast hU2.1
        rw [← this]
        push_cast
        field_simp
      rw [e, ← sub_mul, abs_mul, abs_sub_comm]
      rw [show ((33 : Nat) : Int) - (binary64.mbits : Int) - 2 = -21 from by decide] at herr
      norm_num at herr ⊢
      linarith)
    (by rw [hsg]; exact hrange)
  rw [hsg] at this
  exact this

/-! ### `datetime.timestamp()` -/

/-- Whole seconds are exact. -/
theorem toTimestamp_whole {k : Int} (hk : k.natAbs < 2 ^ 53) (aware : Bool) :
    ∃ M, toTimestamp (k * 1000000) aware = binary64.withSign (decide (k < 0)) M ∧ M < binary64.infBits ∧
      mval binary64 M = k.natAbs := by
  unfold toTimestamp
  cases aware
  · simp only [Bool.false_eq_true, if_false]
    have h1 : k * 1000000 / 1000000 = k := by omega
    have h2 : (k * 1000000 % 1000000).toNat = 0 := by omega
    rw [h1, h2]
    have h3 : binary64.roundMag 0 1000000 = 0 := by simp [FloatFmt.roundMag]
    rw [h3]
    have h4 : binary64.decode 0 = .fin false 0 binary64.qmin := by decide
    rw [h4]
    simp only
    have h5 : ¬ (0 ≤ binary64.qmin) := by decide
    rw [if_neg h5]
    have hD : 0 < 2 ^ (-binary64.qmin).toNat := Nat.two_pow_pos _
    generalize 2 ^ (-binary64.qmin).toNat = D at hD
    have hx : (((k * (D : Int) + ((0 : Nat) : Int)).natAbs : Nat) : ℚ) / D = k.natAbs := by
      have hDq : (0 : ℚ) < D := by exact_mod_cast hD
      rw [Int.natCast_zero, Int.add_zero, Int.natAbs_mul]
      push_cast
      simp only [Int.natAbs_natCast]
      field_simp
    obtain ⟨h6, h7⟩ := (Holds.small hk).round hD hx
    refine ⟨_, ?_, h6, h7⟩
    congr 1
    rw [decide_eq_decide, Int.natCast_zero, Int.add_zero]
    constructor
    · intro h; by_contra hc; have := Int.mul_nonneg (by omega : 0 ≤ k) (by omega : (0 : Int) ≤ D); omega
    · intro h; exact Int.mul_neg_of_neg_of_pos h (by omega)
  · simp only [if_true]
    have hx : (((k * 1000000).natAbs : Nat) : ℚ) / (1000000 : Nat) = k.natAbs := by
      rw [Int.natAbs_mul]; push_cast; simp
    obtain ⟨h6, h7⟩ := (Holds.small hk).round (den := 1000000) (by omega) hx
    refine ⟨_, ?_, h6, h7⟩
    congr 1
    rw [decide_eq_decide]; omega

/-- In general the result is within half a unit in the last place (plus, for naive datetimes, the error of the
microseconds). -/
theorem toTimestamp_near {L : Nat} (hL : L ≤ 900) {us : Int} (hus : us.natAbs < 2 ^ L * 1000000) (aware : Bool) :
    ∃ M, toTimestamp us aware = binary64.withSign (decide (us < 0)) M ∧ M < binary64.infBits ∧
      |mval binary64 M - (us.natAbs : ℚ) / 1000000| ≤ 2 ^ ((L : Int) - 54) + 2 ^ (-54 : Int) := by
  unfold toTimestamp
  cases aware
  · simp only [Bool.false_eq_true, if_false]
    generalize hsec : us / 1000000 = secs
    obtain ⟨r, hr⟩ : ∃ r : Nat, us % 1000000 = r := ⟨(us % 1000000).toNat, by omega⟩
    rw [hr, Int.toNat_natCast]
    have hr6 : r < 1000000 := by omega
    have hsum : us = secs * 1000000 + r := by omega
    have hrq : (r : ℚ) ≤ 999999 := by exact_mod_cast (by omega : r ≤ 999999)
    have hx0 : ((r : Nat) : ℚ) / (1000000 : Nat) < 2 ^ ((0 : Nat) : Int) := by
      rw [zpow_natCast, div_lt_iff₀ (by norm_num)]; push_cast; linarith
    have hfin0 := round_finite (den := 1000000) (by omega) (by omega) hx0
    have herr0 := round_error binary64 (den := 1000000) (by omega) (L := ((0 : Nat) : Int)) (by decide) hx0
    rw [show ((0 : Nat) : Int) - (binary64.mbits : Int) - 2 = -54 from by decide] at herr0
    obtain ⟨m, q, hdec, hval⟩ := decode_withSign false hfin0
    have hw : binary64.withSign false (binary64.roundMag r 1000000) = binary64.roundMag r 1000000 := by simp [FloatFmt.withSign]
    rw [hw] at hdec
    rw [hdec]
    simp only
    rw [← hval] at herr0
    -- the numerator over the common denominator
    have hD : 0 < 2 ^ (-q).toNat := Nat.two_pow_pos _
    have hnum : ∀ p : Nat, p = (if 0 ≤ q then m * 2 ^ q.toNat else m) → (p : ℚ) / (2 ^ (-q).toNat : Nat) = m * 2 ^ q := by
      intro p hp
      by_cases h0 : 0 ≤ q
      · rw [if_pos h0] at hp
        have : (-q).toNat = 0 := by omega
        rw [hp, this, two_zpow_toNat h0]
        push_cast
        simp
      · rw [if_neg h0] at hp
        rw [hp, two_zpow_neg_toNat (by omega), div_eq_mul_inv]
    generalize hp : (if 0 ≤ q then m * 2 ^ q.toNat else m : Nat) = p
    have hpD := hnum p hp.symm
    generalize 2 ^ (-q).toNat = D at *
    generalize (m : ℚ) * 2 ^ q = fr at *
    have hDq : (0 : ℚ) < D := by exact_mod_cast hD
    have hp' : (p : ℚ) = fr * D := by rw [← hpD]; field_simp
    -- the exact sum
    have hε : (2 : ℚ) ^ (-54 : Int) < 1 / 1000000000 := by norm_num
    have hab := abs_le.1 herr0
    push_cast at hab
    have hfr1 : fr < 1 := by linarith [hab.1, hab.2]
    have hfr0 : 0 ≤ fr := by rw [← hpD]; positivity
    have hsign : (secs * (D : Int) + (p : Int) < 0) ↔ us < 0 := by
      have hpD' : (p : Int) < D := by
        have : (p : ℚ) < D := by rw [hp']; nlinarith
        exact_mod_cast this
      constructor
      · intro h
        by_contra hc
        have h1 : 0 ≤ secs := by omega
        have := Int.mul_nonneg h1 (by omega : (0 : Int) ≤ D)
        omega
      · intro h
        have h1 : secs ≤ -1 := by omega
        have : secs * (D : Int) ≤ -1 * D := Int.mul_le_mul_of_nonneg_right h1 (by omega)
        omega
    have habs : (((secs * (D : Int) + (p : Int)).natAbs : Nat) : ℚ) / D = |(secs : ℚ) + fr| := by
      rw [Nat.cast_natAbs, Int.cast_abs]
      push_cast
      rw [hp']
      have : (secs : ℚ) * D + fr * D = (secs + fr) * D := by ring
      rw [this, abs_mul, abs_of_pos hDq]
      field_simp
    have husq : (us.natAbs : ℚ) / 1000000 = |(secs : ℚ) + r / 1000000| := by
      rw [Nat.cast_natAbs, Int.cast_abs, hsum]
      push_cast
      rw [show (secs : ℚ) * 1000000 + r = (secs + r / 1000000) * 1000000 by ring, abs_mul]
      norm_num
    have hdiff : |(|(secs : ℚ) + fr|) - (us.natAbs : ℚ) / 1000000| ≤ 2 ^ (-54 : Int) := by
      rw [husq]
      refine le_trans (abs_abs_sub_abs_le_abs_sub _ _) ?_
      rw [show (secs : ℚ) + fr - (secs + r / 1000000) = -((r : ℚ) / 1000000 - fr) by ring, abs_neg]
      push_cast at herr0
      exact herr0
    have hlt : (((secs * (D : Int) + (p : Int)).natAbs : Nat) : ℚ) / D < 2 ^ (L : Int) := by
      rw [habs, zpow_natCast]
      have h1 : (us.natAbs : ℚ) + 1 ≤ 2 ^ L * 1000000 := by exact_mod_cast hus
      have h2 := abs_le.1 hdiff
      linarith [h2.2]
    have hfin := round_finite hD (by omega) hlt
    have herr := round_error binary64 hD (L := (L : Int)) (by rw [show binary64.qmin = -1074 from by decide, show (binary64.mbits : Int) = 52 from rfl]; omega) hlt
    rw [show (L : Int) - (binary64.mbits : Int) - 2 = (L : Int) - 54 from by rw [show (binary64.mbits : Int) = 52 from rfl]; omega, habs] at herr
    refine ⟨_, ?_, hfin, ?_⟩
    · congr 1
      rw [decide_eq_decide]; exact hsign
    · have := abs_sub_le (mval binary64 (binary64.roundMag (secs * (D : Int) + (p : Int)).natAbs D)) |(secs : ℚ) + fr|
        ((us.natAbs : ℚ) / 1000000)
      rw [abs_sub_comm (mval _ _) |(secs : ℚ) + fr|] at this
      exact le_trans this (add_le_add herr hdiff)
  · simp only [if_true]
    have hx : ((us.natAbs : Nat) : ℚ) / (1000000 : Nat) < 2 ^ (L : Int) := by
      rw [zpow_natCast, div_lt_iff₀ (by norm_num)]
      exact_mod_cast hus
    have hfin := round_finite (den := 1000000) (by omega) (by omega) hx
    have herr := round_error binary64 (den := 1000000) (by omega) (L := (L : Int)) (by rw [show binary64.qmin = -1074 from by decide, show (binary64.mbits : Int) = 52 from rfl]; omega) hx
    rw [show (L : Int) - (binary64.mbits : Int) - 2 = (L : Int) - 54 from by rw [show (binary64.mbits : Int) = 52 from rfl]; omega] at herr
    refine ⟨_, rfl, hfin, ?_⟩
    rw [abs_sub_comm]
    have h54 := two_zpow_pos (-54)
    push_cast at herr
    linarith

/-- The same for the years 1698 to 2242. -/
theorem toTimestamp_close {us : Int} (hus : us.natAbs < 2 ^ 33 * 1000000) (aware : Bool) :
    ∃ M, toTimestamp us aware = binary64.withSign (decide (us < 0)) M ∧ M < binary64.infBits ∧
      |mval binary64 M - (us.natAbs : ℚ) / 1000000| ≤ 2 ^ (-21 : Int) + 2 ^ (-54 : Int) := by
  have := toTimestamp_near (L := 33) (by omega) hus aware
  rwa [show ((33 : Nat) : Int) - 54 = -21 from by decide] at this

/-- Dumping never fails on a datetime. -/
theorem tsStored_ok (res : Resolution) {us : Int} (h1 : datetimeMin ≤ us) (h2 : us ≤ datetimeMax) (aware : Bool) :
    ∃ i, tsStored res us aware = .ok i := by
  have hus : us.natAbs < 2 ^ 38 * 1000000 := by
    simp only [datetimeMin, datetimeMax] at h1 h2; omega
  obtain ⟨M, h3, h4, h5⟩ := toTimestamp_near (L := 38) (by omega) hus aware
  unfold tsStored
  simp only
  rw [h3]
  split
  · obtain ⟨N, h6, -⟩ := floatTrunc_spec (decide (us < 0)) h4
    exact ⟨_, h6⟩
  · have hu : (res.units : ℚ) ≤ 2 ^ 30 := by
      have : res.units ≤ 2 ^ 30 := by cases res <;> decide
      exact_mod_cast this
    have hu0 : (0 : ℚ) ≤ res.units := by positivity
    have hM : mval binary64 M < 2 ^ 39 := by
      have ha := abs_le.1 h5
      have hq : (us.natAbs : ℚ) / 1000000 < 2 ^ 38 := by
        rw [div_lt_iff₀ (by norm_num)]; exact_mod_cast hus
      have hε : (2 : ℚ) ^ (((38 : Nat) : Int) - 54) + 2 ^ (-54 : Int) < 1 := by norm_num
      have : (2 : ℚ) ^ 38 + 1 < 2 ^ 39 := by norm_num
      linarith [ha.2]
    have hstrict : mval binary64 M * res.units < 2 ^ ((70 : Nat) : Int) := by
      rw [zpow_natCast]
      calc mval binary64 M * res.units ≤ 2 ^ 39 * res.units := mul_le_mul_of_nonneg_right (le_of_lt hM) hu0
        _ ≤ 2 ^ 39 * 2 ^ 30 := mul_le_mul_of_nonneg_left hu (by norm_num)
        _ < 2 ^ 70 := by norm_num
    obtain ⟨num, den, hd, hv, he⟩ := floatMulNat_spec (decide (us < 0)) (k := res.units) (L := 70) h4 (by omega) hstrict
    rw [he]
    obtain ⟨N, h6, -⟩ := floatTrunc_spec (decide (us < 0)) (round_finite hd (by omega : 70 ≤ 1000) (hv ▸ hstrict))
    exact ⟨_, h6⟩

/-- Dumping whole seconds. -/
theorem tsStored_whole (res : Resolution) {k : Int} (hk : k.natAbs < 2 ^ 53) (hu : Holds (k.natAbs * res.units)) (aware : Bool) :
    tsStored res (k * 1000000) aware = .ok (k * res.units) := by
  obtain ⟨M, h1, h2, h3⟩ := toTimestamp_whole hk aware
  unfold tsStored
  simp only
  rw [h1]
  have fin : ∀ M', M' < binary64.infBits → mval binary64 M' = (k.natAbs * res.units : Nat) →
      floatTrunc (binary64.withSign (decide (k < 0)) M') = .ok (k * res.units) := by
    intro M' h4 h5
    obtain ⟨N, h6, h7, h8⟩ := floatTrunc_spec (decide (k < 0)) h4
    rw [h5] at h7 h8
    have hN : N = k.natAbs * res.units := by
      have a : N ≤ k.natAbs * res.units := by exact_mod_cast h7
      have b : k.natAbs * res.units < N + 1 := by exact_mod_cast h8
      omega
    rw [h6, hN]
    congr 1
    push_cast
    by_cases h : k < 0
    · simp [h]; rw [abs_of_neg h]; ring
    · simp [h]; exact Or.inl (by omega)
  by_cases hr : res = .s
  · rw [if_pos hr]
    subst hr
    exact fin M h2 (by rw [h3]; simp [Resolution.units])
  · rw [if_neg hr]
    obtain ⟨c, j, hc1, hc2, hc3⟩ := hu
    obtain ⟨num, den, hd, hv, he⟩ := floatMulNat_spec (decide (k < 0)) (k := res.units) (L := 200) h2 (by omega)
      (by rw [h3, zpow_natCast]; exact_mod_cast hc3)
    rw [he]
    have hx : (num : ℚ) / den = (k.natAbs * res.units : Nat) := by rw [hv, h3]; push_cast; rfl
    obtain ⟨h6, h7⟩ := Holds.round ⟨c, j, hc1, hc2, hc3⟩ hd hx
    exact fin _ h6 h7

/-- Dumping milliseconds or microseconds: at most one too few. -/
theorem tsStored_close {res : Resolution} (hres : res = .ms ∨ res = .us) {i : Int} (hi : i.natAbs < 2 ^ 33 * res.units) (aware : Bool) :
    ∃ N : Nat, tsStored res (i * (1000000 / res.units : Nat)) aware = .ok (if i < 0 then -(N : Int) else N) ∧
      (N = i.natAbs ∨ N + 1 = i.natAbs) := by
  have hU := res.units_pos
  have hU2 : res.units * (1000000 / res.units) = 1000000 ∧ res.units ≤ 1000000 ∧ 1 ≤ 1000000 / res.units := by
    rcases hres with rfl | rfl <;> decide
  generalize hV : 1000000 / res.units = V at hU2
  have hs : res ≠ .s := by rcases hres with rfl | rfl <;> decide
  have habs : (i * (V : Int)).natAbs = i.natAbs * V := by rw [Int.natAbs_mul]; simp
  have hwB : (i * (V : Int)).natAbs < 2 ^ 33 * 1000000 := by
    rw [habs]
    calc i.natAbs * V < 2 ^ 33 * res.units * V := Nat.mul_lt_mul_of_pos_right hi (by omega)
      _ = 2 ^ 33 * 1000000 := by rw [Nat.mul_assoc, hU2.1]
  have hd' : (i * (V : Int) < 0) ↔ (i < 0) := by
    constructor
    · intro h; by_contra hc; have := Int.mul_nonneg (by omega : 0 ≤ i) (by omega : (0 : Int) ≤ V); omega
    · intro h; exact Int.mul_neg_of_neg_of_pos h (by omega)
  obtain ⟨M, h1, h2, h3⟩ := toTimestamp_close hwB aware
  rw [habs, decide_eq_decide.2 hd'] at *
  have hUq : (0 : ℚ) < res.units := by exact_mod_cast hU
  have hUle : (res.units : ℚ) ≤ 1000000 := by exact_mod_cast hU2.2.1
  have hUV : (res.units : ℚ) * V = 1000000 := by exact_mod_cast hU2.1
  have he : ((i.natAbs * V : Nat) : ℚ) / 1000000 * res.units = i.natAbs := by
    push_cast
    rw [← hUV]
    have : (0 : ℚ) < V := by exact_mod_cast (by omega : 0 < V)
    field_simp
  have hε : (2 : ℚ) ^ (-21 : Int) + 2 ^ (-54 : Int) < 477 / 1000000000 := by norm_num
  -- the product before rounding
  have hprod : |mval binary64 M * res.units - i.natAbs| < 477 / 1000 := by
    rw [← he, ← sub_mul, abs_mul, abs_of_pos hUq]
    have := abs_nonneg (mval binary64 M - ((i.natAbs * V : Nat) : ℚ) / 1000000)
    nlinarith
  have hlt : mval binary64 M * res.units < 2 ^ ((53 : Nat) : Int) := by
    have h4 := abs_lt.1 hprod
    have h5 : (i.natAbs : ℚ) < 2 ^ 33 * res.units := by exact_mod_cast hi
    rw [zpow_natCast]
    have h6 : (2 : ℚ) ^ 33 * res.units ≤ 2 ^ 33 * 1000000 := by
      apply mul_le_mul_of_nonneg_left hUle; norm_num
    have h7 : (2 : ℚ) ^ 33 * 1000000 + 1 < 2 ^ 53 := by norm_num
    linarith [h4.2]
  obtain ⟨num, den, hd, hv, hm⟩ := floatMulNat_spec (decide (i < 0)) (k := res.units) (L := 53) h2 (by omega) hlt
  rw [← hv] at hlt hprod
  have hfin := round_finite hd (by omega) hlt
  have herr := round_error binary64 hd (L := ((53 : Nat) : Int)) (by decide) hlt
  rw [show ((53 : Nat) : Int) - (binary64.mbits : Int) - 2 = -1 from by decide] at herr
  have herr' : |(num : ℚ) / den - mval binary64 (binary64.roundMag num den)| ≤ 1 / 2 := by
    have : (2 : ℚ) ^ (-1 : Int) = 1 / 2 := by norm_num
    rw [← this]; exact herr
  obtain ⟨N, h6, h7, h8⟩ := floatTrunc_spec (decide (i < 0)) hfin
  refine ⟨N, ?_, ?_⟩
  · unfold tsStored
    simp only
    rw [h1, if_neg hs, hm, h6]
    simp
  · have a := abs_lt.1 hprod
    have b := abs_le.1 herr'
    have c1 : (N : ℚ) < i.natAbs + 1 := by linarith [a.2, b.1]
    have c2 : (i.natAbs : ℚ) < N + 2 := by linarith [a.1, b.2]
    have d1 : N < i.natAbs + 1 := by exact_mod_cast c1
    have d2 : i.natAbs < N + 2 := by exact_mod_cast c2
    omega

/-- Rounding recovers an integer from something closer to it than half a unit in the last place. -/
theorem round_recovers {num den n : Nat} (hd : 0 < den) {e : Int} (he : e ≤ 0) (hlow : (2 : ℚ) ^ (52 + e) < n) (hn : n < 2 ^ 53)
    (hclose : |(num : ℚ) / den - n| < 2 ^ (e - 1)) : mval binary64 (binary64.roundMag num den) = n := by
  obtain ⟨R, -, -, hR⟩ := floatOfInt_small (i := (n : Int)) (by simpa using hn)
  rw [Int.natAbs_natCast] at hR
  have hnear := roundMag_nearest binary64 num den hd R
  rw [hR] at hnear
  have h2 : (2 : ℚ) ^ (e - 1) + 2 ^ (e - 1) = 2 ^ e := by
    rw [show e = (e - 1) + 1 by ring, two_zpow_add]; norm_num; ring
  have hd2 : |mval binary64 (binary64.roundMag num den) - n| < 2 ^ e := by
    have := abs_sub_le (mval binary64 (binary64.roundMag num den)) ((num : ℚ) / den) n
    rw [abs_sub_comm (mval binary64 (binary64.roundMag num den)) ((num : ℚ) / den)] at this
    linarith
  have hx : 0 < num := by
    rcases Nat.eq_zero_or_pos num with h0 | h0
    · subst h0
      exfalso
      have h1 := (abs_lt.1 hclose).1
      have h3 : (2 : ℚ) ^ (e - 1) ≤ 2 ^ (52 + e) := two_zpow_le.2 (by omega)
      simp at h1
      linarith
    · exact h0
  obtain ⟨k, r, -, hv, hr, -⟩ := roundMag_shape binary64 hx hd
  have hn1 : (2 : ℚ) ^ (52 + e) + 2 ^ e ≤ n := by
    -- both are multiples of 2 ^ e
    have hm : (n : ℚ) = (n * 2 ^ (-e).toNat : Nat) * 2 ^ e := by
      push_cast
      rw [mul_assoc, ← zpow_natCast, ← two_zpow_add]
      rw [show ((-e).toNat : Int) + e = 0 by omega]; simp
    have hp : (2 : ℚ) ^ (52 + e) = (2 ^ 52 : Nat) * 2 ^ e := by rw [two_zpow_add]; norm_num
    have hpos := two_zpow_pos e
    rw [hp, hm] at hlow
    have h3 := lt_of_mul_lt_mul_right hlow (le_of_lt hpos)
    have h4 : 2 ^ 52 < n * 2 ^ (-e).toNat := by exact_mod_cast h3
    have h5 : 2 ^ 52 + 1 ≤ n * 2 ^ (-e).toNat := h4
    have h6 : ((2 ^ 52 : Nat) : ℚ) + 1 ≤ (n * 2 ^ (-e).toNat : Nat) := by exact_mod_cast h5
    rw [hp]
    conv_rhs => rw [hm]
    calc ((2 ^ 52 : Nat) : ℚ) * 2 ^ e + 2 ^ e = (((2 ^ 52 : Nat) : ℚ) + 1) * 2 ^ e := by ring
      _ ≤ _ := mul_le_mul_of_nonneg_right h6 (le_of_lt hpos)
  have hlowr : (2 : ℚ) ^ (52 + e) < mval binary64 (binary64.roundMag num den) := by
    have := (abs_lt.1 hd2).1
    linarith
  have hke : e ≤ binary64.qmin + (k : Int) := by
    by_contra hc
    rw [hv] at hlowr
    have hrq : (r : ℚ) ≤ 2 ^ (53 : Int) := by
      have : r ≤ 2 ^ 53 := by simpa [binary64] using hr
      exact_mod_cast this
    have : (r : ℚ) * 2 ^ (binary64.qmin + (k : Int)) ≤ 2 ^ (53 : Int) * 2 ^ (e - 1) :=
      mul_le_mul hrq (two_zpow_le.2 (by omega)) (le_of_lt (two_zpow_pos _)) (le_of_lt (two_zpow_pos _))
    rw [← two_zpow_add, show (53 : Int) + (e - 1) = 52 + e by ring] at this
    linarith
  -- multiples of 2 ^ e, less than 2 ^ e apart
  obtain ⟨j, hj⟩ : ∃ j : Nat, binary64.qmin + (k : Int) = e + j := ⟨(binary64.qmin + (k : Int) - e).toNat, by omega⟩
  have hm : (n : ℚ) = (n * 2 ^ (-e).toNat : Nat) * 2 ^ e := by
    push_cast
    rw [mul_assoc, ← zpow_natCast, ← two_zpow_add]
    rw [show ((-e).toNat : Int) + e = 0 by omega]; simp
  have hmr : mval binary64 (binary64.roundMag num den) = (r * 2 ^ j : Nat) * 2 ^ e := by
    rw [hv, hj, two_zpow_add, zpow_natCast]; push_cast; ring
  rw [hmr, hm] at hd2 ⊢
  rw [← sub_mul, abs_mul, abs_of_pos (two_zpow_pos e)] at hd2
  have h7 : |((r * 2 ^ j : Nat) : ℚ) - (n * 2 ^ (-e).toNat : Nat)| < 1 := by
    have hpos := two_zpow_pos e
    by_contra hc
    have := mul_le_mul_of_nonneg_right (not_lt.1 hc) (le_of_lt hpos)
    linarith
  rw [eq_of_close h7]

/-- Dumping milliseconds or microseconds is exact where the float of the number of units is no finer than the float of the seconds. -/
theorem tsStored_exact {res : Resolution} {p : Nat} (hres : (res = .ms ∧ p = 10) ∨ (res = .us ∧ p = 20)) {k : Nat} (hk : 6 ≤ k) (hk2 : k ≤ 33)
    {i : Int} (hlow : 2 ^ (k + p - 1) < i.natAbs) (hi : i.natAbs < 2 ^ k * res.units) (aware : Bool) :
    tsStored res (i * (1000000 / res.units : Nat)) aware = .ok i := by
  have hU := res.units_pos
  have hU2 : res.units * (1000000 / res.units) = 1000000 ∧ 1 ≤ 1000000 / res.units := by
    rcases hres with ⟨rfl, rfl⟩ | ⟨rfl, rfl⟩ <;> decide
  have hp : res.units + res.units / 64 + 1 ≤ 2 ^ p ∧ k + p ≤ 53 ∧ 1 ≤ p := by
    rcases hres with ⟨rfl, rfl⟩ | ⟨rfl, rfl⟩ <;> simp [Resolution.units] <;> omega
  generalize hV : 1000000 / res.units = V at hU2
  have hs : res ≠ .s := by rcases hres with ⟨rfl, rfl⟩ | ⟨rfl, rfl⟩ <;> decide
  have habs : (i * (V : Int)).natAbs = i.natAbs * V := by rw [Int.natAbs_mul]; simp
  have hwB : (i * (V : Int)).natAbs < 2 ^ k * 1000000 := by
    rw [habs]
    calc i.natAbs * V < 2 ^ k * res.units * V := Nat.mul_lt_mul_of_pos_right hi (by omega)
      _ = 2 ^ k * 1000000 := by rw [Nat.mul_assoc, hU2.1]
  have hd' : (i * (V : Int) < 0) ↔ (i < 0) := by
    constructor
    · intro h; by_contra hc; have := Int.mul_nonneg (by omega : 0 ≤ i) (by omega : (0 : Int) ≤ V); omega
    · intro h; exact Int.mul_neg_of_neg_of_pos h (by omega)
  obtain ⟨M, h1, h2, h3⟩ := toTimestamp_near (by omega) hwB aware
  rw [habs, decide_eq_decide.2 hd'] at *
  have hUq : (0 : ℚ) < res.units := by exact_mod_cast hU
  have hUV : (res.units : ℚ) * V = 1000000 := by exact_mod_cast hU2.1
  have he : ((i.natAbs * V : Nat) : ℚ) / 1000000 * res.units = i.natAbs := by
    push_cast
    rw [← hUV]
    have : (0 : ℚ) < V := by exact_mod_cast (by omega : 0 < V)
    field_simp
  have hnlt : i.natAbs < 2 ^ (k + p) := by
    calc i.natAbs < 2 ^ k * res.units := hi
      _ ≤ 2 ^ k * 2 ^ p := Nat.mul_le_mul_left _ (by omega)
      _ = _ := (Nat.pow_add ..).symm
  have hprod : |mval binary64 M * res.units - i.natAbs| < 2 ^ (((k : Int) + p - 53) - 1) := by
    rw [← he, ← sub_mul, abs_mul, abs_of_pos hUq]
    have hle : (2 : ℚ) ^ (-54 : Int) ≤ 2 ^ ((k : Int) - 54) / 64 := by
      rw [show ((2 : ℚ) ^ ((k : Int) - 54) / 64) = 2 ^ ((k : Int) - 54 + (-6)) by rw [two_zpow_add]; norm_num; ring]
      exact two_zpow_le.2 (by omega)
    have hpq : (res.units : ℚ) * (1 + 1 / 64) < 2 ^ p := by
      have h64 : res.units * 65 < 2 ^ p * 64 := by omega
      have : (res.units : ℚ) * 65 < 2 ^ p * 64 := by exact_mod_cast h64
      linarith
    have hpos : (0 : ℚ) < 2 ^ ((k : Int) - 54) := two_zpow_pos _
    calc |mval binary64 M - ((i.natAbs * V : Nat) : ℚ) / 1000000| * res.units
        ≤ (2 ^ ((k : Int) - 54) * (1 + 1 / 64)) * res.units := mul_le_mul_of_nonneg_right (by linarith) (le_of_lt hUq)
      _ = 2 ^ ((k : Int) - 54) * (res.units * (1 + 1 / 64)) := by ring
      _ < 2 ^ ((k : Int) - 54) * 2 ^ p := mul_lt_mul_of_pos_left hpq hpos
      _ = 2 ^ ((k : Int) - 54 + p) := by rw [two_zpow_add, zpow_natCast]
      _ = _ := by congr 1; ring
  have hlt : mval binary64 M * res.units < 2 ^ ((54 : Nat) : Int) := by
    have h4 := (abs_lt.1 hprod).2
    have h5 : (i.natAbs : ℚ) < 2 ^ (53 : Int) := by
      have : i.natAbs < 2 ^ 53 := lt_of_lt_of_le hnlt (Nat.pow_le_pow_right (by omega) hp.2.1)
      exact_mod_cast this
    have h6 : (2 : ℚ) ^ (((k : Int) + p - 53) - 1) ≤ 2 ^ (53 : Int) := two_zpow_le.2 (by omega)
    rw [show (((54 : Nat) : Int)) = 53 + 1 by rfl, two_zpow_add]
    norm_num at h4 h5 h6 ⊢
    linarith
  obtain ⟨num, den, hd, hv, hm⟩ := floatMulNat_spec (decide (i < 0)) (k := res.units) (L := 54) h2 (by omega) hlt
  rw [← hv] at hlt hprod
  have hfin := round_finite hd (by omega) hlt
  have hr := round_recovers hd (e := (k : Int) + p - 53) (by omega)
    (by rw [show (52 : Int) + ((k : Int) + p - 53) = ((k + p - 1 : Nat) : Int) by omega, zpow_natCast]; exact_mod_cast hlow)
    (lt_of_lt_of_le hnlt (Nat.pow_le_pow_right (by omega) hp.2.1)) hprod
  obtain ⟨N, h6, h7, h8⟩ := floatTrunc_spec (decide (i < 0)) hfin
  rw [hr] at h7 h8
  have hN : N = i.natAbs := by
    have a : N ≤ i.natAbs := by exact_mod_cast h7
    have b : i.natAbs < N + 1 := by exact_mod_cast h8
    omega
  unfold tsStored
  simp only
  rw [h1, if_neg hs, hm, h6, hN]
  congr 1
  exact signed_natAbs i i.natAbs rfl

/-- Dumping with second resolution truncates. -/
theorem tsStored_truncates {us : Int} (hus : us.natAbs < 2 ^ 33 * 1000000) (aware : Bool) :
    tsStored .s us aware = .ok (us.tdiv 1000000) := by
  by_cases hw : us.natAbs % 1000000 = 0
  · obtain ⟨k, rfl⟩ : ∃ k, us = k * 1000000 := ⟨us / 1000000, by omega⟩
    have := tsStored_whole .s (k := k) (by omega) (by simp [Resolution.units]; exact Holds.small (by omega)) aware
    rw [this]
    simp [Resolution.units]
  · obtain ⟨M, h1, h2, h3⟩ := toTimestamp_close hus aware
    obtain ⟨N, h6, h7, h8⟩ := floatTrunc_spec (decide (us < 0)) h2
    have hε : (2 : ℚ) ^ (-21 : Int) + 2 ^ (-54 : Int) < 477 / 1000000000 := by norm_num
    have ha := abs_le.1 (le_trans h3 (le_of_lt hε))
    have hN : N = us.natAbs / 1000000 := by
      have hdm : us.natAbs = 1000000 * (us.natAbs / 1000000) + us.natAbs % 1000000 := (Nat.div_add_mod _ _).symm
      have hmod : us.natAbs % 1000000 < 1000000 := Nat.mod_lt _ (by omega)
      generalize us.natAbs / 1000000 = Q at *
      generalize us.natAbs % 1000000 = R at *
      have hq : (us.natAbs : ℚ) = 1000000 * Q + R := by exact_mod_cast hdm
      rw [hq] at ha
      have hR1 : (1 : ℚ) ≤ R := by exact_mod_cast (by omega : 1 ≤ R)
      have hR2 : (R : ℚ) ≤ 999999 := by exact_mod_cast (by omega : R ≤ 999999)
      have c1 : (N : ℚ) < Q + 1 := by linarith [ha.2]
      have c2 : (Q : ℚ) < N + 1 := by linarith [ha.1]
      have d1 : N < Q + 1 := by exact_mod_cast c1
      have d2 : Q < N + 1 := by exact_mod_cast c2
      omega
    unfold tsStored
    simp only [if_true]
    rw [h1, h6, hN]
    congr 1
    by_cases h : us < 0
    · simp only [h, decide_true, if_true]
      obtain ⟨n, rfl⟩ : ∃ n : Nat, us = -(n : Int) := ⟨us.natAbs, by omega⟩
      rw [Int.neg_tdiv]
      simp
    · simp only [h, decide_false, Bool.false_eq_true, if_false]
      obtain ⟨n, rfl⟩ : ∃ n : Nat, us = (n : Int) := ⟨us.natAbs, by omega⟩
      simp

/-! ### The first day -/

theorem datetimeFirst_min (aware : Bool) : datetimeMin ≤ datetimeFirst aware := by cases aware <;> decide

theorem datetimeFirst_early (aware : Bool) : datetimeFirst aware ≤ -(2 ^ 33 * 1000000) := by cases aware <;> decide

theorem localTime_ok {aware : Bool} {us : Int} (h : datetimeFirst aware ≤ us) : localTime aware us = .ok us := by
  rw [localTime, if_neg (by omega)]

theorem tsLoad_of {res : Resolution} {aware : Bool} {i us : Int} (h : (tsQuotient res i).bind fromTimestamp = .ok us)
    (h' : datetimeFirst aware ≤ us) : tsLoad res aware i = .ok us := by
  rw [tsLoad, h]
  exact localTime_ok h'

theorem tsLoad_split {res : Resolution} {aware : Bool} {i us : Int} (h : tsLoad res aware i = .ok us) :
    (tsQuotient res i).bind fromTimestamp = .ok us ∧ datetimeFirst aware ≤ us := by
  unfold tsLoad at h
  generalize (tsQuotient res i).bind fromTimestamp = x at *
  cases x with
  | error e => cases h
  | ok us' =>
    simp only [Except.bind, localTime] at h
    split at h
    · cases h
    · cases h
      exact ⟨rfl, by omega⟩

theorem tsDump_of (res : Resolution) {aware : Bool} {us : Int} (h : datetimeFirst aware ≤ us) :
    tsDump res us aware = tsStored res us aware := by
  rw [tsDump, localTime_ok h]
  rfl

end Verif
