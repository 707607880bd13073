import Verif.Props.Timestamp

/-!
# Rounding keeps the order
-/

namespace Verif
open Spec

/-- A tie is broken towards the even magnitude, also if that is the upper one. -/
theorem roundMag_tie_up (f : FloatFmt) (hf : 1 ≤ f.mbits) {num den N : Nat} (hd : 0 < den)
    (h : (num : ℚ) / den = (mval f N + mval f (N + 1)) / 2) (hM : f.roundMag num den = N + 1) : (N + 1) % 2 = 0 := by
  have hN0 : 0 ≤ mval f N := by
    have := (mval_strictMono f).monotone (Nat.zero_le N)
    rwa [mval_zero] at this
  have hNs : mval f N < mval f (N + 1) := mval_strictMono f (Nat.lt_succ_self N)
  have hn : num ≠ 0 := by
    rintro rfl
    simp only [Nat.cast_zero, zero_div] at h
    linarith
  obtain ⟨k, r, he, hv, hr, hx, hlow, _, ht⟩ := roundMag_shape f (Nat.pos_of_ne_zero hn) hd
  rw [hM] at he hv
  have hB : 0 < 2 ^ f.mbits := Nat.two_pow_pos _
  have hq := two_zpow_pos (f.qmin + (k : Int))
  have hlt : (num : ℚ) / den < r * 2 ^ (f.qmin + (k : Int)) := by rw [← hv, h]; linarith
  have hr1 : k = 0 ∨ 2 ^ f.mbits ≤ r - 1 := by
    rcases hlow with h0 | ⟨h1, h2⟩
    · exact .inl h0
    · right
      have : ((2 ^ f.mbits : Nat) : ℚ) < r := by
        have := lt_of_le_of_lt h1 hlt
        push_cast
        exact lt_of_mul_lt_mul_right this (le_of_lt hq)
      have : 2 ^ f.mbits < r := by exact_mod_cast this
      omega
  have hr0 : 1 ≤ r := by
    rcases Nat.eq_zero_or_pos r with h0 | h0
    · subst h0
      simp only [Nat.cast_zero, zero_mul] at hlt
      have : (0 : ℚ) ≤ (num : ℚ) / den := by positivity
      linarith
    · exact h0
  have hN : mval f N = ((r - 1 : Nat) : ℚ) * 2 ^ (f.qmin + (k : Int)) := by
    have : N = k * 2 ^ f.mbits + (r - 1) := by omega
    rw [this]
    exact mval_of f (by omega) hr1
  rw [Nat.cast_sub hr0] at hN
  have hx2 : (num : ℚ) / den / 2 ^ (f.qmin + (k : Int)) - r = -(1 / 2) := by
    rw [h, hv, hN]
    field_simp
    push_cast
    ring
  have hreven := ht (by rw [hx2]; norm_num)
  have hBeven : 2 ^ f.mbits % 2 = 0 := by
    obtain ⟨c, hc⟩ : ∃ c, f.mbits = c + 1 := ⟨f.mbits - 1, by omega⟩
    rw [hc, Nat.pow_succ]; omega
  rw [he, Nat.add_mod, Nat.mul_mod, hBeven]
  omega

/-- The magnitude that rounding chooses, among the two nearest. -/
theorem roundMag_even (f : FloatFmt) (hf : 1 ≤ f.mbits) {num den : Nat} (hd : 0 < den) {M : Nat} (hM : M ≠ f.roundMag num den)
    (h : |(num : ℚ) / den - mval f M| = |(num : ℚ) / den - mval f (f.roundMag num den)|) : f.roundMag num den % 2 = 0 := by
  have near := roundMag_nearest f num den hd
  have tie := fun N => roundMag_tie f hf (num := num) hd (M := N)
  have tieUp := fun N => roundMag_tie_up f hf (num := num) hd (N := N)
  have hmono := mval_strictMono f
  generalize f.roundMag num den = R at *
  generalize (num : ℚ) / den = x at *
  have hne : mval f M ≠ mval f R := fun hc => hM (hmono.injective hc)
  have hmid : x = (mval f M + mval f R) / 2 := by
    rcases abs_eq_abs.1 h with h1 | h1
    · exact absurd (by linarith) hne
    · linarith
  rcases Nat.lt_or_gt_of_ne hM with hlt | hlt
  · -- M < R
    obtain ⟨N, rfl⟩ : ∃ N, R = N + 1 := ⟨R - 1, by omega⟩
    have hMN : M = N := by
      by_contra hc
      have h1 : mval f M < mval f N := hmono (by omega)
      have h2 : mval f N < mval f (N + 1) := hmono (by omega)
      have h3 := near N
      rw [abs_of_nonpos (by linarith : x - mval f (N + 1) ≤ 0)] at h3
      rcases le_abs'.1 h3 with h4 | h4 <;> linarith
    subst hMN
    exact tieUp M hmid rfl
  · have hMN : M = R + 1 := by
      by_contra hc
      have h1 : mval f (R + 1) < mval f M := hmono (by omega)
      have h2 : mval f R < mval f (R + 1) := hmono (by omega)
      have h3 := near (R + 1)
      rw [abs_of_nonneg (by linarith : 0 ≤ x - mval f R)] at h3
      rcases le_abs'.1 h3 with h4 | h4 <;> linarith
    subst hMN
    exact tie R (by rw [hmid]; ring) rfl

/-- Rounding keeps the order. -/
theorem roundMag_mono (f : FloatFmt) (hf : 1 ≤ f.mbits) {num den num' den' : Nat} (hd : 0 < den) (hd' : 0 < den')
    (h : (num : ℚ) / den ≤ num' / den') : f.roundMag num den ≤ f.roundMag num' den' := by
  by_contra hc
  have hlt : f.roundMag num' den' < f.roundMag num den := by omega
  have hv := mval_strictMono f hlt
  have n1 := roundMag_nearest f num den hd (f.roundMag num' den')
  have n2 := roundMag_nearest f num' den' hd' (f.roundMag num den)
  have e1 := roundMag_even f hf (num := num) hd (M := f.roundMag num' den') (by omega)
  have e2 := roundMag_even f hf (num := num') hd' (M := f.roundMag num den) (by omega)
  have hmono := mval_strictMono f
  have near := roundMag_nearest f num den hd
  generalize f.roundMag num den = R at *
  generalize f.roundMag num' den' = R' at *
  generalize (num : ℚ) / den = x at *
  generalize (num' : ℚ) / den' = y at *
  have hx : (mval f R' + mval f R) / 2 ≤ x := by
    by_contra hc
    have hc := not_le.1 hc
    rw [abs_of_nonpos (by linarith : x - mval f R ≤ 0)] at n1
    rcases le_abs'.1 n1 with h4 | h4 <;> linarith
  have hy : y ≤ (mval f R' + mval f R) / 2 := by
    by_contra hc
    have hc := not_le.1 hc
    rw [abs_of_nonneg (by linarith : 0 ≤ y - mval f R')] at n2
    rcases le_abs'.1 n2 with h4 | h4 <;> linarith
  have hxe : x = (mval f R' + mval f R) / 2 := by linarith
  have hye : y = (mval f R' + mval f R) / 2 := by linarith
  have d1 : |x - mval f R'| = |x - mval f R| := by
    rw [abs_of_nonneg (by linarith), abs_of_nonpos (by linarith)]; linarith
  have d2 : |y - mval f R| = |y - mval f R'| := by rw [hye, ← hxe, d1]
  have o1 := e1 d1
  have o2 := e2 d2
  have h1 : mval f R' < mval f (R' + 1) := hmono (by omega)
  have h2 : mval f (R' + 1) < mval f R := hmono (by omega)
  have h3 := near (R' + 1)
  rw [abs_of_nonpos (by linarith : x - mval f R ≤ 0)] at h3
  rcases le_abs'.1 h3 with h4 | h4 <;> linarith

/-- `s`, `M` are sign and magnitude of the number next to `x`. -/
def RoundsTo (x : ℚ) (s : Bool) (M : Nat) : Prop :=
  (∃ num den : Nat, 0 < den ∧ (num : ℚ) / den = |x| ∧ M = binary64.roundMag num den) ∧ (s = true → x ≤ 0) ∧ (s = false → 0 ≤ x)

/-- The number with this sign and this magnitude. -/
def signedVal (s : Bool) (M : Nat) : ℚ := if s then -mval binary64 M else mval binary64 M

theorem mval_nonneg (f : FloatFmt) (M : Nat) : 0 ≤ mval f M := by
  have := (mval_strictMono f).monotone (Nat.zero_le M)
  rwa [mval_zero] at this

theorem RoundsTo.mono {x y : ℚ} {s s' : Bool} {M M' : Nat} (h : RoundsTo x s M) (h' : RoundsTo y s' M') (hxy : x ≤ y) :
    signedVal s M ≤ signedVal s' M' := by
  obtain ⟨⟨num, den, hd, hv, rfl⟩, hs⟩ := h
  obtain ⟨⟨num', den', hd', hv', rfl⟩, hs'⟩ := h'
  have p1 := mval_nonneg binary64 (binary64.roundMag num den)
  have p2 := mval_nonneg binary64 (binary64.roundMag num' den')
  unfold signedVal
  cases s <;> cases s'
  · have h1 := hs.2 rfl
    simp only [Bool.false_eq_true, if_false]
    refine (mval_strictMono _).monotone (roundMag_mono _ (by decide) hd hd' ?_)
    rw [hv, hv', abs_of_nonneg h1, abs_of_nonneg (le_trans h1 hxy)]
    exact hxy
  · have h1 := hs.2 rfl
    have h2 := hs'.1 rfl
    have hx0 : x = 0 := by linarith
    have hy0 : y = 0 := by linarith
    have z1 : binary64.roundMag num den = 0 := roundMag_exact _ hd (by rw [hv, hx0, mval_zero]; simp)
    have z2 : binary64.roundMag num' den' = 0 := roundMag_exact _ hd' (by rw [hv', hy0, mval_zero]; simp)
    rw [z1, z2, mval_zero]
    simp
  · simp only [Bool.false_eq_true, if_false, if_true]
    linarith
  · have h1 := hs'.1 rfl
    simp only [if_true]
    refine neg_le_neg ((mval_strictMono _).monotone (roundMag_mono _ (by decide) hd' hd ?_))
    rw [hv, hv', abs_of_nonpos h1, abs_of_nonpos (le_trans hxy h1)]
    linarith

/-- Rounding to integers keeps the order. -/
theorem scaleRound_mono {a b a' b' : Nat} {q q' : Int} (hb : 0 < b) (hb' : 0 < b')
    (h : (a : ℚ) / b / 2 ^ q ≤ (a' : ℚ) / b' / 2 ^ q') : scaleRound a b q ≤ scaleRound a' b' q' := by
  obtain ⟨h1, h2⟩ := scaleRound_spec a b q hb
  obtain ⟨h3, h4⟩ := scaleRound_spec a' b' q' hb'
  generalize scaleRound a b q = r at *
  generalize scaleRound a' b' q' = r' at *
  generalize (a : ℚ) / b / 2 ^ q = x at *
  generalize (a' : ℚ) / b' / 2 ^ q' = y at *
  by_contra hc
  have hlt : r' + 1 ≤ r := by omega
  have hltq : (r' : ℚ) + 1 ≤ r := by exact_mod_cast hlt
  have a1 := abs_le.1 (show |x - r| ≤ 1 / 2 by linarith)
  have a2 := abs_le.1 (show |y - r'| ≤ 1 / 2 by linarith)
  have e1 : x - r = -(1 / 2) := by linarith [a1.1, a2.2]
  have e2 : y - r' = 1 / 2 := by linarith [a1.1, a2.2]
  have e3 : (r : ℚ) = r' + 1 := by linarith
  have e3 : r = r' + 1 := by exact_mod_cast e3
  have o1 := h2 (by rw [e1]; norm_num)
  have o2 := h4 (by rw [e2]; norm_num)
  omega

/-- How `microsPart` depends on the fraction. -/
theorem micros_shape (m : Nat) (q : Int) :
    ∃ num den m' : Nat, ∃ q' : Int, 0 < den ∧ (num : ℚ) / den = (m * 2 ^ q - wholePart m q) * 1000000 ∧
      (m' : ℚ) * 2 ^ q' = mval binary64 (binary64.roundMag num den) ∧ microsPart m q = scaleRound m' 1 (-q') := by
  by_cases h0 : 0 ≤ q
  · refine ⟨0, 1, 0, 0, by omega, ?_, ?_, ?_⟩
    · have : (m : ℚ) * 2 ^ q = wholePart m q := by
        unfold wholePart; rw [if_pos h0, two_zpow_toNat h0]; push_cast; rfl
      rw [this]; simp
    · simp [FloatFmt.roundMag, mval_zero]
    · rw [show microsPart m q = 0 from if_pos h0]
      decide
  · have hD := Nat.two_pow_pos (-q).toNat
    have hlt := Nat.mod_lt m hD
    have hDq : (0 : ℚ) < (2 ^ (-q).toNat : Nat) := by exact_mod_cast hD
    have hfr := fracPart_spec (m := m) (q := q) (by omega)
    have hx : ((m % 2 ^ (-q).toNat * 1000000 : Nat) : ℚ) / (2 ^ (-q).toNat : Nat) < 2 ^ ((20 : Nat) : Int) := by
      rw [div_lt_iff₀ hDq, zpow_natCast]
      have : ((m % 2 ^ (-q).toNat : Nat) : ℚ) < (2 ^ (-q).toNat : Nat) := by exact_mod_cast hlt
      rw [Nat.cast_mul]
      push_cast at this ⊢
      linarith
    have hfin := round_finite hD (by omega) hx
    obtain ⟨m', q', hdec, hval⟩ := decode_withSign false hfin
    have hw : binary64.withSign false (binary64.roundMag (m % 2 ^ (-q).toNat * 1000000) (2 ^ (-q).toNat)) =
        binary64.roundMag (m % 2 ^ (-q).toNat * 1000000) (2 ^ (-q).toNat) := by
      simp [FloatFmt.withSign]
    rw [hw] at hdec
    refine ⟨_, _, m', q', hD, ?_, hval, ?_⟩
    · rw [← hfr, Nat.cast_mul]
      push_cast
      ring
    · unfold microsPart
      rw [if_neg h0, hdec]

theorem scale_neg (m : Nat) (q : Int) : (m : ℚ) / (1 : Nat) / 2 ^ (-q) = m * 2 ^ q := by
  rw [zpow_neg, div_inv_eq_mul]; simp

theorem micros_mono {m m' : Nat} {q q' : Int}
    (h : (m : ℚ) * 2 ^ q - wholePart m q ≤ m' * 2 ^ q' - wholePart m' q') : microsPart m q ≤ microsPart m' q' := by
  obtain ⟨n1, d1, a1, b1, hd1, hv1, hr1, hm1⟩ := micros_shape m q
  obtain ⟨n2, d2, a2, b2, hd2, hv2, hr2, hm2⟩ := micros_shape m' q'
  rw [hm1, hm2]
  refine scaleRound_mono (by omega) (by omega) ?_
  rw [scale_neg, scale_neg, hr1, hr2]
  refine (mval_strictMono _).monotone (roundMag_mono _ (by decide) hd1 hd2 ?_)
  rw [hv1, hv2]
  linarith

theorem micros_le (m : Nat) (q : Int) : microsPart m q ≤ 1000000 := by
  obtain ⟨n1, d1, a1, b1, hd1, hv1, hr1, hm1⟩ := micros_shape m q
  rw [hm1, show (1000000 : Nat) = scaleRound 1000000 1 (-0) from by decide]
  refine scaleRound_mono (by omega) (by omega) ?_
  rw [scale_neg, scale_neg, hr1]
  have h1 : mval binary64 (binary64.roundMag 1000000 1) = (1000000 : Nat) := by
    have := ((Holds.small (n := 1000000) (by decide)).round (num := 1000000) (den := 1) (by omega) (by norm_num)).2
    exact this
  rw [zpow_zero, mul_one, ← h1]
  refine (mval_strictMono _).monotone (roundMag_mono _ (by decide) hd1 (by omega) ?_)
  rw [hv1]
  have := (wholePart_spec m q).2
  push_cast
  linarith

/-- The microseconds that `fromtimestamp` makes of a float. -/
def totalMicros (m : Nat) (q : Int) : Nat := wholePart m q * 1000000 + microsPart m q

theorem totalMicros_mono {m m' : Nat} {q q' : Int} (h : (m : ℚ) * 2 ^ q ≤ m' * 2 ^ q') :
    totalMicros m q ≤ totalMicros m' q' := by
  unfold totalMicros
  obtain ⟨h1, h2⟩ := wholePart_spec m q
  obtain ⟨h3, h4⟩ := wholePart_spec m' q'
  have hw : wholePart m q ≤ wholePart m' q' := by
    have : (wholePart m q : ℚ) < wholePart m' q' + 1 := by linarith
    have : wholePart m q < wholePart m' q' + 1 := by exact_mod_cast this
    omega
  rcases Nat.eq_or_lt_of_le hw with he | hl
  · have := micros_mono (m := m) (q := q) (m' := m') (q' := q') (by rw [he]; linarith)
    omega
  · have := micros_le m q
    omega

/-- Later numbers are later moments. -/
theorem fromTimestamp_mono {s s' : Bool} {M M' : Nat} (hM : M < binary64.infBits) (hM' : M' < binary64.infBits)
    (h : signedVal s M ≤ signedVal s' M') {us us' : Int} (h1 : fromTimestamp (binary64.withSign s M) = .ok us)
    (h2 : fromTimestamp (binary64.withSign s' M') = .ok us') : us ≤ us' := by
  have inv : ∀ (s : Bool) (M : Nat) (us : Int), M < binary64.infBits → fromTimestamp (binary64.withSign s M) = .ok us →
      ∃ (m : Nat) (q : Int), (m : ℚ) * 2 ^ q = mval binary64 M ∧ us = if s then -(totalMicros m q : Int) else totalMicros m q := by
    intro s M us hM h
    obtain ⟨m, q, hdec, hval⟩ := decode_withSign s hM
    refine ⟨m, q, hval, ?_⟩
    unfold fromTimestamp at h
    rw [hdec] at h
    unfold totalMicros
    cases s <;> simp only [Bool.false_eq_true, if_false, if_true] at h ⊢ <;> split at h
    · cases h
    · split at h
      · cases h
        push_cast
        rfl
      · cases h
    · cases h
    · split at h
      · cases h
        push_cast
        rfl
      · cases h
  obtain ⟨m, q, hv, rfl⟩ := inv s M us hM h1
  obtain ⟨m', q', hv', rfl⟩ := inv s' M' us' hM' h2
  unfold signedVal at h
  rw [← hv, ← hv'] at h
  have p : (0 : ℚ) ≤ m * 2 ^ q := by have := two_zpow_pos q; positivity
  have p' : (0 : ℚ) ≤ m' * 2 ^ q' := by have := two_zpow_pos q'; positivity
  cases s <;> cases s' <;> simp only [Bool.false_eq_true, if_false, if_true] at h ⊢
  · have := totalMicros_mono h
    omega
  · have z := totalMicros_mono (m := m) (q := q) (m' := 0) (q' := 0) (by simp; linarith)
    have z' := totalMicros_mono (m := m') (q := q') (m' := 0) (q' := 0) (by simp; linarith)
    have : totalMicros 0 0 = 0 := by decide
    omega
  · omega
  · have := totalMicros_mono (m := m') (q := q') (m' := m) (q' := q) (by linarith)
    omega

/-- `float(i)`. -/
theorem floatOfInt_rounds {i : Int} {bits : Nat} (h : floatOfInt i = some bits) :
    ∃ M, bits = binary64.withSign (decide (i < 0)) M ∧ M < binary64.infBits ∧ RoundsTo i (decide (i < 0)) M := by
  unfold floatOfInt at h
  simp only at h
  split at h
  · cases h
  · rename_i hc
    cases h
    refine ⟨_, rfl, by omega, ⟨i.natAbs, 1, by omega, ?_, rfl⟩, ?_, ?_⟩
    · rw [Nat.cast_natAbs, Int.cast_abs]; simp
    · intro hs
      have : i < 0 := by simpa using hs
      exact_mod_cast le_of_lt this
    · intro hs
      have : 0 ≤ i := by simpa using hs
      exact_mod_cast this

theorem abs_signedVal (s : Bool) (M : Nat) : |signedVal s M| = mval binary64 M := by
  have := mval_nonneg binary64 M
  unfold signedVal
  cases s
  · simp only [Bool.false_eq_true, if_false]; exact abs_of_nonneg this
  · simp only [if_true, abs_neg]; exact abs_of_nonneg this

theorem signedVal_sign (s : Bool) (M : Nat) (k : ℚ) (hk : 0 ≤ k) :
    (s = true → signedVal s M * k ≤ 0) ∧ (s = false → 0 ≤ signedVal s M * k) := by
  have := mul_nonneg (mval_nonneg binary64 M) hk
  unfold signedVal
  constructor
  · rintro rfl
    simp only [if_true]
    linarith
  · rintro rfl
    simpa using this

/-- Division of a float by an integer. -/
theorem floatDivNat_rounds (s : Bool) {M k : Nat} (hM : M < binary64.infBits) (hk : 0 < k) :
    ∃ M', floatDivNat (binary64.withSign s M) k = binary64.withSign s M' ∧ M' < binary64.infBits ∧
      RoundsTo (signedVal s M * (1 / k)) s M' := by
  obtain ⟨num, den, hd, hv, he⟩ := floatDivNat_spec s hM hk
  have hkq : (1 : ℚ) ≤ k := by exact_mod_cast hk
  have hm := mval_nonneg binary64 M
  refine ⟨_, he, ?_, ⟨num, den, hd, ?_, rfl⟩, signedVal_sign s M _ (by positivity)⟩
  · by_contra hc
    have hlt : M < binary64.roundMag num den := by omega
    have h1 := mval_strictMono binary64 hlt
    have h2 := roundMag_nearest binary64 num den hd M
    rw [hv] at h2
    have h3 : mval binary64 M / k ≤ mval binary64 M := div_le_self hm hkq
    rw [abs_of_nonpos (by linarith), abs_of_nonpos (by linarith)] at h2
    linarith
  · rw [hv, abs_mul, abs_signedVal, abs_of_nonneg (by positivity : (0 : ℚ) ≤ 1 / k)]
    ring

/-- `value / units`: greater integers give no smaller quotients. -/
theorem tsQuotient_mono {res : Resolution} {i j : Int} (hij : i ≤ j) {x y : Nat} (hx : tsQuotient res i = .ok x)
    (hy : tsQuotient res j = .ok y) :
    ∃ s M s' M', x = binary64.withSign s M ∧ y = binary64.withSign s' M' ∧ M < binary64.infBits ∧ M' < binary64.infBits ∧
      signedVal s M ≤ signedVal s' M' := by
  have inv : ∀ (i : Int) (x : Nat), tsQuotient res i = .ok x → ∃ bits, floatOfInt i = some bits ∧
      x = if res = .s then bits else floatDivNat bits res.units := by
    intro i x h
    unfold tsQuotient at h
    cases hf : floatOfInt i with
    | none => rw [hf] at h; cases h
    | some bits => rw [hf] at h; exact ⟨bits, rfl, (Except.ok.inj h).symm⟩
  obtain ⟨b1, hb1, e1⟩ := inv i x hx
  obtain ⟨b2, hb2, e2⟩ := inv j y hy
  obtain ⟨M1, rfl, hM1, hr1⟩ := floatOfInt_rounds hb1
  obtain ⟨M2, rfl, hM2, hr2⟩ := floatOfInt_rounds hb2
  have hle := hr1.mono hr2 (by exact_mod_cast hij)
  by_cases hr : res = .s
  · rw [if_pos hr] at e1 e2
    exact ⟨_, _, _, _, e1, e2, hM1, hM2, hle⟩
  · rw [if_neg hr] at e1 e2
    obtain ⟨M3, e3, hM3, hr3⟩ := floatDivNat_rounds (decide (i < 0)) hM1 res.units_pos
    obtain ⟨M4, e4, hM4, hr4⟩ := floatDivNat_rounds (decide (j < 0)) hM2 res.units_pos
    refine ⟨_, _, _, _, e1.trans e3, e2.trans e4, hM3, hM4, hr3.mono hr4 ?_⟩
    have : (0 : ℚ) ≤ 1 / res.units := by positivity
    exact mul_le_mul_of_nonneg_right hle this

/-- Truncation. -/
theorem floatTrunc_mono {s s' : Bool} {M M' : Nat} (hM : M < binary64.infBits) (hM' : M' < binary64.infBits)
    (h : signedVal s M ≤ signedVal s' M') {i j : Int} (hi : floatTrunc (binary64.withSign s M) = .ok i)
    (hj : floatTrunc (binary64.withSign s' M') = .ok j) : i ≤ j := by
  obtain ⟨N, h1, h2, h3⟩ := floatTrunc_spec s hM
  obtain ⟨N', h4, h5, h6⟩ := floatTrunc_spec s' hM'
  rw [h1] at hi
  rw [h4] at hj
  cases hi
  cases hj
  have p1 := mval_nonneg binary64 M
  have p2 := mval_nonneg binary64 M'
  unfold signedVal at h
  cases s <;> cases s' <;> simp only [Bool.false_eq_true, if_false, if_true] at h ⊢
  · have : (N : ℚ) < N' + 1 := by linarith
    have : N < N' + 1 := by exact_mod_cast this
    omega
  · have : (N : ℚ) < 1 := by linarith
    have : N < 1 := by exact_mod_cast this
    have : (N' : ℚ) < 1 := by linarith
    have : N' < 1 := by exact_mod_cast this
    omega
  · omega
  · have : (N' : ℚ) < N + 1 := by linarith
    have : N' < N + 1 := by exact_mod_cast this
    omega

/-- Multiplication of a float by an integer. -/
theorem floatMulNat_rounds (s : Bool) {M k : Nat} (hM : M < binary64.infBits) {i : Int}
    (h : floatTrunc (floatMulNat (binary64.withSign s M) k) = .ok i) :
    ∃ M', floatMulNat (binary64.withSign s M) k = binary64.withSign s M' ∧ M' < binary64.infBits ∧
      RoundsTo (signedVal s M * k) s M' := by
  obtain ⟨m, q, hdec, hval⟩ := decode_withSign s hM
  obtain ⟨num, den, hd, hv, hr⟩ := roundDyadic_eq binary64 (m * k) q
  have hmul : floatMulNat (binary64.withSign s M) k = binary64.withSign s (min (binary64.roundMag num den) binary64.infBits) := by
    unfold floatMulNat
    rw [hdec]
    simp only
    rw [hr]
  rw [hmul] at h ⊢
  by_cases hc : binary64.roundMag num den < binary64.infBits
  · rw [min_eq_left (le_of_lt hc)]
    refine ⟨_, rfl, hc, ⟨num, den, hd, ?_, rfl⟩, signedVal_sign s M _ (by positivity)⟩
    rw [hv, abs_mul, abs_signedVal, abs_of_nonneg (by positivity : (0 : ℚ) ≤ k), ← hval]
    push_cast
    ring
  · exfalso
    rw [min_eq_right (by omega)] at h
    have hinf : floatTrunc (binary64.withSign s binary64.infBits) = .error .overflowErr := by cases s <;> decide
    rw [hinf] at h
    cases h

/-- The exact number that `timestamp()` rounds. -/
def exactStamp (us : Int) (aware : Bool) : ℚ :=
  if aware then us / 1000000
  else ((us / 1000000 : Int) : ℚ) + mval binary64 (binary64.roundMag (us % 1000000).toNat 1000000)

theorem stampFrac_le (r : Nat) (h : r ≤ 1000000) : mval binary64 (binary64.roundMag r 1000000) ≤ 1 := by
  have h1 : mval binary64 (binary64.roundMag 1 1) = (1 : Nat) :=
    ((Holds.small (n := 1) (by decide)).round (num := 1) (den := 1) (by omega) (by norm_num)).2
  rw [show (1 : ℚ) = ((1 : Nat) : ℚ) by norm_num, ← h1]
  refine (mval_strictMono _).monotone (roundMag_mono _ (by decide) (by omega) (by omega) ?_)
  have : (r : ℚ) ≤ 1000000 := by exact_mod_cast h
  push_cast
  linarith

theorem exactStamp_mono {us us' : Int} (h : us ≤ us') (aware : Bool) : exactStamp us aware ≤ exactStamp us' aware := by
  unfold exactStamp
  cases aware
  · simp only [Bool.false_eq_true, if_false]
    have hq : us / 1000000 ≤ us' / 1000000 := by omega
    rcases Int.lt_or_eq_of_le hq with hl | he
    · have h1 := stampFrac_le (us % 1000000).toNat (by omega)
      have h2 := mval_nonneg binary64 (binary64.roundMag (us' % 1000000).toNat 1000000)
      have : us / 1000000 + 1 ≤ us' / 1000000 := by omega
      have : ((us / 1000000 : Int) : ℚ) + 1 ≤ ((us' / 1000000 : Int) : ℚ) := by exact_mod_cast this
      linarith
    · rw [he]
      have hr : (us % 1000000).toNat ≤ (us' % 1000000).toNat := by omega
      have hrq : (((us % 1000000).toNat : Nat) : ℚ) ≤ (us' % 1000000).toNat := by exact_mod_cast hr
      have := (mval_strictMono binary64).monotone (roundMag_mono binary64 (by decide) (num := (us % 1000000).toNat)
        (num' := (us' % 1000000).toNat) (den := 1000000) (den' := 1000000) (by omega) (by omega)
        (by push_cast; linarith))
      linarith
  · simp only [if_true]
    have : (us : ℚ) ≤ us' := by exact_mod_cast h
    linarith

theorem toTimestamp_rounds {us : Int} (hus : us.natAbs < 2 ^ 38 * 1000000) (aware : Bool) :
    ∃ s M, toTimestamp us aware = binary64.withSign s M ∧ M < binary64.infBits ∧ RoundsTo (exactStamp us aware) s M := by
  cases aware
  · unfold toTimestamp exactStamp
    simp only [Bool.false_eq_true, if_false]
    have hsum := Int.mul_ediv_add_emod us 1000000
    have hr0 := Int.emod_nonneg us (show (1000000 : Int) ≠ 0 by decide)
    have hr1 := Int.emod_lt_of_pos us (show (0 : Int) < 1000000 by decide)
    have hle := stampFrac_le (us % 1000000).toNat (by omega)
    have hge := mval_nonneg binary64 (binary64.roundMag (us % 1000000).toNat 1000000)
    have hfr : binary64.roundMag (us % 1000000).toNat 1000000 < binary64.infBits := by
      refine round_finite (L := 1) (by omega) (by omega) ?_
      have : (((us % 1000000).toNat : Nat) : ℚ) < 1000000 := by exact_mod_cast (show (us % 1000000).toNat < 1000000 by omega)
      push_cast
      rw [div_lt_iff₀ (by norm_num)]
      linarith
    generalize us / 1000000 = secs at *
    generalize (us % 1000000).toNat = r at *
    obtain ⟨m, q, hdec, hval⟩ := decode_withSign false hfr
    have hw : binary64.withSign false (binary64.roundMag r 1000000) = binary64.roundMag r 1000000 := by simp [FloatFmt.withSign]
    rw [hw] at hdec
    rw [hdec]
    simp only
    have hD : 0 < 2 ^ (-q).toNat := Nat.two_pow_pos _
    have hpD : ((if 0 ≤ q then m * 2 ^ q.toNat else m : Nat) : ℚ) / (2 ^ (-q).toNat : Nat) = m * 2 ^ q := by
      by_cases h0 : 0 ≤ q
      · rw [if_pos h0, show (-q).toNat = 0 by omega, two_zpow_toNat h0]
        push_cast
        simp
      · rw [if_neg h0, two_zpow_neg_toNat (by omega), div_eq_mul_inv]
    rw [hval] at hpD
    generalize (if 0 ≤ q then m * 2 ^ q.toNat else m : Nat) = p at *
    generalize 2 ^ (-q).toNat = D at *
    generalize mval binary64 (binary64.roundMag r 1000000) = fr at *
    have hDq : (0 : ℚ) < D := by exact_mod_cast hD
    have hp' : (p : ℚ) = fr * D := by rw [← hpD]; field_simp
    have habs : (((secs * (D : Int) + (p : Int)).natAbs : Nat) : ℚ) / D = |(secs : ℚ) + fr| := by
      rw [Nat.cast_natAbs, Int.cast_abs]
      push_cast
      rw [hp']
      have : (secs : ℚ) * D + fr * D = (secs + fr) * D := by ring
      rw [this, abs_mul, abs_of_pos hDq]
      field_simp
    have hcast : ((secs * (D : Int) + (p : Int) : Int) : ℚ) = (secs + fr) * D := by
      push_cast
      rw [hp']
      ring
    refine ⟨_, _, rfl, ?_, ⟨_, _, hD, habs, rfl⟩, ?_, ?_⟩
    · refine round_finite (L := 40) hD (by omega) ?_
      rw [habs, zpow_natCast]
      have h1 : secs < 2 ^ 39 := by omega
      have h2 : -2 ^ 39 < secs := by omega
      have h1 : (secs : ℚ) < 2 ^ 39 := by exact_mod_cast h1
      have h2 : (-2 ^ 39 : ℚ) < secs := by exact_mod_cast h2
      rw [abs_lt]
      constructor <;> norm_num at * <;> linarith
    · intro h
      have h : secs * (D : Int) + (p : Int) < 0 := by simpa using h
      have h : ((secs * (D : Int) + (p : Int) : Int) : ℚ) < 0 := by exact_mod_cast h
      rw [hcast] at h
      by_contra hc
      have := mul_nonneg (le_of_lt (not_le.1 hc)) (le_of_lt hDq)
      linarith
    · intro h
      have h : 0 ≤ secs * (D : Int) + (p : Int) := by simpa using h
      have h : (0 : ℚ) ≤ ((secs * (D : Int) + (p : Int) : Int) : ℚ) := by exact_mod_cast h
      rw [hcast] at h
      exact nonneg_of_mul_nonneg_left h hDq
  · unfold toTimestamp exactStamp
    simp only [if_true]
    have habs : ((us.natAbs : Nat) : ℚ) / (1000000 : Nat) = |(us : ℚ) / 1000000| := by
      rw [Nat.cast_natAbs, Int.cast_abs, abs_div]
      norm_num
    refine ⟨_, _, rfl, ?_, ⟨_, _, by omega, habs, rfl⟩, ?_, ?_⟩
    · refine round_finite (L := 38) (by omega) (by omega) ?_
      rw [zpow_natCast, div_lt_iff₀ (by norm_num)]
      exact_mod_cast hus
    · intro h
      have h : us < 0 := by simpa using h
      have : (us : ℚ) < 0 := by exact_mod_cast h
      linarith
    · intro h
      have h : 0 ≤ us := by simpa using h
      have : (0 : ℚ) ≤ us := by exact_mod_cast h
      linarith

/-- Later moments are stored as no smaller integers. -/
theorem tsStored_mono {res : Resolution} {us us' : Int} (h : us ≤ us') (h1 : datetimeMin ≤ us) (h2 : us' ≤ datetimeMax)
    {aware : Bool} {i j : Int} (hi : tsStored res us aware = .ok i) (hj : tsStored res us' aware = .ok j) : i ≤ j := by
  unfold datetimeMin datetimeMax at *
  obtain ⟨s, M, e1, hM, r1⟩ := toTimestamp_rounds (us := us) (by omega) aware
  obtain ⟨s', M', e2, hM', r2⟩ := toTimestamp_rounds (us := us') (by omega) aware
  have hle := r1.mono r2 (exactStamp_mono h aware)
  unfold tsStored at hi hj
  simp only [e1, e2] at hi hj
  by_cases hr : res = .s
  · rw [if_pos hr] at hi hj
    exact floatTrunc_mono hM hM' hle hi hj
  · rw [if_neg hr] at hi hj
    obtain ⟨M1, e3, hM1, r3⟩ := floatMulNat_rounds s hM hi
    obtain ⟨M2, e4, hM2, r4⟩ := floatMulNat_rounds s' hM' hj
    rw [e3] at hi
    rw [e4] at hj
    refine floatTrunc_mono hM1 hM2 (r3.mono r4 ?_) hi hj
    exact mul_le_mul_of_nonneg_right hle (by positivity)

end Verif
