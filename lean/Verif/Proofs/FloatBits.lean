import Verif.Proofs.Float

/-! Helper lemmas relating bit patterns, the IEEE fields of `Spec/Float.lean`, and the model's conversions. -/

namespace Verif
open Spec

/-- Bit patterns of a format. -/
def Fits (f : FloatFmt) (bits : Nat) : Prop := bits < 2 * 2 ^ (f.ebits + f.mbits)

theorem exponent_eq (f : FloatFmt) (bits : Nat) : bits % f.signBit / 2 ^ f.mbits = exponent f bits := by
  rw [FloatFmt.signBit, Nat.add_comm, Nat.pow_add, Nat.mod_mul_right_div_self]
  rfl

theorem significand_eq (f : FloatFmt) (bits : Nat) : bits % f.signBit % 2 ^ f.mbits = significand f bits := by
  rw [FloatFmt.signBit, Nat.mod_mod_of_dvd]
  · rfl
  · exact Nat.pow_dvd_pow 2 (by omega)

theorem negative_iff {f : FloatFmt} {bits : Nat} (h : Fits f bits) : f.signBit ≤ bits ↔ Negative f bits := by
  unfold Negative FloatFmt.signBit
  unfold Fits at h
  have hp := Nat.two_pow_pos (f.ebits + f.mbits)
  generalize 2 ^ (f.ebits + f.mbits) = S at *
  constructor
  · intro h1
    have : bits / S = 1 := by
      rw [Nat.div_eq_iff hp]; omega
    rw [this]
  · intro h1
    by_contra hc
    rw [Nat.div_eq_of_lt (by omega)] at h1
    omega

theorem decode_finite {f : FloatFmt} {bits : Nat} (h : IsFinite f bits) :
    ∃ m q, f.decode bits = .fin (decide (f.signBit ≤ bits)) m q ∧ (m : ℚ) * 2 ^ q = mval f (bits % f.signBit) ∧
      m < 2 * 2 ^ f.mbits ∧ f.qmin ≤ q := by
  unfold IsFinite at h
  unfold FloatFmt.decode mval FloatFmt.expMax
  simp only [exponent_eq, significand_eq]
  rw [if_neg h]
  have hs : significand f bits < 2 ^ f.mbits := Nat.mod_lt _ (Nat.two_pow_pos _)
  by_cases h0 : exponent f bits = 0
  · rw [if_pos h0, if_pos h0]
    exact ⟨_, _, rfl, rfl, by omega, le_refl _⟩
  · rw [if_neg h0, if_neg h0]
    exact ⟨_, _, rfl, rfl, by omega, by omega⟩

theorem decode_inf {f : FloatFmt} {bits : Nat} (h : IsInfinite f bits) : f.decode bits = .inf (decide (f.signBit ≤ bits)) := by
  unfold FloatFmt.decode FloatFmt.expMax
  simp only [exponent_eq, significand_eq]
  rw [if_pos h.1, if_pos h.2]

theorem decode_nan {f : FloatFmt} {bits : Nat} (h : IsNaN f bits) :
    f.decode bits = .nan (decide (f.signBit ≤ bits)) (significand f bits) := by
  unfold FloatFmt.decode FloatFmt.expMax
  simp only [exponent_eq, significand_eq]
  rw [if_pos h.1, if_neg h.2]

theorem mval_magnitude {f : FloatFmt} (bits : Nat) : mval f (bits % f.signBit) = magnitude f bits := by
  unfold mval magnitude
  simp only [exponent_eq, significand_eq]
  have hB : (2 : ℚ) ^ f.mbits = 2 ^ (f.mbits : Int) := by rw [zpow_natCast]
  have hq : f.qmin = (1 - bias f) + -(f.mbits : Int) := by unfold FloatFmt.qmin bias; ring
  have hB0 : (0 : ℚ) < 2 ^ f.mbits := by positivity
  by_cases h0 : exponent f bits = 0
  · rw [if_pos h0, if_pos h0, hq, two_zpow_add, zpow_neg, ← hB]
    field_simp
  · rw [if_neg h0, if_neg h0]
    have he : f.qmin + ((exponent f bits - 1 : Nat) : Int) = ((exponent f bits : Int) - bias f) + -(f.mbits : Int) := by
      rw [hq]; omega
    rw [he, two_zpow_add, zpow_neg, ← hB]
    push_cast
    field_simp

/-- Attaching a sign to magnitude bits. -/
theorem withSign_fields {f : FloatFmt} {mag : Nat} (s : Bool) (h : mag < f.signBit) :
    f.withSign s mag % f.signBit = mag ∧ Fits f (f.withSign s mag) ∧ (f.signBit ≤ f.withSign s mag ↔ s = true) := by
  unfold FloatFmt.withSign Fits
  change _ ∧ _ < 2 * f.signBit ∧ _
  generalize f.signBit = S at *
  cases s
  · simp [Nat.mod_eq_of_lt h]; omega
  · simp [Nat.mod_eq_of_lt h]; omega

theorem withSign_self {f : FloatFmt} {bits : Nat} (h : Fits f bits) :
    f.withSign (decide (f.signBit ≤ bits)) (bits % f.signBit) = bits := by
  unfold FloatFmt.withSign
  change bits < 2 * f.signBit at h
  generalize f.signBit = S at *
  by_cases h1 : S ≤ bits
  · simp only [h1, decide_true, if_true]
    rw [Nat.mod_eq_sub_mod h1, Nat.mod_eq_of_lt (by omega)]
    omega
  · simp only [h1, decide_false]
    rw [Nat.mod_eq_of_lt (by omega)]
    simp

theorem infBits_lt (f : FloatFmt) : f.infBits < f.signBit := by
  unfold FloatFmt.infBits FloatFmt.signBit FloatFmt.expMax
  rw [Nat.pow_add]
  exact Nat.mul_lt_mul_of_pos_right (by have := Nat.two_pow_pos f.ebits; omega) (Nat.two_pow_pos _)

/-- Finite patterns are those whose magnitude bits are below those of infinity. -/
theorem finite_iff (f : FloatFmt) (bits : Nat) : IsFinite f bits ↔ bits % f.signBit < f.infBits := by
  unfold IsFinite FloatFmt.infBits FloatFmt.expMax
  rw [← Nat.div_lt_iff_lt_mul (Nat.two_pow_pos _), exponent_eq]
  have : exponent f bits < 2 ^ f.ebits := Nat.mod_lt _ (Nat.two_pow_pos _)
  omega

theorem infinite_iff (f : FloatFmt) (bits : Nat) : IsInfinite f bits ↔ bits % f.signBit = f.infBits := by
  unfold IsInfinite FloatFmt.infBits FloatFmt.expMax
  have hd := Nat.div_add_mod (bits % f.signBit) (2 ^ f.mbits)
  have hm := Nat.mod_lt (bits % f.signBit) (Nat.two_pow_pos f.mbits)
  rw [exponent_eq, significand_eq] at hd
  constructor
  · rintro ⟨h1, h2⟩
    rw [h1, h2] at hd
    rw [← hd, Nat.mul_comm]; rfl
  · intro h
    obtain ⟨h1, h2⟩ := divmod_of (M := bits % f.signBit) (B := 2 ^ f.mbits) (q := 2 ^ f.ebits - 1) (t := 0)
      (by rw [h]; rfl) (Nat.two_pow_pos _)
    rw [exponent_eq] at h1
    rw [significand_eq] at h2
    exact ⟨h1, h2⟩

/-- The largest finite magnitude, and the next one up. -/
theorem largest_eq {f : FloatFmt} (he : 2 ≤ f.ebits) : mval f (f.infBits - 1) = largest f ∧
    mval f f.infBits = largest f + 2 * halfGap f := by
  have hB := Nat.two_pow_pos f.mbits
  have hE : 4 ≤ 2 ^ f.ebits := by
    calc 4 = 2 ^ 2 := rfl
      _ ≤ 2 ^ f.ebits := Nat.pow_le_pow_right (by omega) he
  have hEE : (2 : Int) ^ f.ebits = 2 * 2 ^ (f.ebits - 1) := by
    obtain ⟨c, hc⟩ : ∃ c, f.ebits = c + 1 := ⟨f.ebits - 1, by omega⟩
    rw [hc, Int.pow_succ, Nat.add_sub_cancel]; ring
  have hBq : (2 : ℚ) ^ f.mbits = 2 ^ (f.mbits : Int) := by rw [zpow_natCast]
  have hB0 : (0 : ℚ) < 2 ^ f.mbits := by positivity
  -- fields of infBits - 1
  obtain ⟨h1, h2⟩ := divmod_of (M := f.infBits - 1) (B := 2 ^ f.mbits) (q := 2 ^ f.ebits - 2) (t := 2 ^ f.mbits - 1)
    (by
      unfold FloatFmt.infBits FloatFmt.expMax
      obtain ⟨E, hE'⟩ : ∃ E, 2 ^ f.ebits = E + 2 := ⟨2 ^ f.ebits - 2, by omega⟩
      rw [hE', show E + 2 - 1 = E + 1 by omega, show E + 2 - 2 = E by omega, Nat.add_mul]
      omega)
    (by omega)
  have hexp : f.qmin + ((2 ^ f.ebits - 2 - 1 : Nat) : Int) = bias f + -(f.mbits : Int) := by
    have : ((2 ^ f.ebits - 2 - 1 : Nat) : Int) = 2 ^ f.ebits - 3 := by
      have h : ((2 ^ f.ebits : Nat) : Int) = 2 ^ f.ebits := by push_cast; rfl
      omega
    rw [this, hEE]
    unfold FloatFmt.qmin bias
    ring
  have e1 : mval f (f.infBits - 1) = largest f := by
    unfold mval largest
    rw [h1, h2, if_neg (by omega), hexp, two_zpow_add, zpow_neg, ← hBq]
    have : ((2 ^ f.mbits + (2 ^ f.mbits - 1) : Nat) : ℚ) = 2 * 2 ^ f.mbits - 1 := by
      have h3 : 2 ^ f.mbits + (2 ^ f.mbits - 1) + 1 = 2 * 2 ^ f.mbits := by omega
      have h4 : ((2 ^ f.mbits + (2 ^ f.mbits - 1) : Nat) : ℚ) + 1 = 2 * 2 ^ f.mbits := by exact_mod_cast h3
      linarith
    rw [this]
    field_simp
  refine ⟨e1, ?_⟩
  have h5 : f.infBits = f.infBits - 1 + 1 := by
    have : 0 < f.infBits := by
      unfold FloatFmt.infBits FloatFmt.expMax
      exact Nat.mul_pos (by omega) hB
    omega
  have h6 := mval_succ f (f.infBits - 1)
  rw [← h5, e1, h1, hexp] at h6
  rw [h6, halfGap, show bias f - (f.mbits : Int) - 1 = (bias f + -(f.mbits : Int)) + -1 by ring, two_zpow_add _ (-1)]
  norm_num
  ring

theorem standard_bounds {f : FloatFmt} (h : Standard f) : 2 ≤ f.ebits ∧ 1 ≤ f.mbits ∧ f.mbits ≤ 52 ∧ f.ebits ≤ 11 ∧
    binary64.qmin ≤ f.qmin ∧ 2 * 2 ^ (f.ebits + f.mbits) = 2 ^ (8 * f.bytes) := by
  rcases h with rfl | rfl | rfl <;> decide

theorem largest_bounds (f : FloatFmt) : (2 : ℚ) ^ bias f ≤ largest f ∧ largest f ≤ 2 ^ (bias f + 1) := by
  have h0 := two_zpow_pos (bias f)
  have h1 : (1 : ℚ) ≤ 2 ^ f.mbits := one_le_pow₀ (by norm_num)
  have h2 : 1 / (2 : ℚ) ^ f.mbits ≤ 1 := by rw [div_le_one (by linarith)]; exact h1
  have h3 : 0 ≤ 1 / (2 : ℚ) ^ f.mbits := by positivity
  rw [two_zpow_add, largest]
  constructor
  · nlinarith
  · rw [zpow_one]; nlinarith

theorem largest_le64 {f : FloatFmt} (h : Standard f) : largest f ≤ largest binary64 := by
  have key : bias f + 1 ≤ bias binary64 → largest f ≤ largest binary64 := fun hb =>
    le_trans (largest_bounds f).2 (le_trans (two_zpow_le.2 hb) (largest_bounds binary64).1)
  rcases h with rfl | rfl | rfl
  · exact key (by decide)
  · exact key (by decide)
  · exact le_refl _

/-- Finite magnitudes are at most the largest one. -/
theorem magnitude_le {f : FloatFmt} (he : 2 ≤ f.ebits) {bits : Nat} (h : IsFinite f bits) : magnitude f bits ≤ largest f := by
  rw [← mval_magnitude, ← (largest_eq he).1]
  apply (mval_strictMono f).monotone
  have := (finite_iff f bits).1 h
  omega

/-! ### Conversions -/

/-- Widening a finite number to binary64 is exact. -/
theorem unpackBits_finite {f : FloatFmt} (hf : Standard f) {b : Nat} (hb : Fits f b) (h : IsFinite f b) :
    Fits binary64 (unpackBits f b) ∧ SameNumber f b binary64 (unpackBits f b) := by
  obtain ⟨he, hm1, hm, _, hq, _⟩ := standard_bounds hf
  unfold unpackBits
  by_cases h64 : f = binary64
  · rw [if_pos h64]
    subst h64
    exact ⟨hb, h, h, Iff.rfl, rfl⟩
  · rw [if_neg h64]
    obtain ⟨m, q, hdec, hval, hmlt, hqge⟩ := decode_finite h
    rw [hdec]
    simp only
    have hpow : 2 ^ f.mbits ≤ 2 ^ 52 := Nat.pow_le_pow_right (by omega) hm
    have hr := roundDyadic_representable binary64 (m := m) (q := q)
      (by show m < 2 * 2 ^ 52; omega) (le_trans hq hqge)
    rw [hval, mval_magnitude] at hr
    have hlt : binary64.roundDyadic m q < binary64.infBits := by
      have h1 : mval binary64 (binary64.roundDyadic m q) ≤ mval binary64 (binary64.infBits - 1) := by
        rw [hr, (largest_eq (f := binary64) (by decide)).1]
        exact le_trans (magnitude_le he h) (largest_le64 hf)
      have := (mval_strictMono binary64).le_iff_le.1 h1
      have h0 : 0 < binary64.infBits := by decide
      omega
    obtain ⟨w1, w2, w3⟩ := withSign_fields (f := binary64) (decide (f.signBit ≤ b)) (lt_trans hlt (infBits_lt binary64))
    refine ⟨w2, h, ?_, ?_, ?_⟩
    · rw [finite_iff, w1]; exact hlt
    · rw [← negative_iff hb, ← negative_iff w2, w3]; simp
    · rw [← mval_magnitude (f := binary64), w1, hr]

/-- Narrowing a finite binary64. -/
theorem packBits_finite {f : FloatFmt} (h64 : f ≠ binary64) {x : Nat} (h : IsFinite binary64 x) :
    ∃ num den : Nat, 0 < den ∧ (num : ℚ) / den = magnitude binary64 x ∧
      packBits f x = if f.infBits ≤ f.roundMag num den then none
        else some (f.withSign (decide (binary64.signBit ≤ x)) (f.roundMag num den)) := by
  obtain ⟨m, q, hdec, hval, _, _⟩ := decode_finite h
  obtain ⟨num, den, hd, hx, hr⟩ := roundDyadic_eq f m q
  refine ⟨num, den, hd, by rw [hx, hval, mval_magnitude], ?_⟩
  unfold packBits
  rw [if_neg h64, hdec]
  simp only [hr]

/-- Narrowing gives back the pattern of the same number, if there is one. -/
theorem packBits_same {f : FloatFmt} (hf : Standard f) {x b : Nat} (hx : Fits binary64 x) (hb : Fits f b)
    (h : SameNumber binary64 x f b) : packBits f x = some b := by
  obtain ⟨h1, h2, h3, h4⟩ := h
  by_cases h64 : f = binary64
  · subst h64
    unfold packBits
    rw [if_pos rfl]
    -- patterns of the same format standing for the same number are the same
    have h5 : x % binary64.signBit = b % binary64.signBit := by
      apply (mval_strictMono binary64).injective
      rw [mval_magnitude, mval_magnitude, h4]
    have h6 : (binary64.signBit ≤ x) ↔ (binary64.signBit ≤ b) := by rw [negative_iff hx, negative_iff hb, h3]
    rw [← withSign_self hx, ← withSign_self hb, h5, decide_eq_decide.2 h6]
  · obtain ⟨num, den, hd, hv, hp⟩ := packBits_finite h64 h1
    have hr : f.roundMag num den = b % f.signBit := by
      apply roundMag_exact f hd
      rw [hv, h4, mval_magnitude]
    have hlt := (finite_iff f b).1 h2
    rw [hp, hr, if_neg (by omega)]
    have h6 : (binary64.signBit ≤ x) ↔ (f.signBit ≤ b) := by rw [negative_iff hx, negative_iff hb, h3]
    rw [decide_eq_decide.2 h6, withSign_self hb]

theorem unpackBits_infinite {f : FloatFmt} {b : Nat} (hb : Fits f b) (h : IsInfinite f b) :
    Fits binary64 (unpackBits f b) ∧ SameInfinity f b binary64 (unpackBits f b) := by
  unfold unpackBits
  by_cases h64 : f = binary64
  · rw [if_pos h64]
    subst h64
    exact ⟨hb, h, h, Iff.rfl⟩
  · rw [if_neg h64, decode_inf h]
    simp only
    obtain ⟨w1, w2, w3⟩ := withSign_fields (f := binary64) (decide (f.signBit ≤ b)) (infBits_lt binary64)
    refine ⟨w2, h, ?_, ?_⟩
    · rw [infinite_iff, w1]
    · rw [← negative_iff hb, ← negative_iff w2, w3]; simp

theorem packBits_infinite {f : FloatFmt} {x b : Nat} (hx : Fits binary64 x) (hb : Fits f b)
    (h : SameInfinity binary64 x f b) : packBits f x = some b := by
  obtain ⟨h1, h2, h3⟩ := h
  have h5 := (infinite_iff f b).1 h2
  have h6 : (binary64.signBit ≤ x) ↔ (f.signBit ≤ b) := by rw [negative_iff hx, negative_iff hb, h3]
  unfold packBits
  by_cases h64 : f = binary64
  · subst h64
    rw [if_pos rfl, ← withSign_self hx, ← withSign_self hb, h5, (infinite_iff binary64 x).1 h1, decide_eq_decide.2 h6]
  · rw [if_neg h64, decode_inf h1]
    simp only
    rw [decide_eq_decide.2 h6, ← h5, withSign_self hb]

theorem sameNumber_symm {f g : FloatFmt} {a b : Nat} (h : SameNumber f a g b) : SameNumber g b f a :=
  ⟨h.2.1, h.1, h.2.2.1.symm, h.2.2.2.symm⟩

theorem sameInfinity_symm {f g : FloatFmt} {a b : Nat} (h : SameInfinity f a g b) : SameInfinity g b f a :=
  ⟨h.2.1, h.1, h.2.2.symm⟩

theorem trichotomy (f : FloatFmt) (b : Nat) : IsFinite f b ∨ IsInfinite f b ∨ IsNaN f b := by
  unfold IsFinite IsInfinite IsNaN
  by_cases h : exponent f b = 2 ^ f.ebits - 1 <;> by_cases h' : significand f b = 0 <;> simp [h, h']

/-- Loading a number and dumping it again. -/
theorem packBits_unpackBits {f : FloatFmt} (hf : Standard f) {b : Nat} (hb : Fits f b) (h : ¬ IsNaN f b) :
    packBits f (unpackBits f b) = some b := by
  rcases trichotomy f b with h1 | h1 | h1
  · obtain ⟨h2, h3⟩ := unpackBits_finite hf hb h1
    exact packBits_same hf h2 hb (sameNumber_symm h3)
  · obtain ⟨h2, h3⟩ := unpackBits_infinite hb h1
    exact packBits_infinite h2 hb (sameInfinity_symm h3)
  · exact absurd h1 h

/-- Dumping a representable number and loading it again. -/
theorem unpackBits_same {f : FloatFmt} (hf : Standard f) {x b : Nat} (hx : Fits binary64 x) (hb : Fits f b)
    (h : SameNumber binary64 x f b ∨ SameInfinity binary64 x f b) : packBits f x = some b ∧ unpackBits f b = x := by
  have h64 : Standard binary64 := Or.inr (Or.inr rfl)
  rcases h with h | h
  · refine ⟨packBits_same hf hx hb h, ?_⟩
    obtain ⟨h2, h3⟩ := unpackBits_finite hf hb h.2.1
    have h4 : SameNumber binary64 (unpackBits f b) binary64 x :=
      ⟨h3.2.1, h.1, h3.2.2.1.symm.trans h.2.2.1.symm, h3.2.2.2.symm.trans h.2.2.2.symm⟩
    have := packBits_same h64 h2 hx h4
    simpa [packBits] using this
  · refine ⟨packBits_infinite hx hb h, ?_⟩
    obtain ⟨h2, h3⟩ := unpackBits_infinite hb h.2.1
    have h4 : SameInfinity binary64 (unpackBits f b) binary64 x := ⟨h3.2.1, h.1, h3.2.2.symm.trans h.2.2.symm⟩
    have := packBits_infinite h2 hx h4
    simpa [packBits] using this

/-- NaN patterns. -/
theorem nan_of {f : FloatFmt} (s : Bool) {p : Nat} (h0 : 0 < p) (h : p < 2 ^ f.mbits) :
    Fits f (f.withSign s (f.infBits + p)) ∧ IsNaN f (f.withSign s (f.infBits + p)) ∧
      (Negative f (f.withSign s (f.infBits + p)) ↔ s = true) := by
  have hlt : f.infBits + p < f.signBit := by
    unfold FloatFmt.infBits FloatFmt.signBit FloatFmt.expMax
    have hE := Nat.two_pow_pos f.ebits
    obtain ⟨E, hE'⟩ : ∃ E, 2 ^ f.ebits = E + 1 := ⟨2 ^ f.ebits - 1, by omega⟩
    rw [Nat.pow_add, hE', Nat.add_sub_cancel, Nat.add_mul]
    omega
  obtain ⟨w1, w2, w3⟩ := withSign_fields s hlt
  refine ⟨w2, ?_, by rw [← negative_iff w2, w3]⟩
  unfold IsNaN
  rw [← exponent_eq, ← significand_eq, w1]
  obtain ⟨h1, h2⟩ := divmod_of (M := f.infBits + p) (B := 2 ^ f.mbits) (q := 2 ^ f.ebits - 1) (t := p) rfl h
  rw [h1, h2]
  exact ⟨rfl, by omega⟩

theorem quiet_bounds {a q : Nat} (h : a < 2 * q) :
    0 < (if a < q then a + q else a) ∧ (if a < q then a + q else a) < 2 * q := by
  by_cases hc : a < q
  · rw [if_pos hc]; omega
  · rw [if_neg hc]; omega

/-- NaN is loaded as NaN. -/
theorem unpackBits_nan {f : FloatFmt} (hf : Standard f) {b : Nat} (hb : Fits f b) (h : IsNaN f b) :
    Fits binary64 (unpackBits f b) ∧ IsNaN binary64 (unpackBits f b) ∧ (Negative binary64 (unpackBits f b) ↔ Negative f b) := by
  have hs : significand f b < 2 ^ f.mbits := Nat.mod_lt _ (Nat.two_pow_pos _)
  have h0 : 0 < significand f b := Nat.pos_of_ne_zero h.2
  have hn := negative_iff hb
  have hdec := decode_nan h
  generalize significand f b = p at *
  unfold unpackBits
  rcases hf with rfl | rfl | rfl
  · rw [if_neg (by decide), hdec]
    simp only [if_true]
    have := nan_of (f := binary64) (decide (binary16.signBit ≤ b)) (p := 2 ^ 51) (by decide) (by decide)
    exact ⟨this.1, this.2.1, this.2.2.trans (by rw [decide_eq_true_iff, hn])⟩
  · rw [if_neg (by decide), hdec]
    simp only
    rw [if_neg (by decide)]
    change p < 2 ^ 23 at hs
    have hp : 0 < (if p < 2 ^ (binary32.mbits - 1) then p + 2 ^ (binary32.mbits - 1) else p) * 2 ^ (52 - binary32.mbits) ∧
        (if p < 2 ^ (binary32.mbits - 1) then p + 2 ^ (binary32.mbits - 1) else p) * 2 ^ (52 - binary32.mbits) <
          2 ^ binary64.mbits := by
      change 0 < (if p < 2 ^ 22 then p + 2 ^ 22 else p) * 2 ^ 29 ∧ (if p < 2 ^ 22 then p + 2 ^ 22 else p) * 2 ^ 29 < 2 ^ 52
      split <;> omega
    have := nan_of (f := binary64) (decide (binary32.signBit ≤ b)) hp.1 hp.2
    exact ⟨this.1, this.2.1, this.2.2.trans (by rw [decide_eq_true_iff, hn])⟩
  · rw [if_pos rfl]
    exact ⟨hb, h, Iff.rfl⟩

/-- NaN is dumped as NaN. -/
theorem packBits_nan {f : FloatFmt} (hf : Standard f) {x : Nat} (hx : Fits binary64 x) (h : IsNaN binary64 x) :
    ∃ b, packBits f x = some b ∧ Fits f b ∧ IsNaN f b ∧ (Negative f b ↔ Negative binary64 x) := by
  have hs : significand binary64 x < 2 ^ 52 := Nat.mod_lt _ (Nat.two_pow_pos _)
  have hn := negative_iff hx
  have hdec := decode_nan h
  generalize hp : significand binary64 x = p at *
  unfold packBits
  rcases hf with rfl | rfl | rfl
  · rw [if_neg (by decide), hdec]
    simp only [if_true]
    have := nan_of (f := binary16) (decide (binary64.signBit ≤ x)) (p := 2 ^ 9) (by decide) (by decide)
    exact ⟨_, rfl, this.1, this.2.1, this.2.2.trans (by rw [decide_eq_true_iff, hn])⟩
  · rw [if_neg (by decide), hdec]
    simp only
    rw [if_neg (by decide)]
    have hq : 0 < (if p / 2 ^ (52 - binary32.mbits) < 2 ^ (binary32.mbits - 1) then
          p / 2 ^ (52 - binary32.mbits) + 2 ^ (binary32.mbits - 1) else p / 2 ^ (52 - binary32.mbits)) ∧
        (if p / 2 ^ (52 - binary32.mbits) < 2 ^ (binary32.mbits - 1) then
          p / 2 ^ (52 - binary32.mbits) + 2 ^ (binary32.mbits - 1) else p / 2 ^ (52 - binary32.mbits)) < 2 ^ binary32.mbits := by
      exact quiet_bounds (a := p / 2 ^ 29) (q := 2 ^ 22) (by omega)
    have := nan_of (f := binary32) (decide (binary64.signBit ≤ x)) hq.1 hq.2
    exact ⟨_, rfl, this.1, this.2.1, this.2.2.trans (by rw [decide_eq_true_iff, hn])⟩
  · rw [if_pos rfl]
    exact ⟨x, rfl, hx, h, Iff.rfl⟩

/-- What narrowing does to a finite number: nearest, or an exception from the middle of the gap above the largest number
on. -/
theorem packBits_round {f : FloatFmt} (hf : Standard f) {x : Nat} (hx : Fits binary64 x) (h : IsFinite binary64 x) :
    (packBits f x = none ↔ largest f + halfGap f ≤ magnitude binary64 x) ∧
    ∀ b, packBits f x = some b → Fits f b ∧ IsFinite f b ∧ (Negative f b ↔ Negative binary64 x) ∧
      ∀ b', IsFinite f b' → |magnitude binary64 x - magnitude f b| ≤ |magnitude binary64 x - magnitude f b'| := by
  obtain ⟨he, hm1, _, _, _, _⟩ := standard_bounds hf
  by_cases h64 : f = binary64
  · subst h64
    have hp : packBits binary64 x = some x := if_pos rfl
    rw [hp]
    refine ⟨⟨by simp, fun h1 => ?_⟩, ?_⟩
    · have h2 := magnitude_le he h
      have h3 := two_zpow_pos (bias binary64 - binary64.mbits - 1)
      unfold halfGap at h1
      linarith
    · intro b hb
      cases hb
      exact ⟨hx, h, Iff.rfl, fun b' _ => by simp⟩
  · obtain ⟨num, den, hd, hv, hp⟩ := packBits_finite (f := f) h64 h
    have hnear := roundMag_nearest f num den hd
    rw [hv] at hnear
    have hpos : 2 ≤ f.infBits := by rcases hf with rfl | rfl | rfl <;> decide
    have heven : f.infBits % 2 = 0 := by rcases hf with rfl | rfl | rfl <;> decide
    have hge := roundMag_ge f hm1 (num := num) hd (N := f.infBits - 1) (by rw [Nat.sub_add_cancel (by omega)]; exact heven)
    rw [Nat.sub_add_cancel (by omega), (largest_eq he).1, (largest_eq he).2, hv] at hge
    have hmid : (largest f + (largest f + 2 * halfGap f)) / 2 = largest f + halfGap f := by ring
    rw [hmid] at hge
    rw [hp]
    constructor
    · by_cases hc : f.infBits ≤ f.roundMag num den
      · rw [if_pos hc]; simp [hge.1 hc]
      · rw [if_neg hc]; simp; exact not_le.1 fun h => hc (hge.2 h)
    · intro b hb
      by_cases hc : f.infBits ≤ f.roundMag num den
      · rw [if_pos hc] at hb; exact absurd hb (by simp)
      · rw [if_neg hc] at hb
        cases hb
        obtain ⟨w1, w2, w3⟩ := withSign_fields (f := f) (decide (binary64.signBit ≤ x)) (mag := f.roundMag num den)
          (lt_trans (by omega) (infBits_lt f))
        refine ⟨w2, ?_, ?_, ?_⟩
        · rw [finite_iff, w1]; omega
        · rw [← negative_iff w2, w3, decide_eq_true_iff, negative_iff hx]
        · intro b' hb'
          rw [← mval_magnitude (f := f), ← mval_magnitude (f := f), w1]
          exact hnear _

end Verif
