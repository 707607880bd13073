import Verif.Proofs.FloatBits
import Verif.Proofs.Text
import Verif.Spec.Samples

/-!
# Properties of `Float16`, `Float32` and `Float64`

C52, C53.  A Python float is given by its binary64 bit pattern.
-/

namespace Verif
open Spec

theorem fits_of_length {f : FloatFmt} (hf : Standard f) {e : Endian} {data : Bytes} (h : data.length = f.bytes) :
    Fits f (natOfLE (e.arrange data)) := by
  have := natOfLE_lt (e.arrange data)
  rw [Endian.length_arrange, h] at this
  unfold Fits
  rw [(standard_bounds hf).2.2.2.2.2]
  exact this

theorem natToLE_of_fits {f : FloatFmt} (hf : Standard f) {b : Nat} (h : Fits f b) : natOfLE (natToLE f.bytes b) = b := by
  rw [natOfLE_natToLE, Nat.mod_eq_of_lt]
  rw [← (standard_bounds hf).2.2.2.2.2]
  exact h

theorem arrange_natToLE {f : FloatFmt} {e : Endian} {data : Bytes} (h : data.length = f.bytes) :
    e.arrange (natToLE f.bytes (natOfLE (e.arrange data))) = data := by
  have := natToLE_natOfLE (e.arrange data)
  rw [Endian.length_arrange, h] at this
  rw [this, Endian.arrange_arrange]

theorem floatPack_length {f : FloatFmt} {e : Endian} {x : Nat} {bs : Bytes} (h : floatPack f e x = some bs) :
    bs.length = f.bytes := by
  unfold floatPack at h
  cases hp : packBits f x with
  | none => simp [hp] at h
  | some b => simp [hp] at h; rw [← h]; simp [natToLE_length]

/-- What loading a float field does. -/
theorem float_load (Γ : Classes) (m : Nat) (b : FieldBase) (f : FloatFmt) (e : Endian) (ctx : Value) (loaded : Dict)
    (data : Bytes) (hplain : Plain b (.float (floatUnpack f e data))) (hsize : b.size = .fixed f.bytes)
    (h : data.length = f.bytes) (pre rest : Bytes) :
    fieldFromStream Γ (m + 2) (.leaf b (.float f e)) ⟨pre ++ data ++ rest, pre.length⟩ ctx loaded =
      (.ok (.float (floatUnpack f e data)), ⟨pre ++ data ++ rest, pre.length + data.length⟩) := by
  apply fieldFromStream_plain (f := .leaf b (.float f e)) hplain
  have hexp : leafExpectedSize b (.float f e) loaded = .ok data.length := by
    rw [h]; exact leafExpectedSize_declared (Or.inl hsize)
  simp only [fieldDoLoad, leafLoad, hexp, readExactSize_here, R.andThen, Except.bind]
  rw [if_pos h]

/-- What dumping a float with a float field does. -/
theorem float_dump (Γ : Classes) (m : Nat) (b : FieldBase) (f : FloatFmt) (e : Endian) (x : Nat) (ctx : Value) (all : Dict)
    (hsize : b.size = .fixed f.bytes) (hval : ∀ c ∈ b.validators, c (.float x) = .ok ()) :
    (∀ bs, floatPack f e x = some bs → fieldToStream Γ (m + 1) (.leaf b (.float f e)) (.float x) ctx all = (bs, .ok ())) ∧
    (floatPack f e x = none →
      fieldToStream Γ (m + 1) (.leaf b (.float f e)) (.float x) ctx all = ([], .error .overflowErr)) := by
  constructor
  · intro bs h
    apply fieldToStream_plain (f := .leaf b (.float f e)) (by simp) (by simp) (by simp) hval
      (Or.inr (Or.inl (by rw [floatPack_length h]; exact hsize)))
    simp only [fieldDoDump, leafDump, h, W.ok]
  · intro h
    rw [fieldToStream_succ, toStreamWith_plain (b := (Field.leaf b (.float f e)).base) (by simp) (by simp) (by simp) hval]
    simp only [fieldDoDump, leafDump, h, W.fail, W.toExcept]

/-- **C52** Every bit pattern that is not NaN is reproduced by loading it and dumping what was loaded. -/
theorem C52_load_dump (Γ : Classes) (m : Nat) (b : FieldBase) (f : FloatFmt) (e : Endian) (ctx : Value) (all loaded : Dict)
    (hf : Standard f) (hsize : b.size = .fixed f.bytes) (hplain : ∀ v, Plain b v) (data : Bytes) (h : data.length = f.bytes)
    (hnan : ¬ IsNaN f (natOfLE (e.arrange data))) :
    ∃ x, (∀ pre rest, fieldFromStream Γ (m + 2) (.leaf b (.float f e)) ⟨pre ++ data ++ rest, pre.length⟩ ctx loaded =
        (.ok (.float x), ⟨pre ++ data ++ rest, pre.length + data.length⟩)) ∧
      fieldToStream Γ (m + 1) (.leaf b (.float f e)) (.float x) ctx all = (data, .ok ()) := by
  refine ⟨floatUnpack f e data, fun pre rest => float_load Γ m b f e ctx loaded data (hplain _) hsize h pre rest, ?_⟩
  apply (float_dump Γ m b f e _ ctx all hsize (hplain _).2.2.2).1
  unfold floatPack floatUnpack
  rw [packBits_unpackBits hf (fits_of_length hf h) hnan]
  simp [arrange_natToLE h]

/-- **C52** What is loaded is the number that the bytes stand for, sign of zero and infinities included; NaN is loaded as
NaN. -/
theorem C52_load_value (Γ : Classes) (m : Nat) (b : FieldBase) (f : FloatFmt) (e : Endian) (ctx : Value) (loaded : Dict)
    (hf : Standard f) (hsize : b.size = .fixed f.bytes) (hplain : ∀ v, Plain b v) (data : Bytes) (h : data.length = f.bytes)
    (pre rest : Bytes) :
    ∃ x, fieldFromStream Γ (m + 2) (.leaf b (.float f e)) ⟨pre ++ data ++ rest, pre.length⟩ ctx loaded =
        (.ok (.float x), ⟨pre ++ data ++ rest, pre.length + data.length⟩) ∧ x < 2 ^ 64 ∧
      (SameNumber f (natOfLE (e.arrange data)) binary64 x ∨ SameInfinity f (natOfLE (e.arrange data)) binary64 x ∨
        (IsNaN f (natOfLE (e.arrange data)) ∧ IsNaN binary64 x)) := by
  refine ⟨floatUnpack f e data, float_load Γ m b f e ctx loaded data (hplain _) hsize h pre rest, ?_⟩
  have hb := fits_of_length hf (e := e) h
  have h64 : ∀ x, Fits binary64 x → x < 2 ^ 64 := fun x hx => hx
  unfold floatUnpack
  rcases trichotomy f (natOfLE (e.arrange data)) with h1 | h1 | h1
  · obtain ⟨h2, h3⟩ := unpackBits_finite hf hb h1
    exact ⟨h64 _ h2, Or.inl h3⟩
  · obtain ⟨h2, h3⟩ := unpackBits_infinite hb h1
    exact ⟨h64 _ h2, Or.inr (Or.inl h3)⟩
  · obtain ⟨h2, h3, _⟩ := unpackBits_nan hf hb h1
    exact ⟨h64 _ h2, Or.inr (Or.inr ⟨h1, h3⟩)⟩

/-- **C52** Every float that the field's format can represent is reproduced by dumping it and loading what was dumped. -/
theorem C52_dump_load (Γ : Classes) (m : Nat) (b : FieldBase) (f : FloatFmt) (e : Endian) (ctx : Value) (all loaded : Dict)
    (hf : Standard f) (hsize : b.size = .fixed f.bytes) (x : Nat) (hx : x < 2 ^ 64) (hplain : Plain b (.float x))
    (hrep : ∃ c, c < 2 ^ (8 * f.bytes) ∧ (SameNumber binary64 x f c ∨ SameInfinity binary64 x f c)) :
    ∃ bs, fieldToStream Γ (m + 1) (.leaf b (.float f e)) (.float x) ctx all = (bs, .ok ()) ∧ bs.length = f.bytes ∧
      ∀ pre rest, fieldFromStream Γ (m + 2) (.leaf b (.float f e)) ⟨pre ++ bs ++ rest, pre.length⟩ ctx loaded =
        (.ok (.float x), ⟨pre ++ bs ++ rest, pre.length + bs.length⟩) := by
  obtain ⟨c, hc, hsame⟩ := hrep
  have hc' : Fits f c := by unfold Fits; rw [(standard_bounds hf).2.2.2.2.2]; exact hc
  obtain ⟨h1, h2⟩ := unpackBits_same hf hx hc' hsame
  have hpack : floatPack f e x = some (e.arrange (natToLE f.bytes c)) := by simp [floatPack, h1]
  have hlen := floatPack_length hpack
  have hun : floatUnpack f e (e.arrange (natToLE f.bytes c)) = x := by
    rw [floatUnpack, Endian.arrange_arrange, natToLE_of_fits hf hc', h2]
  refine ⟨_, (float_dump Γ m b f e x ctx all hsize hplain.2.2.2).1 _ hpack, hlen, fun pre rest => ?_⟩
  have := float_load Γ m b f e ctx loaded _ (by rw [hun]; exact hplain) hsize hlen pre rest
  rw [hun] at this
  exact this

/-- **C52** Dumping a finite float writes the nearest number of the field's format, with the same sign, and never an
infinity or NaN. -/
theorem C52_dump_nearest (Γ : Classes) (m : Nat) (b : FieldBase) (f : FloatFmt) (e : Endian) (ctx : Value) (all : Dict)
    (hf : Standard f) (hsize : b.size = .fixed f.bytes) (x : Nat) (hx : x < 2 ^ 64) (hfin : IsFinite binary64 x)
    (hval : ∀ c ∈ b.validators, c (.float x) = .ok ()) (bs : Bytes)
    (h : fieldToStream Γ (m + 1) (.leaf b (.float f e)) (.float x) ctx all = (bs, .ok ())) :
    bs.length = f.bytes ∧ IsFinite f (natOfLE (e.arrange bs)) ∧ (Negative f (natOfLE (e.arrange bs)) ↔ Negative binary64 x) ∧
      ∀ c, IsFinite f c → |magnitude binary64 x - magnitude f (natOfLE (e.arrange bs))| ≤ |magnitude binary64 x - magnitude f c| := by
  have hd := float_dump Γ m b f e x ctx all hsize hval
  cases hp : packBits f x with
  | none =>
    have := hd.2 (by simp [floatPack, hp])
    rw [this] at h
    simp at h
  | some c =>
    have hpack : floatPack f e x = some (e.arrange (natToLE f.bytes c)) := by simp [floatPack, hp]
    have := hd.1 _ hpack
    rw [this] at h
    simp at h
    subst h
    obtain ⟨h1, h2, h3, h4⟩ := (packBits_round hf hx hfin).2 c hp
    rw [Endian.arrange_arrange, natToLE_of_fits hf h1]
    exact ⟨floatPack_length hpack, h2, h3, h4⟩

/-- **C52** Dumping a finite float raises exactly if it is too large for the format, that is if rounding would give an
infinity; nothing is written then. -/
theorem C52_out_of_range (Γ : Classes) (m : Nat) (b : FieldBase) (f : FloatFmt) (e : Endian) (ctx : Value) (all : Dict)
    (hf : Standard f) (hsize : b.size = .fixed f.bytes) (x : Nat) (hx : x < 2 ^ 64) (hfin : IsFinite binary64 x)
    (hval : ∀ c ∈ b.validators, c (.float x) = .ok ()) :
    (largest f + halfGap f ≤ magnitude binary64 x →
      fieldToStream Γ (m + 1) (.leaf b (.float f e)) (.float x) ctx all = ([], .error .overflowErr)) ∧
    (magnitude binary64 x < largest f + halfGap f →
      ∃ bs, fieldToStream Γ (m + 1) (.leaf b (.float f e)) (.float x) ctx all = (bs, .ok ())) := by
  have hd := float_dump Γ m b f e x ctx all hsize hval
  have hr := (packBits_round hf hx hfin).1
  constructor
  · intro h
    exact hd.2 (by simp [floatPack, hr.2 h])
  · intro h
    cases hp : packBits f x with
    | none => exact absurd (hr.1 hp) (not_le.2 h)
    | some c => exact ⟨_, hd.1 (e.arrange (natToLE f.bytes c)) (by simp [floatPack, hp])⟩

/-- **C52** NaN can be dumped with every format, as a NaN. -/
theorem C52_dump_nan (Γ : Classes) (m : Nat) (b : FieldBase) (f : FloatFmt) (e : Endian) (ctx : Value) (all : Dict)
    (hf : Standard f) (hsize : b.size = .fixed f.bytes) (x : Nat) (hx : x < 2 ^ 64) (hnan : IsNaN binary64 x)
    (hval : ∀ c ∈ b.validators, c (.float x) = .ok ()) :
    ∃ bs, fieldToStream Γ (m + 1) (.leaf b (.float f e)) (.float x) ctx all = (bs, .ok ()) ∧
      IsNaN f (natOfLE (e.arrange bs)) := by
  obtain ⟨c, h1, h2, h3, _⟩ := packBits_nan hf hx hnan
  refine ⟨_, (float_dump Γ m b f e x ctx all hsize hval).1 (e.arrange (natToLE f.bytes c)) (by simp [floatPack, h1]), ?_⟩
  rw [Endian.arrange_arrange, natToLE_of_fits hf h2]
  exact h3

-- 1.5 is 0x3FF8_0000_0000_0000 as a binary64 and 0x3E00 as a binary16
example : SameNumber binary64 0x3FF8000000000000 binary16 0x3E00 := by
  refine ⟨by decide, by decide, by decide, ?_⟩
  norm_num [magnitude, exponent, significand, bias, binary64, binary16]
example : ¬ IsNaN binary16 0x3E00 := by decide
example : IsFinite binary64 0x40EFFE0000000000 ∧ magnitude binary64 0x40EFFE0000000000 = 65520 := by
  refine ⟨by decide, ?_⟩
  norm_num [magnitude, exponent, significand, bias, binary64]
example : largest binary16 + halfGap binary16 = 65520 := by norm_num [largest, halfGap, bias, binary16]
example : Plain ({ name := "x", size := .fixed 2 } : FieldBase) (.float 7) := by simp [Plain]

/-- **C53** refuted: dumping 1e39 with a `Float32` raises `OverflowError`, which is not a binobj error. -/
theorem C53_range_errors_are_serialization_errors_refuted :
    ∃ (b : FieldBase) (x : Nat), b.size = .fixed 4 ∧ IsFinite binary64 x ∧
      fieldToStream Sample.noClasses 9 (.leaf b (.float binary32 .little)) (.float x) .none [] = ([], .error .overflowErr) ∧
      ∀ n, Err.overflowErr ≠ .serialization n :=
  ⟨{ name := "x", size := .fixed 4 }, 0x48078287F49C4A1D, rfl, by decide, by decide, by simp⟩

/-- **C53**, the part that holds: integers too large for any float, and values that are not numbers, raise
`SerializationError`. -/
theorem C53_unsuitable_values_partial (Γ : Classes) (m : Nat) (b : FieldBase) (f : FloatFmt) (e : Endian) (ctx : Value)
    (all : Dict) (v : Value) (hval : ∀ c ∈ b.validators, c v = .ok ()) (hd : v ≠ .dflt) (hu : v ≠ .undefined) (hn : v ≠ .none)
    (hf : ∀ x, v ≠ .float x) (hi : ∀ i, v = .int i → (2 : Int) ^ 1024 ≤ i ∨ i ≤ -2 ^ 1024) :
    fieldToStream Γ (m + 1) (.leaf b (.float f e)) v ctx all = ([], .error (.serialization b.name)) := by
  rw [fieldToStream_succ, toStreamWith_plain (b := (Field.leaf b (.float f e)).base) hd hu hn hval]
  have key : leafDump b (.float f e) (leafExpectedSize b (.float f e) all) v ctx all = W.fail (.serialization b.name) := by
    cases v with
    | float x => exact absurd rfl (hf x)
    | int i =>
      have : floatOfInt i = none := by
        unfold floatOfInt
        simp only
        rw [if_pos]
        have h64 : Standard binary64 := Or.inr (Or.inr rfl)
        have hge := roundMag_ge binary64 (by decide) (num := i.natAbs) (den := 1) (by omega) (N := binary64.infBits - 1)
          (by decide)
        rw [Nat.sub_add_cancel (by decide), (largest_eq (by decide)).1, (largest_eq (by decide)).2] at hge
        rw [hge]
        have h1 : 2 ^ 1024 ≤ i.natAbs := by
          rcases hi i rfl with h | h <;> omega
        have h2 : ((2 ^ 1024 : Nat) : ℚ) ≤ i.natAbs := by exact_mod_cast h1
        have h3 : largest binary64 + 2 * halfGap binary64 = ((2 ^ 1024 : Nat) : ℚ) := by
          rw [largest, halfGap, show bias binary64 = 1023 from by decide]
          rw [show (1023 : Int) - (binary64.mbits : Int) - 1 = 1023 + -53 from by decide, two_zpow_add]
          rw [show (2 : ℚ) ^ (1023 : Int) = 2 ^ (1023 : Nat) from zpow_natCast 2 1023]
          rw [Nat.cast_pow, Nat.cast_ofNat]
          rw [show (2 : ℚ) ^ 1024 = 2 ^ 1023 * 2 from by rw [← pow_succ]]
          generalize (2 : ℚ) ^ 1023 = t
          norm_num [binary64]
          ring
        have h4 : 0 < halfGap binary64 := two_zpow_pos _
        simp only [Nat.cast_one, div_one]
        linarith
      simp only [leafDump, this]
    | _ => rfl
  simp only [fieldDoDump, key, W.fail, W.toExcept]

example : ∀ i, Value.int (2 ^ 1024) = .int i → (2 : Int) ^ 1024 ≤ i ∨ i ≤ -2 ^ 1024 := by
  intro i h
  cases h
  exact Or.inl (le_refl _)

end Verif
