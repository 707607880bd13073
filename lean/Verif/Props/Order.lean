import Verif.Proofs.Order
import Verif.Props.Float

/-!
# C89: numbers keep their order; and ties when floats are rounded (C52)
-/

namespace Verif
open Spec

/-- Loading a timestamp whose field is plain. -/
theorem timestamp_load_inv {Γ : Classes} {m : Nat} {b : FieldBase} {res : Resolution} {aware signed : Bool} {e : Endian}
    {ctx : Value} {loaded : Dict} {data : Bytes} (hsize : b.size = .fixed data.length) (hplain : ∀ v, Plain b v) {v : Value}
    {t : Stream} (h : fieldFromStream Γ (m + 2) (.leaf b (.timestamp res aware signed e)) ⟨data, 0⟩ ctx loaded = (.ok v, t)) :
    ∃ us, (tsQuotient res (intOfBytes data e signed)).bind fromTimestamp = .ok us ∧ v = .datetime us aware := by
  cases hq : tsLoad res aware (intOfBytes data e signed) with
  | ok us =>
    have := timestamp_load Γ m b res aware signed e ctx loaded data hsize (hplain _) hq [] []
    simp only [List.nil_append, List.append_nil, List.length_nil] at this
    rw [this] at h
    cases h
    exact ⟨us, (tsLoad_split hq).1, rfl⟩
  | error err =>
    exfalso
    have hexp : leafExpectedSize b (.timestamp res aware signed e) loaded = .ok data.length :=
      leafExpectedSize_declared (Or.inl hsize)
    rw [fieldFromStream, Field.base, fromStreamWith_plain ((hplain v).1 _ _ _) (Or.inl (allowNull_false (hplain v).2.1))] at h
    unfold loadAndFinish at h
    have hr := readInt_ok [] data [] signed e
    simp only [List.nil_append, List.append_nil, List.length_nil] at hr
    simp only [fieldDoLoad, leafLoad, hexp, hr, R.andThen] at h
    simp only [Except.bind, hq] at h
    cases h

/-- **C89** Zone-aware timestamps are loaded in the order of the integers they are stored as, at every resolution: a greater
integer is never loaded as an earlier moment. -/
theorem C89_timestamp_load (Γ : Classes) (m : Nat) (b : FieldBase) (res : Resolution) (signed : Bool) (e : Endian)
    (ctx : Value) (loaded : Dict) (d d' : Bytes) (hd : b.size = .fixed d.length) (hd' : b.size = .fixed d'.length)
    (hplain : ∀ v, Plain b v) (hle : intOfBytes d e signed ≤ intOfBytes d' e signed) (v v' : Value) (t t' : Stream)
    (h : fieldFromStream Γ (m + 2) (.leaf b (.timestamp res true signed e)) ⟨d, 0⟩ ctx loaded = (.ok v, t))
    (h' : fieldFromStream Γ (m + 2) (.leaf b (.timestamp res true signed e)) ⟨d', 0⟩ ctx loaded = (.ok v', t')) :
    ∃ us us', v = .datetime us true ∧ v' = .datetime us' true ∧ us ≤ us' := by
  obtain ⟨us, h1, rfl⟩ := timestamp_load_inv hd hplain h
  obtain ⟨us', h2, rfl⟩ := timestamp_load_inv hd' hplain h'
  refine ⟨us, us', rfl, rfl, ?_⟩
  cases hq : tsQuotient res (intOfBytes d e signed) with
  | error err => rw [hq] at h1; cases h1
  | ok x =>
    cases hq' : tsQuotient res (intOfBytes d' e signed) with
    | error err => rw [hq'] at h2; cases h2
    | ok y =>
      rw [hq] at h1
      rw [hq'] at h2
      simp only [Except.bind] at h1 h2
      obtain ⟨s, M, s', M', rfl, rfl, hM, hM', hv⟩ := tsQuotient_mono hle hq hq'
      exact fromTimestamp_mono hM hM' hv h1 h2

example : fieldFromStream Sample.noClasses 2 (.leaf { name := "t", size := .fixed 2 } (.timestamp .ms true true .big))
      ⟨[0xFF, 0xFE], 0⟩ .none [] = (.ok (.datetime (-2000) true), ⟨[0xFF, 0xFE], 2⟩) ∧
    fieldFromStream Sample.noClasses 2 (.leaf { name := "t", size := .fixed 2 } (.timestamp .ms true true .big))
      ⟨[0x01, 0x00], 0⟩ .none [] = (.ok (.datetime 256000 true), ⟨[0x01, 0x00], 2⟩) := by decide +kernel

/-- **C89** Zone-aware datetimes are stored in their order, at every resolution: a later moment is never stored as a smaller
integer. -/
theorem C89_timestamp_dump (Γ : Classes) (m : Nat) (b : FieldBase) (res : Resolution) (tz signed : Bool) (e : Endian)
    (ctx : Value) (all : Dict) (n : Nat) (hn : 0 < n) (hsize : b.size = .fixed n) (us us' : Int)
    (hval : ∀ us, ∀ c ∈ b.validators, c (.datetime us true) = .ok ()) (hle : us ≤ us')
    (h1 : datetimeMin ≤ us) (h2 : us' ≤ datetimeMax) (bs bs' : Bytes)
    (h : fieldToStream Γ (m + 1) (.leaf b (.timestamp res tz signed e)) (.datetime us true) ctx all = (bs, .ok ()))
    (h' : fieldToStream Γ (m + 1) (.leaf b (.timestamp res tz signed e)) (.datetime us' true) ctx all = (bs', .ok ())) :
    intOfBytes bs e signed ≤ intOfBytes bs' e signed := by
  have inv : ∀ us bs, datetimeMin ≤ us → us ≤ datetimeMax →
      fieldToStream Γ (m + 1) (.leaf b (.timestamp res tz signed e)) (.datetime us true) ctx all = (bs, .ok ()) →
      tsStored res us true = .ok (intOfBytes bs e signed) := by
    intro us bs h1 h2 h
    obtain ⟨i, hi⟩ := tsStored_ok res h1 h2 true
    obtain ⟨g1, g2⟩ := timestamp_dump Γ m b res tz signed e us true ctx all n hn hsize (hval us)
      ((tsDump_of _ h1).trans hi)
    have hr : InRange n signed i := by
      by_contra hr
      rw [g2 hr] at h
      simp at h
    obtain ⟨bs0, w1, w2⟩ := (C11_write_int_range i n hn e signed).1 hr
    rw [g1 bs0 w1] at h
    cases h
    have hrd := C10_write_read i n hn signed e bs [] [] w1
    rw [← w2, readInt_ok] at hrd
    rw [hi, Except.ok.inj (congrArg Prod.fst hrd)]
  exact tsStored_mono hle h1 h2 (inv us bs h1 (by omega) h) (inv us' bs' (by omega) h2 h')

example : fieldToStream Sample.noClasses 1 (.leaf { name := "t", size := .fixed 4 } (.timestamp .ms true true .big))
      (.datetime 1500 true) .none [] = ([0, 0, 0, 1], .ok ()) ∧
    fieldToStream Sample.noClasses 1 (.leaf { name := "t", size := .fixed 4 } (.timestamp .ms true true .big))
      (.datetime 256000 true) .none [] = ([0, 0, 1, 0], .ok ()) := by decide +kernel

/-! ### Floats -/

/-- The number a finite bit pattern of the format stands for. -/
def formatNumber (f : FloatFmt) (c : Nat) : ℚ := if Negative f c then -magnitude f c else magnitude f c

theorem formatNumber_same {f g : FloatFmt} {a b : Nat} (h : SameNumber f a g b) : formatNumber f a = formatNumber g b := by
  obtain ⟨_, _, h1, h2⟩ := h
  unfold formatNumber
  simp only [h1, h2]

theorem magnitude_nonneg (f : FloatFmt) (c : Nat) : 0 ≤ magnitude f c := by
  rw [← mval_magnitude]
  exact mval_nonneg f _

/-- Narrowing keeps the order. -/
theorem packBits_mono {f : FloatFmt} (hf : Standard f) {x y : Nat} (hx : Fits binary64 x) (hy : Fits binary64 y)
    (fx : IsFinite binary64 x) (fy : IsFinite binary64 y) (h : formatNumber binary64 x ≤ formatNumber binary64 y) {a b : Nat}
    (ha : packBits f x = some a) (hb : packBits f y = some b) : formatNumber f a ≤ formatNumber f b := by
  by_cases h64 : f = binary64
  · subst h64
    unfold packBits at ha hb
    rw [if_pos rfl] at ha hb
    cases ha
    cases hb
    exact h
  · have hmb := (standard_bounds hf).2.1
    have inv : ∀ {x a : Nat}, Fits binary64 x → IsFinite binary64 x → packBits f x = some a → ∃ num den : Nat, 0 < den ∧
        (num : ℚ) / den = magnitude binary64 x ∧ magnitude f a = mval f (f.roundMag num den) ∧
        (Negative f a ↔ Negative binary64 x) := by
      intro x a hx fx ha
      obtain ⟨num, den, hd, hv, hp⟩ := packBits_finite (f := f) h64 fx
      rw [hp] at ha
      split at ha
      · cases ha
      · rename_i hc
        cases ha
        obtain ⟨w1, w2, w3⟩ := withSign_fields (f := f) (decide (binary64.signBit ≤ x)) (mag := f.roundMag num den)
          (lt_trans (by omega) (infBits_lt f))
        refine ⟨num, den, hd, hv, by rw [← mval_magnitude, w1], ?_⟩
        rw [← negative_iff w2, w3, decide_eq_true_iff, negative_iff hx]
    obtain ⟨n1, d1, hd1, hv1, hm1, hs1⟩ := inv hx fx ha
    obtain ⟨n2, d2, hd2, hv2, hm2, hs2⟩ := inv hy fy hb
    have p1 := mval_nonneg f (f.roundMag n1 d1)
    have p2 := mval_nonneg f (f.roundMag n2 d2)
    have p3 := magnitude_nonneg binary64 x
    have p4 := magnitude_nonneg binary64 y
    unfold formatNumber at h ⊢
    simp only [hs1, hs2, hm1, hm2]
    split at h <;> rename_i c1 <;> split at h <;> rename_i c2
    · rw [if_pos c1, if_pos c2]
      refine neg_le_neg ((mval_strictMono f).monotone (roundMag_mono f hmb hd2 hd1 ?_))
      rw [hv1, hv2]
      linarith
    · rw [if_pos c1, if_neg c2]
      linarith
    · rw [if_neg c1, if_pos c2]
      have z1 : f.roundMag n1 d1 = 0 := roundMag_exact _ hd1 (by rw [hv1, mval_zero]; linarith)
      have z2 : f.roundMag n2 d2 = 0 := roundMag_exact _ hd2 (by rw [hv2, mval_zero]; linarith)
      rw [z1, z2, mval_zero]
      simp
    · rw [if_neg c1, if_neg c2]
      refine (mval_strictMono f).monotone (roundMag_mono f hmb hd1 hd2 ?_)
      rw [hv1, hv2]
      exact h

/-- What was dumped from a float. -/
theorem float_dump_inv {Γ : Classes} {m : Nat} {b : FieldBase} {f : FloatFmt} {e : Endian} {x : Nat} {ctx : Value} {all : Dict}
    (hf : Standard f) (hsize : b.size = .fixed f.bytes) (hval : ∀ c ∈ b.validators, c (.float x) = .ok ()) (hx : x < 2 ^ 64)
    (hfin : IsFinite binary64 x) {bs : Bytes}
    (h : fieldToStream Γ (m + 1) (.leaf b (.float f e)) (.float x) ctx all = (bs, .ok ())) :
    packBits f x = some (natOfLE (e.arrange bs)) := by
  have hd := float_dump Γ m b f e x ctx all hsize hval
  cases hp : packBits f x with
  | none =>
    have := hd.2 (by simp [floatPack, hp])
    rw [this] at h
    simp at h
  | some c =>
    have := hd.1 _ (show floatPack f e x = some (e.arrange (natToLE f.bytes c)) by simp [floatPack, hp])
    rw [this] at h
    simp at h
    subst h
    rw [Endian.arrange_arrange, natToLE_of_fits hf ((packBits_round hf hx hfin).2 c hp).1]

/-- **C89** Floats are dumped in their order, also if they are rounded to half or single precision: of two numbers the greater one
is never stored as the smaller number. -/
theorem C89_float_dump (Γ : Classes) (m : Nat) (b : FieldBase) (f : FloatFmt) (e : Endian) (ctx : Value) (all : Dict)
    (hf : Standard f) (hsize : b.size = .fixed f.bytes) (x y : Nat) (hx : x < 2 ^ 64) (hy : y < 2 ^ 64)
    (fx : IsFinite binary64 x) (fy : IsFinite binary64 y) (hval : ∀ x, ∀ c ∈ b.validators, c (.float x) = .ok ())
    (hle : floatNumber x ≤ floatNumber y) (bs bs' : Bytes)
    (h : fieldToStream Γ (m + 1) (.leaf b (.float f e)) (.float x) ctx all = (bs, .ok ()))
    (h' : fieldToStream Γ (m + 1) (.leaf b (.float f e)) (.float y) ctx all = (bs', .ok ())) :
    floatNumber (floatUnpack f e bs) ≤ floatNumber (floatUnpack f e bs') := by
  have p1 := float_dump_inv hf hsize (hval x) hx fx h
  have p2 := float_dump_inv hf hsize (hval y) hy fy h'
  have hm := packBits_mono hf hx hy fx fy hle p1 p2
  obtain ⟨c1, c2, _⟩ := (packBits_round hf hx fx).2 _ p1
  obtain ⟨d1, d2, _⟩ := (packBits_round hf hy fy).2 _ p2
  have e1 := formatNumber_same (unpackBits_finite hf c1 c2).2
  have e2 := formatNumber_same (unpackBits_finite hf d1 d2).2
  rw [e1, e2] at hm
  exact hm

-- 1 + 2⁻²⁴ and 1 + 2⁻²³ as single-precision floats
example : fieldToStream Sample.noClasses 1 (.leaf { name := "x", size := .fixed 4 } (.float binary32 .big))
      (.float 0x3FF0000010000000) .none [] = ([0x3F, 0x80, 0, 0], .ok ()) ∧
    fieldToStream Sample.noClasses 1 (.leaf { name := "x", size := .fixed 4 } (.float binary32 .big))
      (.float 0x3FF0000020000000) .none [] = ([0x3F, 0x80, 0, 1], .ok ()) := by decide +kernel

/-- **C52** If a float is half-way between two neighbours of the field's format, the one whose last bit is 0 is written.  Together
with `C52_dump_nearest`, this determines what is written. -/
theorem C52_dump_ties_to_even (Γ : Classes) (m : Nat) (b : FieldBase) (f : FloatFmt) (e : Endian) (ctx : Value) (all : Dict)
    (hf : Standard f) (hsize : b.size = .fixed f.bytes) (x : Nat) (hx : x < 2 ^ 64) (hfin : IsFinite binary64 x)
    (hval : ∀ c ∈ b.validators, c (.float x) = .ok ()) (bs : Bytes)
    (h : fieldToStream Γ (m + 1) (.leaf b (.float f e)) (.float x) ctx all = (bs, .ok ())) (c : Nat) (hc : IsFinite f c)
    (hne : magnitude f c ≠ magnitude f (natOfLE (e.arrange bs)))
    (htie : |magnitude binary64 x - magnitude f c| = |magnitude binary64 x - magnitude f (natOfLE (e.arrange bs))|) :
    significand f (natOfLE (e.arrange bs)) % 2 = 0 := by
  have hp := float_dump_inv hf hsize hval hx hfin h
  generalize natOfLE (e.arrange bs) = a at *
  have hmb := (standard_bounds hf).2.1
  by_cases h64 : f = binary64
  · subst h64
    unfold packBits at hp
    rw [if_pos rfl] at hp
    cases hp
    simp only [sub_self, abs_zero, abs_eq_zero] at htie
    exact absurd (by linarith) hne
  · obtain ⟨num, den, hd, hv, hpk⟩ := packBits_finite (f := f) h64 hfin
    rw [hpk] at hp
    split at hp
    · cases hp
    · rename_i hlt
      cases hp
      obtain ⟨w1, w2, w3⟩ := withSign_fields (f := f) (decide (binary64.signBit ≤ x)) (mag := f.roundMag num den)
        (lt_trans (by omega) (infBits_lt f))
      rw [← mval_magnitude (f := f), ← mval_magnitude (f := f), w1] at hne htie
      rw [← hv] at htie
      have := roundMag_even f hmb hd (fun hcc => hne (by rw [hcc])) htie
      rw [← significand_eq, w1]
      have hB : 2 ^ f.mbits % 2 = 0 := by
        obtain ⟨k, hk⟩ : ∃ k, f.mbits = k + 1 := ⟨f.mbits - 1, by omega⟩
        rw [hk, Nat.pow_succ]; omega
      rw [Nat.mod_mod_of_dvd _ (Nat.dvd_of_mod_eq_zero hB)]
      exact this

example : |magnitude binary64 0x3FF0000010000000 - magnitude binary32 0x3F800001| =
    |magnitude binary64 0x3FF0000010000000 - magnitude binary32 0x3F800000| := by
  norm_num [magnitude, exponent, significand, bias, binary64, binary32]

/-! ### Bytes -/

theorem natOfLE_snoc (l : Bytes) (x : UInt8) : natOfLE (l ++ [x]) = natOfLE l + 2 ^ (8 * l.length) * x.toNat := by
  induction l with
  | nil => simp [natOfLE]
  | cons y l ih =>
    simp only [List.cons_append, natOfLE, ih, List.length_cons]
    rw [show 8 * (l.length + 1) = 8 * l.length + 8 by omega, Nat.pow_add]
    ring

theorem natOfLE_lex : ∀ (a b : Bytes), a.length = b.length → (natOfLE a.reverse < natOfLE b.reverse ↔ a < b)
  | [], [], _ => by simp [natOfLE]
  | x :: a, y :: b, h => by
    have hl : a.length = b.length := by simpa using h
    have ih := natOfLE_lex a b hl
    have h1 := natOfLE_lt a.reverse
    have h2 := natOfLE_lt b.reverse
    rw [List.length_reverse] at h1 h2
    rw [List.reverse_cons, List.reverse_cons, natOfLE_snoc, natOfLE_snoc, List.length_reverse, List.length_reverse, List.cons_lt_cons_iff, ← ih]
    rw [hl] at h1 ⊢
    generalize 2 ^ (8 * b.length) = P at *
    generalize natOfLE a.reverse = A at *
    generalize natOfLE b.reverse = B at *
    rw [UInt8.lt_iff_toNat_lt, ← UInt8.toNat_inj]
    generalize x.toNat = X
    generalize y.toNat = Y
    constructor
    · intro hlt
      rcases Nat.lt_trichotomy X Y with hc | hc | hc
      · exact .inl hc
      · subst hc; exact .inr ⟨rfl, by omega⟩
      · exfalso
        have : P * (Y + 1) ≤ P * X := Nat.mul_le_mul_left P hc
        rw [Nat.mul_add] at this
        omega
    · rintro (hc | ⟨rfl, hc⟩)
      · have : P * (X + 1) ≤ P * Y := Nat.mul_le_mul_left P hc
        rw [Nat.mul_add] at this
        omega
      · omega

/-- **C89** Unsigned integers in big-endian byte order sort as bytes as they sort as numbers. -/
theorem C89_big_endian_sorts (Γ : Classes) (m : Nat) (b : FieldBase) (n : Nat) (hn : 0 < n) (hsize : b.size = .fixed n)
    (hval : ∀ i, ∀ c ∈ b.validators, c (.int i) = .ok ()) (ctx : Value) (all : Dict) (i j : Int) (bs bs' : Bytes)
    (h : fieldToStream Γ (m + 1) (.leaf b (.integer false .big)) (.int i) ctx all = (bs, .ok ()))
    (h' : fieldToStream Γ (m + 1) (.leaf b (.integer false .big)) (.int j) ctx all = (bs', .ok ())) :
    i < j ↔ bs < bs' := by
  have inv : ∀ i bs, fieldToStream Γ (m + 1) (.leaf b (.integer false .big)) (.int i) ctx all = (bs, .ok ()) →
      bs.length = n ∧ i = natOfLE bs.reverse := by
    intro i bs h
    by_cases hr : InRange n false i
    · obtain ⟨bs0, w1, w2⟩ := (C11_write_int_range i n hn .big false).1 hr
      have hd := fieldToStream_plain (Γ := Γ) (n := m) (f := .leaf b (.integer false .big)) (v := .int i) (ctx := ctx) (all := all)
        (by simp) (by simp) (by simp) (hval i) (Or.inr (Or.inl (w2 ▸ hsize))) (bs := bs0)
        (by simp [fieldDoDump, leafDump, hsize, w1, unserializableOnRange, W.ofExcept, W.ok])
      rw [hd] at h
      cases h
      have hrd := C10_write_read i n hn false .big bs [] [] w1
      rw [← w2, readInt_ok] at hrd
      have := Except.ok.inj (congrArg Prod.fst hrd)
      refine ⟨w2, ?_⟩
      rw [← this]
      simp [intOfBytes, Endian.arrange]
    · exfalso
      rw [fieldToStream_succ, toStreamWith_plain (b := (Field.leaf b (.integer false .big)).base) (by simp) (by simp)
        (by simp) (hval i)] at h
      simp [fieldDoDump, leafDump, hsize, (C11_write_int_range i n hn .big false).2 hr, unserializableOnRange, W.ofExcept,
        W.fail, W.toExcept] at h
  obtain ⟨l1, rfl⟩ := inv i bs h
  obtain ⟨l2, rfl⟩ := inv j bs' h'
  rw [← natOfLE_lex bs bs' (by omega)]
  omega

/-- **C89** Neither little-endian nor signed integers have this property. -/
theorem C89_other_integers_refuted :
    (∃ i j bs bs', i < j ∧ bs' < bs ∧
      fieldToStream Sample.noClasses 1 (.leaf { name := "x", size := .fixed 2 } (.integer false .little)) (.int i) .none [] = (bs, .ok ()) ∧
      fieldToStream Sample.noClasses 1 (.leaf { name := "x", size := .fixed 2 } (.integer false .little)) (.int j) .none [] = (bs', .ok ())) ∧
    ∃ i j bs bs', i < j ∧ bs' < bs ∧
      fieldToStream Sample.noClasses 1 (.leaf { name := "x", size := .fixed 2 } (.integer true .big)) (.int i) .none [] = (bs, .ok ()) ∧
      fieldToStream Sample.noClasses 1 (.leaf { name := "x", size := .fixed 2 } (.integer true .big)) (.int j) .none [] = (bs', .ok ()) :=
  ⟨⟨1, 256, [1, 0], [0, 1], by decide, by decide, by decide +kernel, by decide +kernel⟩,
    -1, 1, [255, 255], [0, 1], by decide, by decide, by decide +kernel, by decide +kernel⟩

end Verif
