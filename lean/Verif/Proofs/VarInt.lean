import Verif.Model.VarInt
import Verif.Spec.VarInt

namespace Verif

/-! ## bit operations -/

theorem and_7f (v : Nat) : v &&& 0x7F = v % 128 := by
  have := Nat.and_two_pow_sub_one_eq_mod v 7
  simpa using this

theorem and_3f (v : Nat) : v &&& 0x3F = v % 64 := by
  have := Nat.and_two_pow_sub_one_eq_mod v 6
  simpa using this

theorem shr7 (v : Nat) : v >>> 7 = v / 128 := by
  simp [Nat.shiftRight_eq_div_pow]

theorem or_80 (x : Nat) (h : x < 128) : 0x80 ||| x = 128 + x := by
  have := Nat.two_pow_add_eq_or_of_lt (i := 7) (b := x) (by simpa using h) 1
  simpa using this.symm

theorem shl7_or (a b : Nat) (h : b < 128) : (a <<< 7) ||| b = a * 128 + b := by
  rw [← Nat.shiftLeft_add_eq_or_of_lt (by simpa using h), Nat.shiftLeft_eq]

theorem or_shl (a b n : Nat) (h : a < 2 ^ n) : a ||| (b <<< n) = a + b * 2 ^ n := by
  rw [Nat.or_comm, ← Nat.shiftLeft_add_eq_or_of_lt h, Nat.shiftLeft_eq]; omega

theorem and_80_fin : ∀ x : Fin 256, (x.val &&& 0x80 = 0) ↔ x.val < 128 := by decide +kernel

theorem and_80 (x : Nat) (h : x < 256) : (x &&& 0x80 = 0) ↔ x < 128 := and_80_fin ⟨x, h⟩

theorem and_40_fin : ∀ x : Fin 256, (x.val &&& 64 = 0) ↔ x.val % 128 < 64 := by decide +kernel

theorem and_40 (x : Nat) (h : x < 256) : (x &&& 64 = 0) ↔ x % 128 < 64 := and_40_fin ⟨x, h⟩

theorem UInt8.toNat_lt' (b : UInt8) : b.toNat < 256 := b.toNat_lt

/-! ## streams -/

theorem Stream.rest_advance (s : Stream) (n : Nat) :
    ({ s with pos := s.pos + n } : Stream).rest = s.rest.drop n := by
  simp [Stream.rest, List.drop_drop]

theorem readUInt8_cons (s : Stream) (b : UInt8) (r : Bytes) (h : s.rest = b :: r) :
    readUInt8 s = (.ok b.toNat, { s with pos := s.pos + 1 }) := by
  have h' : s.data.drop s.pos = b :: r := h
  simp [readUInt8, readInt, Stream.read, h', intOfBytes, natOfLE, Endian.arrange]

theorem readUInt8_nil (s : Stream) (h : s.rest = []) :
    readUInt8 s = (.error (.eof none 1 s.pos), s) := by
  have h' : s.data.drop s.pos = [] := h
  simp [readUInt8, readInt, Stream.read, h', Stream.tell]

theorem rest_succ (s : Stream) (b : UInt8) (r : Bytes) (h : s.rest = b :: r) :
    ({ s with pos := s.pos + 1 } : Stream).rest = r := by
  rw [Stream.rest_advance, h]; rfl

/-! ## delimited strings -/

open Spec

theorem Spec.Delimited.ne_nil {bs : Bytes} (h : Delimited bs) : bs ≠ [] := by
  obtain ⟨i, l, rfl, -, -⟩ := h; simp

theorem delimited_cons {b : UInt8} {bs : Bytes} :
    Delimited (b :: bs) ↔ (bs = [] ∧ b.toNat < 128) ∨ (128 ≤ b.toNat ∧ Delimited bs) := by
  constructor
  · rintro ⟨i, l, h, hi, hl⟩
    cases i with
    | nil => simp at h; left; exact ⟨h.2, h.1 ▸ hl⟩
    | cons c cs =>
      simp at h
      right
      refine ⟨h.1 ▸ hi c (by simp), cs, l, h.2, fun x hx => hi x (by simp [hx]), hl⟩
  · rintro (⟨rfl, h⟩ | ⟨h, i, l, rfl, hi, hl⟩)
    · exact ⟨[], b, by simp, by simp, h⟩
    · exact ⟨b :: i, l, by simp, by simpa using ⟨h, hi⟩, hl⟩

/-- Every byte string either starts with exactly one delimited group or has no byte with a clear high bit. -/
theorem delimited_or_all_high (bs : Bytes) :
    (∃ code post, bs = code ++ post ∧ Delimited code) ∨ (∀ b ∈ bs, 128 ≤ b.toNat) := by
  induction bs with
  | nil => right; simp
  | cons b bs ih =>
    by_cases hb : b.toNat < 128
    · left; exact ⟨[b], bs, by simp, delimited_cons.2 (Or.inl ⟨rfl, hb⟩)⟩
    · rcases ih with ⟨c, p, rfl, h⟩ | h
      · left; exact ⟨b :: c, p, by simp, delimited_cons.2 (Or.inr ⟨by omega, h⟩)⟩
      · right; intro x hx
        rcases List.mem_cons.1 hx with rfl | hx
        · omega
        · exact h x hx

/-! ## decoder loops -/

theorem decodeVlqLoop_delimited (code : Bytes) : ∀ (fuel acc : Nat) (s : Stream) (post : Bytes),
    Delimited code → s.rest = code ++ post → code.length ≤ fuel →
    decodeVlqLoop fuel acc s =
      (.ok ((code.foldl (fun acc b => acc * 128 + low7 b) acc : Nat) : Int),
       { s with pos := s.pos + code.length }) := by
  induction code with
  | nil => intro _ _ _ _ h; exact absurd rfl (Spec.Delimited.ne_nil h)
  | cons b bs ih =>
    intro fuel acc s post hd hr hf
    match fuel, hf with
    | fuel + 1, hf =>
      have hb := UInt8.toNat_lt' b
      simp only [decodeVlqLoop, readUInt8_cons s b (bs ++ post) (by simpa using hr)]
      rw [and_7f, shl7_or _ _ (Nat.mod_lt _ (by decide))]; simp only [and_80 _ hb]
      rcases delimited_cons.1 hd with ⟨rfl, hlt⟩ | ⟨hge, hd'⟩
      · simp [hlt, low7]
      · rw [if_neg (by omega)]
        have hrest := rest_succ s b (bs ++ post) (by simpa using hr)
        rw [ih fuel _ _ post hd' hrest (by simp at hf; omega)]
        simp [low7]; omega

theorem decodeVlqLoop_high (bs : Bytes) : ∀ (fuel acc : Nat) (s : Stream),
    (∀ b ∈ bs, 128 ≤ b.toNat) → s.rest = bs → bs.length < fuel →
    decodeVlqLoop fuel acc s =
      (.error (.eof none 1 (s.pos + bs.length)), { s with pos := s.pos + bs.length }) := by
  induction bs with
  | nil =>
    intro fuel acc s _ hr hf
    match fuel, hf with
    | fuel + 1, _ => simp [decodeVlqLoop, readUInt8_nil s hr]
  | cons b bs ih =>
    intro fuel acc s hh hr hf
    match fuel, hf with
    | fuel + 1, hf =>
      have hb := UInt8.toNat_lt' b
      simp only [decodeVlqLoop, readUInt8_cons s b bs hr]
      simp only [and_80 _ hb]; rw [if_neg (by have := hh b (by simp); omega)]
      rw [ih fuel _ _ (fun x hx => hh x (by simp [hx])) (rest_succ s b bs hr) (by simp at hf; omega)]
      simp; omega

theorem decodeUlebLoop_delimited (code : Bytes) : ∀ (fuel acc bits : Nat) (s : Stream) (post : Bytes),
    Delimited code → s.rest = code ++ post → code.length ≤ fuel → acc < 2 ^ bits →
    decodeUleb128Loop fuel acc bits s =
      (.ok (acc + 2 ^ bits * leValue code), { s with pos := s.pos + code.length }) := by
  induction code with
  | nil => intro _ _ _ _ _ h; exact absurd rfl (Spec.Delimited.ne_nil h)
  | cons b bs ih =>
    intro fuel acc bits s post hd hr hf hacc
    match fuel, hf with
    | fuel + 1, hf =>
      have hb := UInt8.toNat_lt' b
      simp only [decodeUleb128Loop, readUInt8_cons s b (bs ++ post) (by simpa using hr)]
      rw [and_7f, or_shl _ _ _ hacc]; simp only [and_80 _ hb]
      rcases delimited_cons.1 hd with ⟨rfl, hlt⟩ | ⟨hge, hd'⟩
      · simp [hlt, low7, leValue, Nat.mul_comm]
      · rw [if_neg (by omega)]
        have hrest := rest_succ s b (bs ++ post) (by simpa using hr)
        have hlt : acc + b.toNat % 128 * 2 ^ bits < 2 ^ (bits + 7) := by
          have h1 : b.toNat % 128 ≤ 127 := by omega
          have h2 := Nat.mul_le_mul_right (2 ^ bits) h1
          rw [Nat.pow_add]; omega
        rw [ih fuel _ _ _ post hd' hrest (by simp at hf; omega) hlt]
        simp only [leValue, low7, List.length_cons, Prod.mk.injEq, Except.ok.injEq, Stream.mk.injEq, true_and]
        refine ⟨?_, by omega⟩
        rw [Nat.pow_add, Nat.mul_add, Nat.mul_comm (2 ^ bits) (b.toNat % 128), Nat.mul_assoc, Nat.add_assoc]

theorem decodeUlebLoop_high (bs : Bytes) : ∀ (fuel acc bits : Nat) (s : Stream),
    (∀ b ∈ bs, 128 ≤ b.toNat) → s.rest = bs → bs.length < fuel →
    decodeUleb128Loop fuel acc bits s =
      (.error (.eof none 1 (s.pos + bs.length)), { s with pos := s.pos + bs.length }) := by
  induction bs with
  | nil =>
    intro fuel acc bits s _ hr hf
    match fuel, hf with
    | fuel + 1, _ => simp [decodeUleb128Loop, readUInt8_nil s hr]
  | cons b bs ih =>
    intro fuel acc bits s hh hr hf
    match fuel, hf with
    | fuel + 1, hf =>
      have hb := UInt8.toNat_lt' b
      simp only [decodeUleb128Loop, readUInt8_cons s b bs hr]
      simp only [and_80 _ hb]; rw [if_neg (by have := hh b (by simp); omega)]
      rw [ih fuel _ _ _ (fun x hx => hh x (by simp [hx])) (rest_succ s b bs hr) (by simp at hf; omega)]
      simp; omega

theorem decodeCompactLoop_some_delimited (code : Bytes) : ∀ (fuel acc : Nat) (sgn : Int) (s : Stream) (post : Bytes),
    Delimited code → s.rest = code ++ post → code.length ≤ fuel →
    decodeCompactLoop fuel (some sgn) acc s =
      (.ok (((code.foldl (fun acc b => acc * 128 + low7 b) acc : Nat) : Int) * sgn),
       { s with pos := s.pos + code.length }) := by
  induction code with
  | nil => intro _ _ _ _ _ h; exact absurd rfl (Spec.Delimited.ne_nil h)
  | cons b bs ih =>
    intro fuel acc sgn s post hd hr hf
    match fuel, hf with
    | fuel + 1, hf =>
      have hb := UInt8.toNat_lt' b
      simp only [decodeCompactLoop, readUInt8_cons s b (bs ++ post) (by simpa using hr)]
      rw [and_7f, shl7_or _ _ (Nat.mod_lt _ (by decide))]; simp only [and_80 _ hb]
      rcases delimited_cons.1 hd with ⟨rfl, hlt⟩ | ⟨hge, hd'⟩
      · simp [hlt, low7]
      · rw [if_neg (by omega)]
        have hrest := rest_succ s b (bs ++ post) (by simpa using hr)
        rw [ih fuel _ _ _ post hd' hrest (by simp at hf; omega)]
        simp [low7]; omega

theorem decodeCompactLoop_high (bs : Bytes) : ∀ (fuel acc : Nat) (sgn : Option Int) (s : Stream),
    (∀ b ∈ bs, 128 ≤ b.toNat) → s.rest = bs → bs.length < fuel →
    decodeCompactLoop fuel sgn acc s =
      (.error (.eof none 1 (s.pos + bs.length)), { s with pos := s.pos + bs.length }) := by
  induction bs with
  | nil =>
    intro fuel acc sgn s _ hr hf
    match fuel, hf with
    | fuel + 1, _ => simp [decodeCompactLoop, readUInt8_nil s hr]
  | cons b bs ih =>
    intro fuel acc sgn s hh hr hf
    match fuel, hf with
    | fuel + 1, hf =>
      have hb := UInt8.toNat_lt' b
      simp only [decodeCompactLoop, readUInt8_cons s b bs hr]
      have h80 : ¬ (b.toNat &&& 0x80 = 0) := by
        rw [and_80 _ hb]; have := hh b (by simp); omega
      rw [if_neg h80]
      rw [ih fuel _ _ _ (fun x hx => hh x (by simp [hx])) (rest_succ s b bs hr) (by simp at hf; omega)]
      simp; omega

theorem decodeCompactLoop_none_delimited (code : Bytes) (fuel acc : Nat) (s : Stream) (post : Bytes)
    (hd : Delimited code) (hr : s.rest = code ++ post) (hf : code.length ≤ fuel) :
    decodeCompactLoop fuel none acc s =
      (.ok (compactValue code), { s with pos := s.pos + code.length }) := by
  match code, hd with
  | [], hd => exact absurd rfl (Spec.Delimited.ne_nil hd)
  | b :: bs, hd =>
    match fuel, hf with
    | fuel + 1, hf =>
      have hb := UInt8.toNat_lt' b
      simp only [decodeCompactLoop, readUInt8_cons s b (bs ++ post) (by simpa using hr)]
      rw [and_3f]
      simp only [ne_eq, and_40 _ hb, and_80 _ hb]
      rcases delimited_cons.1 hd with ⟨rfl, hlt⟩ | ⟨hge, hd'⟩
      · simp only [hlt, if_true, compactValue, List.foldl_nil, List.length_cons, List.length_nil]
        by_cases h : b.toNat % 128 < 64 <;> simp [h]
      · rw [if_neg (by omega)]
        have hrest := rest_succ s b (bs ++ post) (by simpa using hr)
        rw [decodeCompactLoop_some_delimited bs fuel _ _ _ post hd' hrest (by simp at hf; omega)]
        simp only [compactValue, List.length_cons]
        by_cases h : b.toNat % 128 < 64 <;> simp [h] <;> omega

/-! ## what the encoders produce -/

theorem ofNat_toNat_of_lt (n : Nat) (h : n < 256) : (UInt8.ofNat n).toNat = n := by
  simp; omega

theorem clearLast_append_singleton (init : Bytes) (l : UInt8) :
    clearLast (init ++ [l]) = init ++ [UInt8.ofNat (l.toNat % 128)] := by
  induction init with
  | nil => simp [clearLast, and_7f]
  | cons a as ih =>
    cases as with
    | nil => simp [clearLast, and_7f]
    | cons c cs => simpa [clearLast] using ih

theorem low7_hi (v : Nat) : low7 (UInt8.ofNat (0x80 ||| (v &&& 0x7F))) = v % 128 := by
  have : v % 128 < 128 := Nat.mod_lt _ (by decide)
  rw [low7, and_7f, or_80 _ this, ofNat_toNat_of_lt _ (by omega)]; omega

theorem toNat_hi (v : Nat) : (UInt8.ofNat (0x80 ||| (v &&& 0x7F))).toNat = 128 + v % 128 := by
  have : v % 128 < 128 := Nat.mod_lt _ (by decide)
  rw [and_7f, or_80 _ this, ofNat_toNat_of_lt _ (by omega)]

theorem low7_mod (x : UInt8) : low7 (UInt8.ofNat (x.toNat % 128)) = low7 x := by
  simp only [low7]; rw [ofNat_toNat_of_lt _ (by omega)]; omega

/-- What `fillBack` computes. -/
theorem fillBack_spec (n : Nat) : ∀ (v : Nat) (buf : Bytes),
    ∃ digits : Bytes, fillBack n v buf = (digits ++ buf, v / 128 ^ n) ∧ digits.length = n ∧
      (∀ b ∈ digits, 128 ≤ b.toNat) ∧
      ∀ acc, digits.foldl (fun acc b => acc * 128 + low7 b) acc = acc * 128 ^ n + v % 128 ^ n := by
  induction n with
  | zero => intro v buf; exact ⟨[], by simp [fillBack], rfl, by simp, by simp [Nat.mod_one]⟩
  | succ n ih =>
    intro v buf
    obtain ⟨d, h1, h2, h3, h4⟩ := ih (v >>> 7) (UInt8.ofNat (0x80 ||| (v &&& 0x7F)) :: buf)
    refine ⟨d ++ [UInt8.ofNat (0x80 ||| (v &&& 0x7F))], ?_, by simp [h2], ?_, ?_⟩
    · rw [fillBack, h1, shr7, Nat.div_div_eq_div_mul, Nat.pow_succ, Nat.mul_comm]; simp
    · intro b hb
      rcases List.mem_append.1 hb with hb | hb
      · exact h3 b hb
      · have : b = UInt8.ofNat (0x80 ||| (v &&& 0x7F)) := by simpa using hb
        rw [this, toNat_hi]; omega
    · intro acc
      rw [List.foldl_append, h4]
      simp only [List.foldl_cons, List.foldl_nil, low7_hi, shr7]
      rw [Nat.pow_succ, Nat.mul_comm (128 ^ n) 128, Nat.mod_mul]
      rw [Nat.add_mul, Nat.mul_comm 128 (128 ^ n), ← Nat.mul_assoc]; omega

theorem fillFront_spec (n : Nat) : ∀ v : Nat,
    (fillFront n v).length = n ∧ (∀ b ∈ fillFront n v, 128 ≤ b.toNat) ∧
      leValue (fillFront n v) = v % 128 ^ n := by
  induction n with
  | zero => intro v; simp [fillFront, leValue, Nat.mod_one]
  | succ n ih =>
    intro v
    obtain ⟨h1, h2, h3⟩ := ih (v >>> 7)
    refine ⟨by simp [fillFront, h1], ?_, ?_⟩
    · intro b hb
      rcases List.mem_cons.1 hb with rfl | hb
      · rw [toNat_hi]; omega
      · exact h2 b hb
    · simp only [fillFront, leValue, low7_hi, h3]
      rw [shr7]
      rw [Nat.pow_succ, Nat.mul_comm (128 ^ n) 128, Nat.mod_mul]

/-- Clearing the high bit of the last byte of an all-high non-empty string makes it delimited, with the same payload. -/
theorem clearLast_spec (bs : Bytes) (hne : bs ≠ []) (hh : ∀ b ∈ bs, 128 ≤ b.toNat) :
    Delimited (clearLast bs) ∧ (clearLast bs).length = bs.length ∧
      leValue (clearLast bs) = leValue bs ∧
      ∀ acc, (clearLast bs).foldl (fun acc b => acc * 128 + low7 b) acc =
        bs.foldl (fun acc b => acc * 128 + low7 b) acc := by
  obtain ⟨init, l, rfl⟩ : ∃ i l, bs = i ++ [l] := ⟨bs.dropLast, bs.getLast hne, (List.dropLast_concat_getLast hne).symm⟩
  rw [clearLast_append_singleton]
  refine ⟨⟨init, _, rfl, fun b hb => hh b (by simp [hb]), ?_⟩, by simp, ?_, ?_⟩
  · rw [ofNat_toNat_of_lt _ (by omega)]; omega
  · clear hh hne
    induction init with
    | nil => simp [leValue, low7_mod]
    | cons a as ih => simp [leValue, ih]
  · intro acc; simp [low7_mod]

theorem bitLength_pos {v : Nat} (h : v ≠ 0) : 0 < bitLength v := by simp [bitLength, h]

theorem lt_two_pow_bitLength (v : Nat) : v < 2 ^ bitLength v := by
  unfold bitLength; split
  · simp_all
  · exact Nat.lt_log2_self

theorem two_pow_bitLength_le {v : Nat} (h : v ≠ 0) : 2 ^ (bitLength v - 1) ≤ v := by
  simp only [bitLength, h, if_false, Nat.add_sub_cancel]; exact Nat.log2_self_le h

/-- `bit_length` is the least number of bits. -/
theorem bitLength_le_iff (v n : Nat) : bitLength v ≤ n ↔ v < 2 ^ n := by
  constructor
  · intro h; exact Nat.lt_of_lt_of_le (lt_two_pow_bitLength v) (Nat.pow_le_pow_right (by decide) h)
  · intro h
    by_cases hv : v = 0
    · simp [bitLength, hv]
    · have h1 := two_pow_bitLength_le hv
      have h2 : bitLength v - 1 < n := (Nat.pow_lt_pow_iff_right (a := 2) (by decide)).1 (by omega)
      have := bitLength_pos hv
      omega

theorem pow128 (n : Nat) : 128 ^ n = 2 ^ (7 * n) := by rw [Nat.pow_mul]

end Verif
