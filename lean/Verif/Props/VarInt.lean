import Verif.Proofs.VarIntEncode

/-!
# Properties C01–C08: variable-length integers

Model: `Verif/Model/VarInt.lean` (`/repo/binobj/varints.py`).  Specification: `Verif/Spec/VarInt.lean`.
A stream `⟨pre ++ code ++ post, pre.length⟩` is a stream holding `code` at its current position, with arbitrary bytes
before and after it.
-/

namespace Verif
open Spec

/-- The value the documentation of each format gives to a delimited byte string. -/
def Spec.varIntValue : VarIntEncoding → Bytes → Int
  | .vlq, bs => beValue bs
  | .uleb128, bs => leValue bs
  | .leb128, bs => leb128Value bs
  | .compact, bs => compactValue bs

/-! ## C07: decoders on arbitrary streams -/

theorem loopFuel_ge {s : Stream} {code post : Bytes} (hr : s.rest = code ++ post) : code.length ≤ loopFuel s := by
  simp [loopFuel, hr]; omega

theorem leValue_lt (bs : Bytes) : leValue bs < 2 ^ (7 * bs.length) := by
  induction bs with
  | nil => simp [leValue]
  | cons b bs ih =>
    have : low7 b < 128 := Nat.mod_lt _ (by decide)
    rw [leValue, List.length_cons, Nat.mul_add, Nat.pow_add]; omega

/-- **C07** (first half).  If a delimited byte string is at the current position, every decoder returns its documented
value and consumes exactly it. -/
theorem C07_decode_delimited (e : VarIntEncoding) (s : Stream) (code post : Bytes)
    (hcode : Delimited code) (hrest : s.rest = code ++ post) :
    e.decode s = (.ok (varIntValue e code), { s with pos := s.pos + code.length }) := by
  have hf := loopFuel_ge hrest
  cases e with
  | vlq =>
    show decodeVlq s = _
    rw [decodeVlq, decodeVlqLoop_delimited code _ 0 s post hcode hrest hf]; rfl
  | uleb128 =>
    show decodeUleb128 s = _
    rw [decodeUleb128, decodeUleb128Nat, decodeUlebLoop_delimited code _ 0 0 s post hcode hrest hf (by decide)]
    simp [varIntValue]
  | compact =>
    show decodeCompact s = _
    rw [decodeCompact, decodeCompactLoop_none_delimited code _ 0 s post hcode hrest hf]; rfl
  | leb128 =>
    show decodeLeb128 s = _
    rw [decodeLeb128, decodeUleb128Nat, decodeUlebLoop_delimited code _ 0 0 s post hcode hrest hf (by decide)]
    have hlt := leValue_lt code
    simp only [Stream.tell, Nat.pow_zero, Nat.one_mul, Nat.zero_add, Nat.add_sub_cancel_left, varIntValue,
      leb128Value, twosComplement]
    have hlen : 0 < code.length := List.length_pos_iff.2 hcode.ne_nil
    by_cases h0 : leValue code = 0
    · rw [if_pos h0, if_pos (by rw [h0]; exact Nat.pow_pos (by decide))]; simp [h0]
    · rw [if_neg h0]
      have hiff : code.length * 7 > bitLength (leValue code) ↔ 2 * leValue code < 2 ^ (7 * code.length) := by
        have h1 := bitLength_le_iff (leValue code) (7 * code.length - 1)
        have h2 : 2 ^ (7 * code.length) = 2 * 2 ^ (7 * code.length - 1) := by
          rw [← Nat.pow_succ']; congr 1; omega
        rw [h2, Nat.mul_lt_mul_left (by decide), ← h1]; omega
      by_cases hh : 2 * leValue code < 2 ^ (7 * code.length)
      · rw [if_pos (hiff.2 hh), if_pos hh]
      · rw [if_neg (fun h => hh (hiff.1 h)), if_neg hh, Nat.mul_comm]
        simp; omega

/-- **C07** (second half).  If no byte left in the stream has a clear high bit, every decoder consumes everything and
raises `UnexpectedEOFError` (requesting one byte at the end of the data). -/
theorem C07_decode_truncated (e : VarIntEncoding) (s : Stream) (hhigh : ∀ b ∈ s.rest, 128 ≤ b.toNat) :
    e.decode s =
      (.error (.eof none 1 (s.pos + s.rest.length)), { s with pos := s.pos + s.rest.length }) := by
  have hf : s.rest.length < loopFuel s := by simp [loopFuel]
  cases e with
  | vlq =>
    show decodeVlq s = _
    rw [decodeVlq, decodeVlqLoop_high s.rest _ 0 s hhigh rfl hf]
  | uleb128 =>
    show decodeUleb128 s = _
    rw [decodeUleb128, decodeUleb128Nat, decodeUlebLoop_high s.rest _ 0 0 s hhigh rfl hf]
  | compact =>
    show decodeCompact s = _
    rw [decodeCompact, decodeCompactLoop_high s.rest _ 0 none s hhigh rfl hf]
  | leb128 =>
    show decodeLeb128 s = _
    rw [decodeLeb128, decodeUleb128Nat, decodeUlebLoop_high s.rest _ 0 0 s hhigh rfl hf]

/-- **C07**, exhaustiveness: one of the two situations above holds for every stream, so together they determine the
decoders completely (in particular the decoders' loops always terminate). -/
theorem C07_decode_exhaustive (s : Stream) :
    (∃ code post, s.rest = code ++ post ∧ Delimited code) ∨ (∀ b ∈ s.rest, 128 ≤ b.toNat) :=
  delimited_or_all_high s.rest

-- non-vacuity: a non-canonical encoding of 5, and a truncated one
example : Delimited [0x80, 0x80, 0x05] ∧ decodeVlq ⟨[0xAA, 0x80, 0x80, 0x05, 0x77], 1⟩ =
    (.ok 5, ⟨[0xAA, 0x80, 0x80, 0x05, 0x77], 4⟩) :=
  ⟨⟨[0x80, 0x80], 5, rfl, by decide, by decide⟩, by decide⟩
example : decodeLeb128 ⟨[0xC0, 0x7F], 0⟩ = (.ok (-64), ⟨[0xC0, 0x7F], 2⟩) := by decide
example : decodeCompact ⟨[0x80, 0x81], 0⟩ = (.error (.eof none 1 2), ⟨[0x80, 0x81], 2⟩) := by decide

/-! ## Encoders -/

/-- Each encoder succeeds exactly on its domain, with a delimited result that has the right documented value. -/
theorem encode_ok (e : VarIntEncoding) (v : Int) (h : e.signed = true ∨ 0 ≤ v) :
    ∃ code, e.encode v = .ok code ∧ Delimited code ∧ varIntValue e code = v := by
  cases e with
  | vlq =>
    have hv : 0 ≤ v := by simpa [VarIntEncoding.signed] using h
    obtain ⟨n, rfl⟩ := Int.eq_ofNat_of_zero_le hv
    obtain ⟨c, h1, h2, h3, -⟩ := encodeVlq_spec n
    exact ⟨c, h1, h2, by simp [varIntValue, h3]⟩
  | uleb128 =>
    have hv : 0 ≤ v := by simpa [VarIntEncoding.signed] using h
    obtain ⟨n, rfl⟩ := Int.eq_ofNat_of_zero_le hv
    obtain ⟨c, h1, h2, h3, -⟩ := encodeUleb128_spec n
    exact ⟨c, h1, h2, by simp [varIntValue, h3]⟩
  | leb128 =>
    by_cases hv : v = 0
    · subst hv; exact ⟨[0], by simp [VarIntEncoding.encode, encodeLeb128], delimited_zero, by decide⟩
    · obtain ⟨c, h1, h2, h3, -⟩ := encodeLeb128_spec v hv
      exact ⟨c, h1, h2, h3⟩
  | compact =>
    obtain ⟨c, h1, h2, h3, -⟩ := encodeCompact_spec v
    exact ⟨c, h1, h2, h3⟩

/-- Round trip for any format on its domain. -/
theorem varint_round_trip (e : VarIntEncoding) (v : Int) (h : e.signed = true ∨ 0 ≤ v) (pre post : Bytes) :
    ∃ code, e.encode v = .ok code ∧
      e.decode ⟨pre ++ code ++ post, pre.length⟩ = (.ok v, ⟨pre ++ code ++ post, pre.length + code.length⟩) := by
  obtain ⟨c, h1, h2, h3⟩ := encode_ok e v h
  refine ⟨c, h1, ?_⟩
  rw [C07_decode_delimited e _ c post h2 (by simp [Stream.rest]), h3]

/-- **C01** VLQ round trip. -/
theorem C01_vlq_round_trip (v : Nat) (pre post : Bytes) :
    ∃ code, encodeVlq v = .ok code ∧
      decodeVlq ⟨pre ++ code ++ post, pre.length⟩ = (.ok (v : Int), ⟨pre ++ code ++ post, pre.length + code.length⟩) :=
  varint_round_trip .vlq v (Or.inr (by omega)) pre post

/-- **C02** ULEB128 round trip. -/
theorem C02_uleb128_round_trip (v : Nat) (pre post : Bytes) :
    ∃ code, encodeUleb128 v = .ok code ∧
      decodeUleb128 ⟨pre ++ code ++ post, pre.length⟩ =
        (.ok (v : Int), ⟨pre ++ code ++ post, pre.length + code.length⟩) :=
  varint_round_trip .uleb128 v (Or.inr (by omega)) pre post

/-- **C03** signed LEB128 round trip. -/
theorem C03_leb128_round_trip (v : Int) (pre post : Bytes) :
    ∃ code, encodeLeb128 v = .ok code ∧
      decodeLeb128 ⟨pre ++ code ++ post, pre.length⟩ = (.ok v, ⟨pre ++ code ++ post, pre.length + code.length⟩) :=
  varint_round_trip .leb128 v (Or.inl rfl) pre post

/-- **C04** compact-index round trip. -/
theorem C04_compact_round_trip (v : Int) (pre post : Bytes) :
    ∃ code, encodeCompact v = .ok code ∧
      decodeCompact ⟨pre ++ code ++ post, pre.length⟩ = (.ok v, ⟨pre ++ code ++ post, pre.length + code.length⟩) :=
  varint_round_trip .compact v (Or.inl rfl) pre post

example : encodeVlq 300 = .ok [0x82, 0x2C] ∧ encodeCompact (-300) = .ok [0xC2, 0x2C] := by decide
example : encodeLeb128 (-300) = .ok [0xD4, 0x7D] := by decide

/-! ## C08 -/

/-- **C08** The unsigned formats reject every negative integer with `ValueError`; the signed ones never fail. -/
theorem C08_unsigned_rejects_negative (e : VarIntEncoding) (v : Int) :
    (v < 0 ∧ e.signed = false → e.encode v = .error .valueErr) ∧
    (e.signed = true ∨ 0 ≤ v → ∃ code, e.encode v = .ok code) := by
  refine ⟨?_, fun h => let ⟨c, h1, _⟩ := encode_ok e v h; ⟨c, h1⟩⟩
  rintro ⟨hv, hs⟩
  cases e <;> simp [VarIntEncoding.signed] at hs <;> simp [VarIntEncoding.encode, encodeVlq, encodeUleb128, hv]

/-! ## C05 -/

/-- **C05** (first half). Every encoding is delimited: non-empty, high bit set on all bytes but the last. -/
theorem C05_encoding_delimited (e : VarIntEncoding) (v : Int) (code : Bytes) (h : e.encode v = .ok code) :
    Delimited code := by
  by_cases hd : e.signed = true ∨ 0 ≤ v
  · obtain ⟨c, h1, h2, -⟩ := encode_ok e v hd
    rw [h1] at h; cases h; exact h2
  · have := (C08_unsigned_rejects_negative e v).1 ⟨by omega, by simpa using (not_or.1 hd).1⟩
    rw [this] at h; cases h

theorem delimited_append_unique {c₁ p₁ c₂ p₂ : Bytes} (h₁ : Delimited c₁) (h₂ : Delimited c₂)
    (h : c₁ ++ p₁ = c₂ ++ p₂) : c₁ = c₂ ∧ p₁ = p₂ := by
  induction c₁ generalizing c₂ with
  | nil => exact absurd rfl h₁.ne_nil
  | cons a as ih =>
    cases c₂ with
    | nil => exact absurd rfl h₂.ne_nil
    | cons b bs =>
      simp only [List.cons_append, List.cons.injEq] at h
      obtain ⟨rfl, h⟩ := h
      rcases delimited_cons.1 h₁ with ⟨rfl, hlt⟩ | ⟨hge, h₁'⟩ <;>
        rcases delimited_cons.1 h₂ with ⟨rfl, hlt'⟩ | ⟨hge', h₂'⟩
      · simpa using h
      · omega
      · omega
      · obtain ⟨r1, r2⟩ := ih h₁' h₂' h; simp [r1, r2]

/-- **C05** (second half). No encoding is a proper prefix of another encoding, even across formats. -/
theorem C05_prefix_free (e₁ e₂ : VarIntEncoding) (v₁ v₂ : Int) (c₁ c₂ : Bytes)
    (h₁ : e₁.encode v₁ = .ok c₁) (h₂ : e₂.encode v₂ = .ok c₂) (hp : c₁ <+: c₂) : c₁ = c₂ := by
  obtain ⟨t, ht⟩ := hp
  exact (delimited_append_unique (C05_encoding_delimited e₁ v₁ c₁ h₁) (C05_encoding_delimited e₂ v₂ c₂ h₂)
    (p₂ := []) (by simpa using ht)).1

/-! ## C06 -/

theorem foldl128_lt (bs : Bytes) : ∀ acc,
    bs.foldl (fun acc b => acc * 128 + low7 b) acc < (acc + 1) * 2 ^ (7 * bs.length) := by
  induction bs with
  | nil => intro acc; simp
  | cons b bs ih =>
    intro acc
    have hb : low7 b < 128 := Nat.mod_lt _ (by decide)
    refine Nat.lt_of_lt_of_le (ih _) ?_
    rw [List.length_cons, Nat.mul_add, Nat.pow_add, ← Nat.mul_assoc, Nat.mul_right_comm]
    exact Nat.mul_le_mul_right _ (by show acc * 128 + low7 b + 1 ≤ _; omega)

/-- If a decoder consumes exactly `bs` and returns `v`, then `bs` is delimited and `v` is its value. -/
theorem decode_consumes (e : VarIntEncoding) (v : Int) (bs post : Bytes)
    (h : e.decode ⟨bs ++ post, 0⟩ = (.ok v, ⟨bs ++ post, bs.length⟩)) :
    Delimited bs ∧ varIntValue e bs = v := by
  rcases C07_decode_exhaustive ⟨bs ++ post, 0⟩ with ⟨c, p, hr, hd⟩ | hh
  · rw [C07_decode_delimited e _ c p hd hr] at h
    simp only [Prod.mk.injEq, Except.ok.injEq, Stream.mk.injEq, true_and, Nat.zero_add] at h
    have hr' : bs ++ post = c ++ p := by simpa [Stream.rest] using hr
    have : bs = c := List.append_inj_left hr' h.2.symm
    subst this; exact ⟨hd, h.1⟩
  · rw [C07_decode_truncated e _ hh] at h; simp at h

/-- **C06**, partial: for VLQ, ULEB128 and compact indices the encoder's output is the shortest byte string the
matching decoder maps to the same value.  Missing: signed LEB128, for which the claim is false
(`C06_leb128_minimal_refuted`); `C06_leb128_minimal_partial` says exactly where. -/
theorem C06_minimal_partial (e : VarIntEncoding) (he : e ≠ .leb128) (v : Int) (bs post code : Bytes)
    (hdec : e.decode ⟨bs ++ post, 0⟩ = (.ok v, ⟨bs ++ post, bs.length⟩)) (henc : e.encode v = .ok code) :
    code.length ≤ bs.length := by
  obtain ⟨hd, hv⟩ := decode_consumes e v bs post hdec
  have hlen : 0 < bs.length := List.length_pos_iff.2 hd.ne_nil
  cases e with
  | leb128 => exact absurd rfl he
  | vlq =>
    subst hv
    obtain ⟨c, h1, -, -, h4⟩ := encodeVlq_spec (beValue bs)
    have : c = code := by
      have := h1.symm.trans henc; cases this; rfl
    subst this
    have := foldl128_lt bs 0
    have hb : bitLength (beValue bs) ≤ 7 * bs.length := (bitLength_le_iff _ _).2 (by simpa [beValue] using this)
    rw [h4]; omega
  | uleb128 =>
    subst hv
    obtain ⟨c, h1, -, -, h4⟩ := encodeUleb128_spec (leValue bs)
    have : c = code := by
      have := h1.symm.trans henc; cases this; rfl
    subst this
    exact h4 _ hlen (by rw [pow128]; exact leValue_lt bs)
  | compact =>
    obtain ⟨c, h1, -, -, h4⟩ := encodeCompact_spec v
    have : c = code := by
      have := h1.symm.trans henc; cases this; rfl
    subst this
    match bs, hd, hv, hlen with
    | b :: bs, _, hv, _ =>
      have hlt := foldl128_lt bs (b.toNat % 64)
      have habs : v.natAbs = bs.foldl (fun acc b => acc * 128 + low7 b) (b.toNat % 64) := by
        simp only [varIntValue, compactValue] at hv; split at hv <;> omega
      have hb : bitLength v.natAbs ≤ 6 + 7 * bs.length := by
        rw [bitLength_le_iff, habs, Nat.pow_add]
        refine Nat.lt_of_lt_of_le hlt (Nat.mul_le_mul_right _ (by omega))
      rw [h4, List.length_cons]; omega

/-- **C06** is false of signed LEB128: the decoder accepts the one-byte string `40` for -64, the encoder emits two
bytes. -/
theorem C06_leb128_minimal_refuted :
    ¬ ∀ (v : Int) (bs post code : Bytes), decodeLeb128 ⟨bs ++ post, 0⟩ = (.ok v, ⟨bs ++ post, bs.length⟩) →
      encodeLeb128 v = .ok code → code.length ≤ bs.length := by
  intro h
  have := h (-64) [0x40] [] [0xC0, 0x7F] (by decide) (by decide)
  simp at this

/-- **C06** for signed LEB128, partial: minimal except for the values `-2^(7k-1)`, and never more than one byte too
long. -/
theorem C06_leb128_minimal_partial (v : Int) (bs post code : Bytes)
    (hdec : decodeLeb128 ⟨bs ++ post, 0⟩ = (.ok v, ⟨bs ++ post, bs.length⟩)) (henc : encodeLeb128 v = .ok code) :
    code.length ≤ bs.length ∨ (v = -(2 ^ (7 * bs.length - 1)) ∧ code.length = bs.length + 1) := by
  obtain ⟨hd, hv⟩ := decode_consumes .leb128 v bs post hdec
  have hlen : 0 < bs.length := List.length_pos_iff.2 hd.ne_nil
  by_cases h0 : v = 0
  · subst h0
    have : code = [0] := by simpa [encodeLeb128] using henc.symm
    subst this; left; simp; omega
  · obtain ⟨c, h1, -, -, h4⟩ := encodeLeb128_spec v h0
    have : c = code := by
      have := h1.symm.trans henc; cases this; rfl
    subst this
    have hlt := leValue_lt bs
    have hv' : twosComplement (7 * bs.length) (leValue bs) = v := hv
    obtain ⟨B, hB⟩ : ∃ B, 7 * bs.length = B + 1 := ⟨7 * bs.length - 1, by omega⟩
    have hp : (2 : Nat) ^ (B + 1) = 2 * 2 ^ B := by rw [Nat.pow_succ']
    have hpi : ((2 : Int) ^ (B + 1)) = 2 * ((2 ^ B : Nat) : Int) := by
      rw [Int.pow_succ, Int.mul_comm]; simp
    have hcast : ((2 ^ B : Nat) : Int) = (2 : Int) ^ B := by simp
    rw [hB] at hv' hlt ⊢
    simp only [Nat.add_sub_cancel]
    unfold twosComplement at hv'
    rw [hpi] at hv'
    rw [hp] at hlt hv'
    generalize hP : (2 : Nat) ^ B = P at *
    rw [← hcast]
    have hrange : v.natAbs < P ∨ v = -(P : Int) := by
      split at hv' <;> omega
    rcases hrange with hr | hr
    · left
      have := (bitLength_le_iff v.natAbs B).2 (by omega)
      rw [h4, leb128Groups]; omega
    · right
      refine ⟨hr, ?_⟩
      have e1 : v.natAbs = 2 ^ B := by omega
      have h1 := (bitLength_le_iff v.natAbs (B + 1)).2 (by rw [hp]; omega)
      have h2 : ¬ bitLength v.natAbs ≤ B := fun h => by
        have := (bitLength_le_iff v.natAbs B).1 h; omega
      rw [h4, leb128Groups]; omega

end Verif
