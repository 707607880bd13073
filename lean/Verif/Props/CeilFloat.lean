import Verif.Proofs.CeilFloat
import Verif.Props.VarInt

/-!
# C91: the length of a variable-length integer, computed in floating point, is right

`encodeVlqFloat` and `encodeCompactFloat` (`Model/CeilFloat.lean`) compute the number of bytes as the code does, with a
float division by 7 and `math.ceil`.
-/

namespace Verif
open Spec

/-- The integers whose magnitude takes fewer than `2^52` bits (half a pebibyte). -/
def Spec.FewBits (v : Int) : Prop := ∃ n, n < 2 ^ 52 ∧ v.natAbs < 2 ^ n

theorem Spec.FewBits.bits {v : Int} (h : FewBits v) : bitLength v.natAbs < 2 ^ 52 := by
  obtain ⟨n, h1, h2⟩ := h
  exact Nat.lt_of_le_of_lt ((bitLength_le_iff _ _).2 h2) h1

/-- The rounded quotient, rounded up, is the exact quotient rounded up: the least integer `c` with `a ≤ 7 c`. -/
theorem C91_ceil (a : Int) (h : a.natAbs < 2 ^ 52) : ∃ c, ceilDiv7Float a = .ok c ∧ a ≤ 7 * c ∧ 7 * (c - 1) < a := by
  refine ⟨_, ceilDiv7Float_eq h, ?_, ?_⟩ <;> (unfold ceilDiv7; omega)

/-- **C91** for VLQ: the encoder that computes the length in floating point gives a byte string that decodes to the
value, and no byte string that does so is shorter. -/
theorem C91_vlq (v : Nat) (hv : FewBits v) (pre post : Bytes) :
    ∃ code, encodeVlqFloat v = .ok code ∧
      decodeVlq ⟨pre ++ code ++ post, pre.length⟩ =
        (.ok (v : Int), ⟨pre ++ code ++ post, pre.length + code.length⟩) ∧
      ∀ other rest : Bytes, decodeVlq ⟨other ++ rest, 0⟩ = (.ok (v : Int), ⟨other ++ rest, other.length⟩) →
        code.length ≤ other.length := by
  have hb : bitLength v < 2 ^ 52 := hv.bits
  have e : encodeVlqFloat (v : Int) = encodeVlq v := by
    unfold encodeVlqFloat encodeVlq
    simp only [Int.toNat_natCast]
    rw [ceilDiv7Float_eq (by rw [Int.natAbs_natCast]; exact hb)]
  obtain ⟨code, h1, h2⟩ := C01_vlq_round_trip v pre post
  exact ⟨code, e.trans h1, h2, fun other rest hd => C06_minimal_partial .vlq (by decide) v other rest code hd h1⟩

/-- **C91** for compact indices. -/
theorem C91_compact (v : Int) (hv : FewBits v) (pre post : Bytes) :
    ∃ code, encodeCompactFloat v = .ok code ∧
      decodeCompact ⟨pre ++ code ++ post, pre.length⟩ =
        (.ok v, ⟨pre ++ code ++ post, pre.length + code.length⟩) ∧
      ∀ other rest : Bytes, decodeCompact ⟨other ++ rest, 0⟩ = (.ok v, ⟨other ++ rest, other.length⟩) →
        code.length ≤ other.length := by
  have hb := hv.bits
  have e : encodeCompactFloat v = encodeCompact v := by
    unfold encodeCompactFloat encodeCompact
    simp only
    rw [ceilDiv7Float_eq (by omega)]
  obtain ⟨code, h1, h2⟩ := C04_compact_round_trip v pre post
  exact ⟨code, e.trans h1, h2, fun other rest hd => C06_minimal_partial .compact (by decide) v other rest code hd h1⟩

/-- **C91**: the encoders with the float division are the encoders of `Model/VarInt.lean`, also where they raise. -/
theorem C91_encoders (v : Int) (hv : FewBits v) :
    encodeVlqFloat v = VarIntEncoding.vlq.encode v ∧ encodeCompactFloat v = VarIntEncoding.compact.encode v := by
  have hb := hv.bits
  constructor
  · by_cases h : v < 0
    · simp [encodeVlqFloat, VarIntEncoding.encode, encodeVlq, h]
    · unfold encodeVlqFloat VarIntEncoding.encode encodeVlq
      simp only
      rw [ceilDiv7Float_eq (by rw [Int.natAbs_natCast, show v.toNat = v.natAbs by omega]; exact hb)]
  · unfold encodeCompactFloat VarIntEncoding.encode encodeCompact
    simp only
    rw [ceilDiv7Float_eq (by omega)]

example : FewBits (-1000000000000000000000000000000) := ⟨100, by omega, by decide⟩
example : ceilDiv7Float 57 = .ok 9 ∧ ceilDiv7Float 56 = .ok 8 ∧ ceilDiv7Float (-5) = .ok 0 := by decide +kernel
example : encodeVlqFloat 300 = .ok [0x82, 0x2C] ∧ encodeCompactFloat (-300) = .ok [0xC2, 0x2C] ∧
    encodeVlqFloat (-1) = .error .valueErr := by decide +kernel

/-- Some bound is needed: for the number of `7 · 2^53 + 1` bits that is a one followed by zeros (eight pebibytes), the
quotient is rounded down, the buffer is a byte short, and the encoder returns, without complaint, a string that decodes
to something else. -/
theorem C91_bound_needed : ∃ (v : Nat) (code : Bytes), encodeVlqFloat v = .ok code ∧
    decodeVlq ⟨code, 0⟩ ≠ (.ok (v : Int), ⟨code, code.length⟩) := by
  obtain ⟨K, hc, hK0⟩ : ∃ K : Nat, ceilDiv7Float ((7 * K + 1 : Nat) : Int) = .ok (K : Int) ∧ K ≠ 0 :=
    ⟨9007199254740992, by decide +kernel, by decide⟩
  have hp : 2 ^ (7 * K) ≠ 0 := Nat.pos_iff_ne_zero.1 (Nat.two_pow_pos _)
  have hb : bitLength (2 ^ (7 * K)) = 7 * K + 1 := by
    unfold bitLength
    rw [if_neg hp, Nat.log2_two_pow]
  obtain ⟨d, h1, h2, h3, h4⟩ := fillBack_spec K (2 ^ (7 * K)) []
  have hne : d ≠ [] := by
    intro h; rw [h] at h2; simp at h2; omega
  obtain ⟨c1, c2, -, c4⟩ := clearLast_spec d hne h3
  refine ⟨2 ^ (7 * K), clearLast d, ?_, ?_⟩
  · generalize hV : 2 ^ (7 * K) = V at *
    have h0 : ¬ ((V : Int) < 0) := by omega
    have h0' : ¬ ((V : Int) = 0) := by omega
    unfold encodeVlqFloat
    rw [if_neg h0, if_neg h0', Int.toNat_natCast]
    simp only [hb, hc, Int.toNat_natCast, h1, List.append_nil]
  · intro h
    have hx := C07_decode_delimited .vlq ⟨clearLast d, 0⟩ (clearLast d) [] c1 (by simp [Stream.rest])
    rw [show VarIntEncoding.vlq.decode ⟨clearLast d, 0⟩ = decodeVlq ⟨clearLast d, 0⟩ from rfl, h] at hx
    simp only [Prod.mk.injEq, Except.ok.injEq] at hx
    have hv : (beValue (clearLast d) : Int) = ((2 ^ (7 * K) : Nat) : Int) := hx.1.symm
    have hv' : beValue (clearLast d) = 2 ^ (7 * K) := by exact_mod_cast hv
    unfold beValue at hv'
    rw [c4, h4, Nat.zero_mul, Nat.zero_add, pow128, Nat.mod_self] at hv'
    exact hp hv'.symm

end Verif
