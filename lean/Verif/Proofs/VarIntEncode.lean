import Verif.Proofs.VarInt

namespace Verif
open Spec

theorem delimited_zero : Delimited [0] := delimited_cons.2 (Or.inl ⟨rfl, by decide⟩)

theorem encodeVlq_spec (v : Nat) :
    ∃ code, encodeVlq (v : Int) = .ok code ∧ Delimited code ∧ beValue code = v ∧
      code.length = max 1 ((bitLength v + 6) / 7) := by
  by_cases hv : v = 0
  · subst hv; exact ⟨[0], by simp [encodeVlq], delimited_zero, by decide, by simp [bitLength]⟩
  · have hnb : (ceilDiv7 (bitLength v : Int)).toNat = (bitLength v + 6) / 7 := by
      unfold ceilDiv7; omega
    have hpos := bitLength_pos hv
    obtain ⟨d, h1, h2, h3, h4⟩ := fillBack_spec ((bitLength v + 6) / 7) v []
    have hne : d ≠ [] := by
      intro h; rw [h] at h2; simp at h2; omega
    obtain ⟨c1, c2, -, c4⟩ := clearLast_spec d hne h3
    refine ⟨clearLast d, ?_, c1, ?_, ?_⟩
    · have h0 : ¬ ((v : Int) < 0) := by omega
      have h0' : ¬ ((v : Int) = 0) := by omega
      simp only [encodeVlq, h0, h0', if_false, Int.toNat_natCast, hnb, h1, List.append_nil]
    · unfold beValue; rw [c4, h4, Nat.zero_mul, Nat.zero_add]
      apply Nat.mod_eq_of_lt
      rw [pow128, ← bitLength_le_iff]; omega
    · rw [c2, h2]; omega

theorem encodeUleb128Loop_spec (v : Nat) : v ≠ 0 →
    Delimited (encodeUleb128Loop v) ∧ leValue (encodeUleb128Loop v) = v ∧
      ∀ n, v < 128 ^ n → (encodeUleb128Loop v).length ≤ n := by
  induction v using Nat.strongRecOn with
  | _ v ih =>
    intro hv
    rw [encodeUleb128Loop]
    have hpos : v > 0 := by omega
    simp only [hpos, dif_pos]
    by_cases h : v > 127
    · have hd : v >>> 7 ≠ 0 := by rw [shr7]; omega
      obtain ⟨i1, i2, i3⟩ := ih (v >>> 7) (by rw [shr7]; omega) hd
      simp only [h, if_true]
      refine ⟨delimited_cons.2 (Or.inr ⟨?_, i1⟩), ?_, ?_⟩
      · rw [toNat_hi]; omega
      · rw [leValue, low7_hi, i2, shr7]; omega
      · intro n hn
        cases n with
        | zero => simp at hn; omega
        | succ n =>
          have := i3 n (by rw [shr7]; rw [Nat.pow_succ] at hn; omega)
          simpa using this
    · simp only [h, if_false]
      have hz : v >>> 7 = 0 := by rw [shr7]; omega
      have hb : (UInt8.ofNat (0 ||| v &&& 127)).toNat = v := by
        rw [and_7f, Nat.zero_or, ofNat_toNat_of_lt _ (by omega)]; omega
      rw [hz, encodeUleb128Loop]
      simp only [gt_iff_lt, Nat.lt_irrefl, dif_neg, not_false_eq_true]
      refine ⟨delimited_cons.2 (Or.inl ⟨rfl, by omega⟩), ?_, ?_⟩
      · rw [leValue, low7, hb, leValue]; omega
      · intro n hn
        cases n with
        | zero => simp at hn; omega
        | succ n => simp

theorem encodeUleb128_spec (v : Nat) :
    ∃ code, encodeUleb128 (v : Int) = .ok code ∧ Delimited code ∧ leValue code = v ∧
      ∀ n, 0 < n → v < 128 ^ n → code.length ≤ n := by
  by_cases hv : v = 0
  · subst hv
    exact ⟨[0], by simp [encodeUleb128], delimited_zero, by decide, fun n hn _ => by simp; omega⟩
  · obtain ⟨h1, h2, h3⟩ := encodeUleb128Loop_spec v hv
    refine ⟨_, ?_, h1, h2, fun n _ h => h3 n h⟩
    have h0 : ¬ ((v : Int) < 0) := by omega
    have h0' : ¬ ((v : Int) = 0) := by omega
    simp only [encodeUleb128, h0, h0', if_false, Int.toNat_natCast]

/-- Number of 7-bit groups `encode_integer_leb128` uses for `v ≠ 0`. -/
def leb128Groups (v : Int) : Nat := (bitLength v.natAbs + 7) / 7

theorem encodeLeb128_spec (v : Int) (hv : v ≠ 0) :
    ∃ code, encodeLeb128 v = .ok code ∧ Delimited code ∧ leb128Value code = v ∧
      code.length = leb128Groups v := by
  have hn0 : v.natAbs ≠ 0 := by omega
  have hpos := bitLength_pos hn0
  have hub := lt_two_pow_bitLength v.natAbs
  have hnb : (if (bitLength v.natAbs + 1) % 7 ≠ 0 then
      bitLength v.natAbs + 1 + (7 - (bitLength v.natAbs + 1) % 7) else bitLength v.natAbs + 1) =
      7 * leb128Groups v := by
    unfold leb128Groups; split <;> omega
  have hg : 0 < leb128Groups v := by unfold leb128Groups; omega
  have hgb : bitLength v.natAbs + 1 ≤ 7 * leb128Groups v := by unfold leb128Groups; omega
  obtain ⟨f1, f2, f3⟩ := fillFront_spec (leb128Groups v) (v % (2 ^ (7 * leb128Groups v) : Int)).toNat
  have hne : fillFront (leb128Groups v) (v % (2 ^ (7 * leb128Groups v) : Int)).toNat ≠ [] := by
    intro h; rw [h] at f1; simp at f1; omega
  obtain ⟨c1, c2, c3, -⟩ := clearLast_spec _ hne f2
  refine ⟨_, ?_, c1, ?_, by rw [c2, f1]⟩
  · simp only [encodeLeb128, hv, if_false, hnb, Nat.mul_div_cancel_left _ (by decide : 0 < 7)]
  · unfold leb128Value
    rw [c3, c2, f1, f3, pow128]
    generalize hB : 7 * leb128Groups v = B at *
    have hlt : 2 * v.natAbs < 2 ^ B := by
      have h1 : 2 ^ (bitLength v.natAbs + 1) ≤ 2 ^ B := Nat.pow_le_pow_right (by decide) hgb
      rw [Nat.pow_succ] at h1; omega
    have hcast : ((2 ^ B : Nat) : Int) = (2 : Int) ^ B := by simp
    unfold twosComplement
    rcases Int.lt_or_le v 0 with hneg | hnn
    · have hm : v % (2 : Int) ^ B = v + 2 ^ B := by
        rw [← Int.add_emod_right, Int.emod_eq_of_lt] <;> omega
      rw [hm]
      have : (v + 2 ^ B).toNat < 2 ^ B := by omega
      rw [Nat.mod_eq_of_lt this, if_neg (by omega)]; omega
    · have hm : v % (2 : Int) ^ B = v := Int.emod_eq_of_lt hnn (by omega)
      rw [hm]
      have : v.toNat < 2 ^ B := by omega
      rw [Nat.mod_eq_of_lt this, if_pos (by omega)]; omega

theorem compact_first_byte (neg : Bool) (x : Nat) (hx : x < 64) :
    (UInt8.ofNat (0x80 ||| (if neg then 0x40 else 0) ||| x)).toNat =
      128 + (if neg then 64 else 0) + x := by
  have key : ∀ y : Fin 64, (0x80 ||| 0x40 ||| y.val) = 192 + y.val ∧ (0x80 ||| 0 ||| y.val) = 128 + y.val := by
    decide +kernel
  have := key ⟨x, hx⟩
  cases neg <;> simp only [if_true, Bool.false_eq_true, if_false]
  · rw [this.2, ofNat_toNat_of_lt _ (by omega)]
  · rw [this.1, ofNat_toNat_of_lt _ (by omega)]

theorem encodeCompact_spec (v : Int) :
    ∃ code, encodeCompact v = .ok code ∧ Delimited code ∧ compactValue code = v ∧
      code.length = 1 + bitLength v.natAbs / 7 := by
  by_cases hv : v = 0
  · subst hv; exact ⟨[0], by simp [encodeCompact], delimited_zero, by decide, by decide⟩
  · have hn0 : v.natAbs ≠ 0 := by omega
    have hub := lt_two_pow_bitLength v.natAbs
    have hnb : (1 + ceilDiv7 ((bitLength v.natAbs : Int) - 6)).toNat = 1 + bitLength v.natAbs / 7 := by
      unfold ceilDiv7; omega
    generalize hk : bitLength v.natAbs / 7 = k at *
    obtain ⟨d, h1, h2, h3, h4⟩ := fillBack_spec k v.natAbs []
    have hx : v.natAbs / 128 ^ k < 64 := by
      rw [Nat.div_lt_iff_lt_mul (Nat.pow_pos (by decide)), pow128, show (64 : Nat) = 2 ^ 6 from rfl,
        ← Nat.pow_add]
      exact Nat.lt_of_lt_of_le hub (Nat.pow_le_pow_right (by decide) (by omega))
    have hmag : (v.natAbs / 128 ^ k) * 128 ^ k + v.natAbs % 128 ^ k = v.natAbs := by
      rw [Nat.mul_comm]; exact Nat.div_add_mod _ _
    generalize hxe : v.natAbs / 128 ^ k = x at *
    have hk0x : k = 0 → x = v.natAbs := by rintro rfl; simpa using hxe.symm
    obtain ⟨neg, hneg⟩ : ∃ n : Bool, n = decide (v < 0) := ⟨_, rfl⟩
    obtain ⟨b0, hb0e⟩ : ∃ b : UInt8, b = UInt8.ofNat (0x80 ||| (if neg then 0x40 else 0) ||| x) := ⟨_, rfl⟩
    have hb0 : b0.toNat = 128 + (if neg then 64 else 0) + x := hb0e ▸ compact_first_byte neg _ hx
    have hhigh : ∀ b ∈ b0 :: d, 128 ≤ b.toNat := by
      intro b hb
      rcases List.mem_cons.1 hb with rfl | hb
      · omega
      · exact h3 b hb
    obtain ⟨c1, c2, -, -⟩ := clearLast_spec (b0 :: d) (by simp) hhigh
    have hb64 : b0.toNat % 64 = x := by
      rw [hb0]; cases neg <;> simp <;> omega
    have hsgn : b0.toNat % 128 < 64 ↔ ¬ v < 0 := by
      rw [hb0, hneg]
      by_cases h : v < 0
      · simp [h]; omega
      · simp [h]; omega
    refine ⟨clearLast (b0 :: d), ?_, c1, ?_, by rw [c2]; simp [h2]; omega⟩
    · simp only [encodeCompact, hv, if_false, hnb, Nat.add_sub_cancel_left, h1, and_3f, List.append_nil]
      rw [Nat.mod_eq_of_lt hx]
      rw [hb0e, hneg]; simp only [decide_eq_true_eq]
    · cases d with
      | nil =>
        simp only [clearLast, compactValue, List.foldl_nil, and_7f]
        rw [ofNat_toNat_of_lt _ (by omega)]
        have e1 : b0.toNat % 128 % 64 = b0.toNat % 64 := by omega
        have e2 : b0.toNat % 128 % 128 = b0.toNat % 128 := by omega
        rw [e1, e2, hb64]
        simp only [hsgn]
        have hk0 := hk0x (by simpa using h2.symm)
        split <;> omega
      | cons d0 ds =>
        have hcl : clearLast (b0 :: d0 :: ds) = b0 :: clearLast (d0 :: ds) := rfl
        obtain ⟨-, -, -, e4⟩ := clearLast_spec (d0 :: ds) (by simp) h3
        rw [hcl]
        simp only [compactValue]
        rw [e4, h4, hb64, hmag]
        simp only [hsgn]
        split <;> omega

end Verif
