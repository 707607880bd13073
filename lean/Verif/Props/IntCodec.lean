import Verif.Proofs.IntCodec

/-!
# Properties C10, C11, C12: fixed-size integers

Model: `readInt`, `writeInt` (`/repo/binobj/helpers.py:19-88`) over `int.to_bytes`/`int.from_bytes`.
-/

namespace Verif

/-- Independent range specification: what an `n`-byte integer can hold. -/
def Spec.InRange (n : Nat) (signed : Bool) (v : Int) : Prop :=
  if signed then -(256 ^ n) ≤ 2 * v ∧ 2 * v < 256 ^ n else 0 ≤ v ∧ v < 256 ^ n

theorem pow256 (n : Nat) : (256 : Int) ^ n = 2 ^ (8 * n) := by
  rw [Int.pow_mul]; rfl

/-- What `int.to_bytes` does for `n ≥ 1`. -/
theorem intToBytes_eq (v : Int) (n : Nat) (hn : 0 < n) (e : Endian) (signed : Bool) :
    (Spec.InRange n signed v → intToBytes v n e signed =
      .ok (e.arrange (natToLE n (v % (2 ^ (8 * n) : Int)).toNat))) ∧
    (¬ Spec.InRange n signed v → intToBytes v n e signed = .error .overflowErr) := by
  have hneg : ¬ ((n : Int) < 0) := by omega
  have h2 : (2 : Int) ^ (8 * n) = 2 * 2 ^ (8 * n - 1) := by
    rw [← two_pow_cast, ← two_pow_cast]
    have : (2 : Nat) ^ (8 * n) = 2 * 2 ^ (8 * n - 1) := by rw [← Nat.pow_succ']; congr 1; omega
    omega
  have hiff : (if signed = true then
        if n = 0 then v == 0 || v == -1
        else decide (-(2 ^ (8 * n - 1) : Int) ≤ v) && decide (v < (2 ^ (8 * n - 1) : Int))
      else decide (0 ≤ v) && decide (v < (2 ^ (8 * n) : Int))) = true ↔ Spec.InRange n signed v := by
    unfold Spec.InRange
    rw [pow256]
    cases signed
    · simp
    · simp only [if_true, if_neg (by omega : ¬ n = 0), Bool.and_eq_true, decide_eq_true_eq, h2]; omega
  constructor
  · intro h
    have := hiff.2 h
    simp only [intToBytes, hneg, if_false, Int.toNat_natCast, this, if_true]
  · intro h
    have h' : ¬ _ := fun hh => h (hiff.1 hh)
    simp only [intToBytes, hneg, if_false, Int.toNat_natCast]
    rw [if_neg h']

/-- **C11** The range check of `write_int` is exact: with `n ≥ 1` bytes it succeeds iff the value is in range, in which
case it produces exactly `n` bytes, and raises `OverflowError` otherwise. -/
theorem C11_write_int_range (v : Int) (n : Nat) (hn : 0 < n) (e : Endian) (signed : Bool) :
    (Spec.InRange n signed v → ∃ b, writeInt v n signed e = .ok b ∧ b.length = n) ∧
    (¬ Spec.InRange n signed v → writeInt v n signed e = .error .overflowErr) := by
  obtain ⟨h1, h2⟩ := intToBytes_eq v n hn e signed
  refine ⟨fun h => ⟨_, h1 h, ?_⟩, h2⟩
  simp [natToLE_length]

-- non-vacuity: the boundaries of a 3-byte signed integer
example : Spec.InRange 3 true 8388607 ∧ ¬ Spec.InRange 3 true 8388608 ∧ Spec.InRange 3 true (-8388608) := by
  simp [Spec.InRange]

/-- Reading what is in the stream. -/
theorem readInt_ok (pre b post : Bytes) (signed : Bool) (e : Endian) :
    readInt ⟨pre ++ b ++ post, pre.length⟩ b.length signed e =
      (.ok (intOfBytes b e signed), ⟨pre ++ b ++ post, pre.length + b.length⟩) := by
  have h : ¬ ((b.length : Int) < 0) := by omega
  simp [readInt, Stream.read, h]

/-- The value of an `n`-byte string is in range. -/
theorem intOfBytes_inRange (b : Bytes) (hb : b ≠ []) (e : Endian) (signed : Bool) :
    Spec.InRange b.length signed (intOfBytes b e signed) := by
  have hlt : natOfLE (e.arrange b) < 2 ^ (8 * b.length) := by
    simpa using natOfLE_lt (e.arrange b)
  have hc := two_pow_cast (8 * b.length)
  have hne : b.isEmpty = false := by simpa using hb
  unfold Spec.InRange intOfBytes
  rw [pow256]
  cases signed
  · simp only [Bool.false_eq_true, if_false, Bool.false_and]; omega
  · simp only [if_true, hne, Bool.true_and, Bool.not_false, Bool.and_true, decide_eq_true_eq]
    split <;> omega

theorem intOfBytes_mod (b : Bytes) (e : Endian) (signed : Bool) :
    (intOfBytes b e signed % (2 ^ (8 * b.length) : Int)).toNat =
      natOfLE (e.arrange b) := by
  have hlt : natOfLE (e.arrange b) < 2 ^ (8 * b.length) := by
    simpa using natOfLE_lt (e.arrange b)
  have hc := two_pow_cast (8 * b.length)
  unfold intOfBytes
  simp only
  generalize natOfLE (e.arrange b) = u at *
  split
  · rw [← Int.add_emod_right, Int.emod_eq_of_lt] <;> omega
  · rw [Int.emod_eq_of_lt] <;> omega

/-- **C10** (first half): every integer `write_int` accepts is read back by `read_int`, consuming exactly the bytes
written, wherever they are in the stream. -/
theorem C10_write_read (v : Int) (n : Nat) (hn : 0 < n) (signed : Bool) (e : Endian) (b pre post : Bytes)
    (h : writeInt v n signed e = .ok b) :
    readInt ⟨pre ++ b ++ post, pre.length⟩ n signed e =
      (.ok v, ⟨pre ++ b ++ post, pre.length + n⟩) := by
  by_cases hr : Spec.InRange n signed v
  · obtain ⟨b', h1, h2⟩ := (C11_write_int_range v n hn e signed).1 hr
    have : b' = b := by rw [h1] at h; cases h; rfl
    subst this
    have hro := readInt_ok pre b' post signed e
    rw [h2] at hro
    rw [hro]
    have hbe : b' = (e.arrange (natToLE n (v % (2 ^ (8 * n) : Int)).toNat)) := by
      have := ((intToBytes_eq v n hn e signed).1 hr).symm.trans h1; cases this; rfl
    have hu : natOfLE (e.arrange b') = (v % (2 ^ (8 * n) : Int)).toNat := by
      have hc := two_pow_cast (8 * n)
      have hm : (v % (2 ^ (8 * n) : Int)).toNat < 2 ^ (8 * n) := by
        have h1 := Int.emod_lt_of_pos v (b := (2 ^ (8 * n) : Int)) (by have := Nat.two_pow_pos (8 * n); omega)
        have h2 := Int.emod_nonneg v (b := (2 ^ (8 * n) : Int)) (by have := Nat.two_pow_pos (8 * n); omega)
        omega
      rw [hbe]
      rw [Endian.arrange_arrange, natOfLE_natToLE]; exact Nat.mod_eq_of_lt hm
    have hne : b'.isEmpty = false := by
      cases b' with
      | nil => simp at h2; omega
      | cons _ _ => rfl
    have hval : intOfBytes b' e signed = v := by
      unfold intOfBytes
      simp only
      rw [hu, h2, hne]
      have hc := two_pow_cast (8 * n)
      have hp := Nat.two_pow_pos (8 * n)
      unfold Spec.InRange at hr
      rw [pow256] at hr
      cases signed
      · simp only [Bool.false_eq_true, if_false] at hr
        rw [Int.emod_eq_of_lt hr.1 hr.2]; simp; omega
      · simp only [if_true] at hr
        simp only [Bool.true_and, Bool.not_false, Bool.and_true, decide_eq_true_eq]
        rcases Int.lt_or_le v 0 with hneg | hnn
        · have hm : v % (2 : Int) ^ (8 * n) = v + 2 ^ (8 * n) := by
            rw [← Int.add_emod_right, Int.emod_eq_of_lt] <;> omega
          rw [hm]; split <;> omega
        · have hm : v % (2 : Int) ^ (8 * n) = v := Int.emod_eq_of_lt hnn (by omega)
          rw [hm]; split <;> omega
    rw [hval]
  · rw [(C11_write_int_range v n hn e signed).2 hr] at h; cases h

/-- **C10** (second half): writing back any integer read from an `n`-byte string reproduces the string. -/
theorem C10_read_write (b : Bytes) (hb : b ≠ []) (signed : Bool) (e : Endian) (pre post : Bytes) :
    ∃ v, readInt ⟨pre ++ b ++ post, pre.length⟩ b.length signed e =
        (.ok v, ⟨pre ++ b ++ post, pre.length + b.length⟩) ∧
      writeInt v b.length signed e = .ok b := by
  refine ⟨_, readInt_ok pre b post signed e, ?_⟩
  have hlen : 0 < b.length := List.length_pos_iff.2 hb
  rw [writeInt, (intToBytes_eq _ b.length hlen e signed).1 (intOfBytes_inRange b hb e signed), intOfBytes_mod]
  have := natToLE_natOfLE (e.arrange b)
  rw [Endian.length_arrange] at this
  rw [this, Endian.arrange_arrange]

-- non-vacuity
example : writeInt (-2) 3 true .big = .ok [0xFF, 0xFF, 0xFE] := by decide
example : readInt ⟨[9, 0xFF, 0xFF, 0xFE, 7], 1⟩ 3 true .big = (.ok (-2), ⟨[9, 0xFF, 0xFF, 0xFE, 7], 4⟩) := by decide

/-- **C12** Byte order only reverses the bytes: for every value, size and sign the big-endian result is the reversal of
the little-endian one, and both fail with the same exception or both succeed. -/
theorem C12_endian_reverse (v n : Int) (signed : Bool) :
    writeInt v n signed .big = (writeInt v n signed .little).map List.reverse := by
  simp only [writeInt, intToBytes]
  by_cases h : n < 0
  · simp [h, Except.map]
  · simp only [h, if_false]
    generalize (if signed = true then _ else _ : Bool) = c
    cases c <;> rfl

/-- **C12** for reading: reading big-endian is reading the reversed bytes little-endian. -/
theorem C12_endian_reverse_read (b : Bytes) (signed : Bool) :
    intOfBytes b .big signed = intOfBytes b.reverse .little signed := by
  cases b <;> simp [intOfBytes, Endian.arrange]

end Verif
