import Verif.Model.Helpers

namespace Verif

theorem natToLE_length (n v : Nat) : (natToLE n v).length = n := by
  induction n generalizing v with
  | zero => rfl
  | succ n ih => simp [natToLE, ih]

theorem natOfLE_natToLE (n v : Nat) : natOfLE (natToLE n v) = v % 2 ^ (8 * n) := by
  induction n generalizing v with
  | zero => simp [natToLE, natOfLE, Nat.mod_one]
  | succ n ih =>
    have h : (2 : Nat) ^ (8 * (n + 1)) = 256 * 2 ^ (8 * n) := by
      rw [Nat.mul_add, Nat.pow_add]; omega
    rw [natToLE, natOfLE, ih, h, Nat.mod_mul]
    congr 1
    simp

theorem natOfLE_lt (b : Bytes) : natOfLE b < 2 ^ (8 * b.length) := by
  induction b with
  | nil => simp [natOfLE]
  | cons a as ih =>
    have h : (2 : Nat) ^ (8 * (as.length + 1)) = 256 * 2 ^ (8 * as.length) := by
      rw [Nat.mul_add, Nat.pow_add]; omega
    have := a.toNat_lt
    rw [natOfLE, List.length_cons, h]; omega

theorem natToLE_natOfLE (b : Bytes) : natToLE b.length (natOfLE b) = b := by
  induction b with
  | nil => rfl
  | cons a as ih =>
    have := a.toNat_lt
    rw [List.length_cons, natToLE, natOfLE]
    have h1 : (a.toNat + 256 * natOfLE as) % 256 = a.toNat := by omega
    have h2 : (a.toNat + 256 * natOfLE as) / 256 = natOfLE as := by omega
    rw [h1, h2, ih]; simp

@[simp] theorem Endian.length_arrange (e : Endian) (b : Bytes) : (e.arrange b).length = b.length := by
  cases e <;> simp [Endian.arrange]

@[simp] theorem Endian.arrange_arrange (e : Endian) (b : Bytes) : e.arrange (e.arrange b) = b := by
  cases e <;> simp [Endian.arrange]

theorem two_pow_cast (n : Nat) : ((2 ^ n : Nat) : Int) = (2 : Int) ^ n := by simp

end Verif
