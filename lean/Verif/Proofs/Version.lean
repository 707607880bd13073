import Verif.Model.Version

/-!
# Lemmas about version numbers
-/

namespace Verif

theorem partitionAt_none {sep : Char} : ∀ {l : List Char}, sep ∉ l → partitionAt sep l = (l, []) := by
  intro l
  induction l with
  | nil => intro _; rfl
  | cons c cs ih =>
    intro h
    simp only [List.mem_cons, not_or] at h
    rw [partitionAt, if_neg (fun hc => h.1 hc.symm), ih h.2]

theorem partitionAt_append {sep : Char} {r : List Char} : ∀ {l : List Char}, sep ∉ l → partitionAt sep (l ++ sep :: r) = (l, r) := by
  intro l
  induction l with
  | nil => intro _; simp [partitionAt]
  | cons c cs ih =>
    intro h
    simp only [List.mem_cons, not_or] at h
    rw [List.cons_append, partitionAt, if_neg (fun hc => h.1 hc.symm), ih h.2]

theorem partitionAt_fst {sep : Char} : ∀ (l : List Char), sep ∉ (partitionAt sep l).1 := by
  intro l
  induction l with
  | nil => simp [partitionAt]
  | cons c cs ih =>
    rw [partitionAt]
    split
    · simp
    · rename_i hc
      simp only [List.mem_cons, not_or]
      exact ⟨fun h => hc h.symm, ih⟩

theorem splitAt_none {sep : Char} : ∀ {l : List Char}, sep ∉ l → splitAt sep l = [l] := by
  intro l
  induction l with
  | nil => intro _; rfl
  | cons c cs ih =>
    intro h
    simp only [List.mem_cons, not_or] at h
    rw [splitAt, if_neg (fun hc => h.1 hc.symm), ih h.2]

theorem splitAt_append {sep : Char} {r : List Char} : ∀ {l : List Char}, sep ∉ l → splitAt sep (l ++ sep :: r) = l :: splitAt sep r := by
  intro l
  induction l with
  | nil => intro _; simp [splitAt]
  | cons c cs ih =>
    intro h
    simp only [List.mem_cons, not_or] at h
    rw [List.cons_append, splitAt, if_neg (fun hc => h.1 hc.symm), ih h.2]

theorem mem_of_splitAt {sep : Char} : ∀ {l p : List Char}, p ∈ splitAt sep l → ∀ c ∈ p, c ∈ l := by
  intro l
  induction l with
  | nil =>
    intro p h c hc
    simp only [splitAt, List.mem_singleton] at h
    rw [h] at hc; exact hc
  | cons x xs ih =>
    intro p h c hc
    rw [splitAt] at h
    split at h
    · rcases List.mem_cons.1 h with rfl | h
      · cases hc
      · exact List.mem_cons_of_mem _ (ih h c hc)
    · cases hs : splitAt sep xs with
      | nil =>
        rw [hs] at h
        simp only [List.mem_singleton] at h
        rw [h] at hc
        rw [List.mem_singleton.1 hc]; exact List.mem_cons_self
      | cons q qs =>
        rw [hs] at h
        simp only [List.mem_cons] at h
        rcases h with rfl | h
        · rcases List.mem_cons.1 hc with rfl | hc
          · exact List.mem_cons_self
          · exact List.mem_cons_of_mem _ (ih (by rw [hs]; exact List.mem_cons_self) c hc)
        · exact List.mem_cons_of_mem _ (ih (by rw [hs]; exact List.mem_cons_of_mem _ h) c hc)

/-- Only ASCII digits. -/
def Digits (l : List Char) : Prop := ∀ c ∈ l, c.isDigit = true

theorem digits_toDigits (n : Nat) : Digits (Nat.toDigits 10 n) := fun _ hc => Nat.isDigit_of_mem_toDigits (by decide) (by decide) hc

theorem isDigit_bounds {c : Char} (h : c.isDigit = true) : 48 ≤ c.toNat ∧ c.toNat ≤ 57 := by
  simp only [Char.isDigit, Bool.and_eq_true, decide_eq_true_eq] at h
  exact ⟨by have := h.1; exact UInt32.le_iff_toNat_le.1 this, by have := h.2; exact UInt32.le_iff_toNat_le.1 this⟩

theorem Digits.not_mem {l : List Char} (h : Digits l) {c : Char} (hc : c.isDigit = false) : c ∉ l := by
  intro hm
  rw [h c hm] at hc
  cases hc

theorem dropWhile_all_false {p : Char → Bool} : ∀ {l : List Char}, (∀ c ∈ l, p c = false) → l.dropWhile p = l := by
  intro l h
  cases l with
  | nil => rfl
  | cons c cs => rw [List.dropWhile_cons, if_neg (by rw [h c List.mem_cons_self]; decide)]

theorem stripSpace_none {U : CharTable} {l : List Char} (h : ∀ c ∈ l, U.space c = false) : stripSpace U l = l := by
  rw [stripSpace, dropWhile_all_false h, dropWhile_all_false (fun c hc => h c (List.mem_reverse.1 hc)), List.reverse_reverse]

theorem mem_of_dropWhile {p : Char → Bool} {l : List Char} {c : Char} (h : c ∈ l.dropWhile p) : c ∈ l :=
  (List.dropWhile_sublist p).subset h

theorem mem_of_stripSpace {U : CharTable} {l : List Char} {c : Char} (h : c ∈ stripSpace U l) : c ∈ l := by
  rw [stripSpace, List.mem_reverse] at h
  exact mem_of_dropWhile (List.mem_reverse.1 (mem_of_dropWhile h))

theorem CharTable.Standard.visible {U : CharTable} (hU : U.Standard) {c : Char} (h : 33 ≤ c.toNat) (h' : c.toNat < 128) : U.space c = false := by
  cases hs : U.space c with
  | false => rfl
  | true =>
    rcases (hU.space c h').1 hs with rfl | hc
    · exact absurd h (by decide)
    · omega

theorem intDigits_append {U : CharTable} (hU : U.Standard) {r : List Char} : ∀ {l : List Char}, Digits l → ∀ after acc,
    intDigits U after acc (l ++ r) = intDigits U (if l = [] then after else true) (Nat.ofDigitChars 10 l acc) r := by
  intro l
  induction l with
  | nil => intro _ after acc; simp
  | cons c cs ih =>
    intro h after acc
    have hc := h c List.mem_cons_self
    have hb := isDigit_bounds hc
    have hu : c ≠ '_' := by rintro rfl; cases hc
    rw [List.cons_append, intDigits, if_neg hu, hU.digit c (by omega), if_pos hc]
    simp only
    rw [ih (fun d hd => h d (List.mem_cons_of_mem _ hd)), Nat.ofDigitChars_cons, Nat.mul_comm acc 10]
    simp

theorem intDigits_toDigits {U : CharTable} (hU : U.Standard) (n : Nat) : intDigits U false 0 (Nat.toDigits 10 n) = some n := by
  have h := intDigits_append hU (r := []) (digits_toDigits n) false 0
  rw [List.append_nil, if_neg Nat.toDigits_ne_nil, Nat.ofDigitChars_toDigits (by omega) (by omega)] at h
  rw [h]; simp [intDigits]

/-- `int()` of the text of a number with something visible appended is decided by the digits. -/
theorem pyInt_digits {U : CharTable} (hU : U.Standard) (n : Nat) {r : List Char} (hr : ∀ c ∈ r, 33 ≤ c.toNat ∧ c.toNat < 128) :
    pyInt U (Nat.toDigits 10 n ++ r) = match intDigits U true n r with
      | some n => .ok (n : Int)
      | none => .error .valueErr := by
  have hv : ∀ c ∈ Nat.toDigits 10 n ++ r, U.space c = false := by
    intro c hc
    rcases List.mem_append.1 hc with hc | hc
    · have hb := isDigit_bounds (digits_toDigits n c hc)
      exact hU.visible (by omega) (by omega)
    · exact hU.visible (hr c hc).1 (hr c hc).2
  have hi := intDigits_append hU (r := r) (digits_toDigits n) false 0
  rw [if_neg Nat.toDigits_ne_nil, Nat.ofDigitChars_toDigits (by omega) (by omega)] at hi
  unfold pyInt
  simp only
  rw [stripSpace_none hv]
  have hd := digits_toDigits n
  have hne : Nat.toDigits 10 n ≠ [] := Nat.toDigits_ne_nil
  generalize Nat.toDigits 10 n = l at *
  cases l with
  | nil => exact absurd rfl hne
  | cons c cs =>
    have hc := hd c List.mem_cons_self
    have hp : c ≠ '+' := by rintro rfl; cases hc
    have hm : c ≠ '-' := by rintro rfl; cases hc
    rw [List.cons_append] at *
    split
    · rename_i e; cases e; exact absurd rfl hp
    · rename_i e; cases e; exact absurd rfl hm
    · rw [hi]
      cases intDigits U true n r <;> simp

theorem pyInt_toDigits {U : CharTable} (hU : U.Standard) (n : Nat) : pyInt U (Nat.toDigits 10 n) = .ok (n : Int) := by
  have h := pyInt_digits hU n (r := []) (by simp)
  rw [List.append_nil] at h
  rw [h]; simp [intDigits]

theorem pyInt_pyStr {U : CharTable} (hU : U.Standard) {n : Int} (h : 0 ≤ n) : pyInt U (pyStr n) = .ok n := by
  rw [pyStr, if_neg (by omega), pyInt_toDigits hU]
  congr 1
  omega

/-- A text without a minus sign is no negative number. -/
theorem pyInt_nonneg {U : CharTable} {s : List Char} (hs : '-' ∉ s) {n : Int} (h : pyInt U s = .ok n) : 0 ≤ n := by
  unfold pyInt at h
  simp only at h
  split at h
  · split at h
    · cases h; omega
    · cases h
  · rename_i e
    exact absurd (mem_of_stripSpace (U := U) (l := s) (by rw [e]; exact List.mem_cons_self)) hs
  · split at h
    · cases h; omega
    · cases h

theorem pyStr_digits {n : Int} (h : 0 ≤ n) : Digits (pyStr n) := by
  rw [pyStr, if_neg (by omega)]
  exact digits_toDigits _

theorem fromString_parts {U : CharTable} {s base suffix a b : List Char} {l : List (List Char)} {x y z : Int}
    (hp : partitionAt '-' s = (base, suffix)) (hs : splitAt '.' base = a :: b :: l) (hx : pyInt U a = .ok x) (hy : pyInt U b = .ok y)
    (hz : pyInt U (l.head?.getD ['0']) = .ok z) :
    VersionInfo.fromString U s = .ok ⟨x, y, z, if suffix = [] then none else some suffix⟩ := by
  simp only [VersionInfo.fromString, hp, hs, hx, hy, hz]

end Verif
