import Verif.Proofs.Text

/-! Helper lemmas about UUIDs. -/

namespace Verif
open Spec

theorem uuidBytes_length (n : Nat) : (uuidBytes n).length = 16 := by simp [uuidBytes, natToLE_length]

theorem uuidBytes_val {n : Nat} (h : n < 2 ^ 128) : natOfLE (Endian.big.arrange (uuidBytes n)) = n := by
  rw [uuidBytes, Endian.arrange_arrange, natOfLE_natToLE]
  exact Nat.mod_eq_of_lt (by simpa using h)

theorem uuidBytes_of {b : Bytes} (h : b.length = 16) : uuidBytes (natOfLE (Endian.big.arrange b)) = b := by
  rw [uuidBytes]
  have := natToLE_natOfLE (Endian.big.arrange b)
  rw [Endian.length_arrange, h] at this
  rw [this, Endian.arrange_arrange]

theorem natOfLE_lt16 {b : Bytes} (h : b.length = 16) : natOfLE b < 2 ^ 128 := by
  have := natOfLE_lt b
  rw [h] at this
  exact this

/-- Sixteen bytes, as the four groups of a UUID. -/
theorem uuidSwap_groups {a b c d : Bytes} (ha : a.length = 4) (hb : b.length = 2) (hc : c.length = 2) :
    uuidSwap (a ++ b ++ c ++ d) = a.reverse ++ b.reverse ++ c.reverse ++ d := by
  match a, ha with
  | [a0, a1, a2, a3], _ =>
    match b, hb with
    | [b0, b1], _ =>
      match c, hc with
      | [c0, c1], _ => simp [uuidSwap]

theorem groups_of_length {x : Bytes} (h : x.length = 16) :
    ∃ a b c d : Bytes, x = a ++ b ++ c ++ d ∧ a.length = 4 ∧ b.length = 2 ∧ c.length = 2 ∧ d.length = 8 := by
  refine ⟨x.take 4, (x.drop 4).take 2, (x.drop 6).take 2, x.drop 8, ?_, ?_, ?_, ?_, ?_⟩
  · have h1 : x.drop 6 = (x.drop 4).drop 2 := by simp
    have h2 : x.drop 8 = (x.drop 6).drop 2 := by simp
    rw [List.append_assoc, h2, List.take_append_drop, List.append_assoc, h1, List.take_append_drop, List.take_append_drop]
  all_goals simp; omega

theorem uuidSwap_swap {x : Bytes} (h : x.length = 16) : uuidSwap (uuidSwap x) = x := by
  obtain ⟨a, b, c, d, rfl, ha, hb, hc, hd⟩ := groups_of_length h
  rw [uuidSwap_groups ha hb hc, uuidSwap_groups (by simpa) (by simpa) (by simpa)]
  simp

theorem uuidSwap_length {x : Bytes} (h : x.length = 16) : (uuidSwap x).length = 16 := by
  obtain ⟨a, b, c, d, rfl, ha, hb, hc, hd⟩ := groups_of_length h
  rw [uuidSwap_groups ha hb hc]
  simp [ha, hb, hc, hd]

/-! ### The text formats -/

/-- ASCII codes of `0`-`9`, `a`-`f` and `A`-`F`. -/
def IsHex (c : UInt8) : Prop :=
  (48 ≤ c.toNat ∧ c.toNat ≤ 57) ∨ (97 ≤ c.toNat ∧ c.toNat ≤ 102) ∨ (65 ≤ c.toNat ∧ c.toNat ≤ 70)

theorem hexDigit_spec : ∀ d, d < 16 → IsHex (hexDigit d) ∧ hexVal (hexDigit d) = some d := by
  unfold IsHex
  decide

theorem hexDigits_length (k n : Nat) : (hexDigits k n).length = k := by
  induction k generalizing n with
  | zero => rfl
  | succ k ih => simp [hexDigits, ih]

theorem hexDigits_isHex (k n : Nat) : ∀ c ∈ hexDigits k n, IsHex c := by
  induction k generalizing n with
  | zero => simp [hexDigits]
  | succ k ih =>
    intro c hc
    simp [hexDigits] at hc
    rcases hc with hc | rfl
    · exact ih _ c hc
    · exact (hexDigit_spec _ (Nat.mod_lt _ (by omega))).1

/-- Value of a string of hexadecimal digits. -/
def hexValue (acc : Nat) (s : Bytes) : Nat := s.foldl (fun a c => 16 * a + (hexVal c).getD 0) acc

theorem hexValue_hexDigits (k : Nat) : ∀ n acc, hexValue acc (hexDigits k n) = acc * 16 ^ k + n % 16 ^ k := by
  induction k with
  | zero => intro n acc; simp [hexValue, hexDigits, Nat.mod_one]
  | succ k ih =>
    intro n acc
    have h1 := (hexDigit_spec (n % 16) (Nat.mod_lt _ (by omega))).2
    have h2 := ih (n / 16) acc
    unfold hexValue at h2 ⊢
    rw [hexDigits, List.foldl_append, h2]
    simp only [List.foldl_cons, List.foldl_nil, h1, Option.getD_some]
    have h3 : n % 16 ^ (k + 1) = 16 * (n / 16 % 16 ^ k) + n % 16 := by
      rw [Nat.pow_succ, Nat.mul_comm (16 ^ k) 16, Nat.mod_mul]
      omega
    rw [h3, Nat.pow_succ]
    generalize 16 ^ k = m
    generalize n / 16 % m = x
    have : acc * (m * 16) = 16 * (acc * m) := by rw [← Nat.mul_assoc, Nat.mul_comm (acc * m) 16]
    omega

theorem isHex_hexVal {c : UInt8} (h : IsHex c) : ∃ v, hexVal c = some v := by
  unfold hexVal
  rcases h with h | h | h
  · exact ⟨_, by simp only; rw [if_pos (by omega)]⟩
  · exact ⟨_, by simp only; rw [if_neg (by omega), if_pos (by omega)]⟩
  · exact ⟨_, by simp only; rw [if_neg (by omega), if_neg (by omega), if_pos (by omega)]⟩

theorem isHex_ne {c d : UInt8} (h : IsHex c) (hd : ¬ IsHex d) : c ≠ d := by
  rintro rfl; exact hd h

theorem parseHexDigits_hex {s : Bytes} (hs : ∀ c ∈ s, IsHex c) (ok : Bool) (acc : Nat) (hok : ok = true ∨ s ≠ []) :
    parseHexDigits ok acc s = some (hexValue acc s) := by
  induction s generalizing ok acc with
  | nil => simp at hok; simp [parseHexDigits, hok, hexValue]
  | cons c s ih =>
    have hc : c ≠ 95 := isHex_ne (hs c (by simp)) (by unfold IsHex; decide)
    obtain ⟨v, hv⟩ := isHex_hexVal (hs c (by simp))
    unfold parseHexDigits
    rw [if_neg hc, hv]
    simp only [Option.bind_some]
    rw [ih (fun c h => hs c (by simp [h])) true _ (Or.inl rfl)]
    simp [hexValue, hv]

theorem removeAll_none {p : UInt8} {pat : Bytes} : ∀ (fuel : Nat) (s : Bytes), p ∉ s → removeAll (p :: pat) fuel s = s := by
  intro fuel
  induction fuel with
  | zero => intro s _; cases s <;> rfl
  | succ fuel ih =>
    intro s hs
    cases s with
    | nil => rfl
    | cons c s =>
      simp only [List.mem_cons, not_or] at hs
      unfold removeAll
      rw [if_neg (by simp [List.isPrefixOf, hs.1]), ih s hs.2]

theorem removeAll_one {p : UInt8} : ∀ (fuel : Nat) (s : Bytes), s.length ≤ fuel →
    removeAll [p] fuel s = s.filter (fun c => decide (c ≠ p)) := by
  intro fuel
  induction fuel with
  | zero => intro s hs; rw [List.length_eq_zero_iff.1 (Nat.le_zero.1 hs)]; rfl
  | succ fuel ih =>
    intro s hs
    cases s with
    | nil => rfl
    | cons c s =>
      simp at hs
      unfold removeAll
      by_cases h : p = c
      · subst h
        rw [if_pos (by simp [List.isPrefixOf])]
        simp only [List.length_cons, List.length_nil, List.drop_succ_cons, List.drop_zero]
        rw [ih s hs]
        simp
      · rw [if_neg (by simp [List.isPrefixOf, h]), ih s hs]
        simp [Ne.symm h]

theorem dropWhile_none {p : UInt8 → Bool} {s : Bytes} (h : ∀ c ∈ s, p c = false) : s.dropWhile p = s := by
  cases s with
  | nil => rfl
  | cons c s => simp [List.dropWhile, h c (by simp)]

theorem stripBytes_none {p : UInt8 → Bool} {s : Bytes} (h : ∀ c ∈ s, p c = false) : stripBytes p s = s := by
  unfold stripBytes
  rw [dropWhile_none h, dropWhile_none (by intro c hc; exact h c (by simpa using hc))]
  simp

theorem parseHexInt_hex {s : Bytes} (hs : ∀ c ∈ s, IsHex c) (hne : s ≠ []) : parseHexInt s = some (hexValue 0 s : Int) := by
  unfold parseHexInt
  have hstrip : stripBytes (fun c : UInt8 => c = 32 || (9 ≤ c.toNat && c.toNat ≤ 13)) s = s := by
    apply stripBytes_none
    intro c hc
    have h1 : c ≠ 32 := isHex_ne (hs c hc) (by unfold IsHex; decide)
    rcases hs c hc with h | h | h
    · simp [h1]; omega
    · simp [h1]; omega
    · simp [h1]; omega
  simp only [hstrip]
  cases s with
  | nil => exact absurd rfl hne
  | cons c r =>
    have h1 : c ≠ 43 := isHex_ne (hs c (by simp)) (by unfold IsHex; decide)
    have h2 : c ≠ 45 := isHex_ne (hs c (by simp)) (by unfold IsHex; decide)
    have hp := parseHexDigits_hex hs false 0 (Or.inr hne)
    have k1 : splitSign (c :: r) = (false, c :: r) := by
      unfold splitSign
      split
      · rename_i heq; simp at heq; exact absurd heq.1 h1
      · rename_i heq; simp at heq; exact absurd heq.1 h2
      · rfl
    have k2 : hexMagnitude (c :: r) = parseHexDigits false 0 (c :: r) := by
      unfold hexMagnitude
      split
      · rename_i heq
        simp at heq
        have := isHex_ne (hs 120 (by simp [heq.2])) (d := 120) (by unfold IsHex; decide)
        exact absurd rfl this
      · rename_i heq
        simp at heq
        have := isHex_ne (hs 88 (by simp [heq.2])) (d := 88) (by unfold IsHex; decide)
        exact absurd rfl this
      · rename_i heq; simp at heq
      · rfl
    rw [k1, k2, hp]
    rfl

theorem hexVal_lower : ∀ c : UInt8, hexVal (asciiLower c) = hexVal c := by
  intro c
  have h : ∀ n, n < 256 → hexVal (asciiLower (UInt8.ofNat n)) = hexVal (UInt8.ofNat n) := by decide +kernel
  simpa using h c.toNat (by have := c.toNat_lt; omega)

theorem isHex_lower : ∀ c : UInt8, IsHex (asciiLower c) → IsHex c := by
  intro c
  have h : ∀ n, n < 256 → IsHex (asciiLower (UInt8.ofNat n)) → IsHex (UInt8.ofNat n) := by unfold IsHex; decide +kernel
  simpa using h c.toNat (by have := c.toNat_lt; omega)

theorem hexValue_lower (s : Bytes) : ∀ acc, hexValue acc (s.map asciiLower) = hexValue acc s := by
  induction s with
  | nil => intro acc; rfl
  | cons c s ih =>
    intro acc
    have := ih (16 * acc + (hexVal c).getD 0)
    unfold hexValue at this ⊢
    simp only [List.map_cons, List.foldl_cons, hexVal_lower]
    exact this

/-- Hexadecimal digits in either case, possibly with dashes. -/
theorem uuidOfHex_text {s h : Bytes} {n : Nat} (hs : ∀ c ∈ s, IsHex c ∨ c = 45) (hf : s.filter (fun c => decide (c ≠ 45)) = h)
    (hh : h.map asciiLower = hexDigits 32 n) (hn : n < 2 ^ 128) : uuidOfHex s = some n := by
  have hu : (117 : UInt8) ∉ s := by
    intro hc
    rcases hs _ hc with h1 | h1
    · exact absurd rfl (isHex_ne h1 (d := 117) (by unfold IsHex; decide))
    · exact absurd h1 (by decide)
  unfold uuidOfHex
  simp only
  rw [removeAll_none _ s hu, removeAll_none _ s hu]
  have hstrip : stripBytes (fun c : UInt8 => c = 123 || c = 125) s = s := by
    apply stripBytes_none
    intro c hc
    rcases hs c hc with h1 | rfl
    · have h2 : c ≠ 123 := isHex_ne h1 (by unfold IsHex; decide)
      have h3 : c ≠ 125 := isHex_ne h1 (by unfold IsHex; decide)
      simp [h2, h3]
    · decide
  have hlen : h.length = 32 := by
    have := congrArg List.length hh
    rwa [hexDigits_length, List.length_map] at this
  rw [hstrip, removeAll_one _ s (Nat.le_refl _), hf, if_neg (by rw [hlen]; simp)]
  have hx : ∀ c ∈ h, IsHex c := by
    intro c hc
    exact isHex_lower c (hexDigits_isHex 32 n _ (by rw [← hh]; exact List.mem_map_of_mem hc))
  have hne : h ≠ [] := by
    intro h0
    rw [h0] at hlen
    simp at hlen
  rw [parseHexInt_hex hx hne]
  have hval : hexValue 0 h = n := by
    rw [← hexValue_lower, hh, hexValue_hexDigits]
    have : (16 : Nat) ^ 32 = 2 ^ 128 := by decide
    rw [this, Nat.mod_eq_of_lt hn]
    simp
  rw [hval]
  have hi : (0 : Int) ≤ n ∧ (n : Int) < 2 ^ 128 := ⟨by omega, by exact_mod_cast hn⟩
  show (if (0 : Int) ≤ n ∧ (n : Int) < 2 ^ 128 then some (n : Int).toNat else none) = some n
  rw [if_pos hi]
  simp

theorem hexDigits_lower (k n : Nat) : (hexDigits k n).map asciiLower = hexDigits k n := by
  have h16 : ∀ d, d < 16 → asciiLower (hexDigit d) = hexDigit d := by decide
  induction k generalizing n with
  | zero => rfl
  | succ k ih => simp [hexDigits, ih, h16 _ (Nat.mod_lt n (by omega : 16 > 0))]

/-- Hexadecimal digits, possibly with dashes. -/
theorem uuidOfHex_spec {s h : Bytes} {n : Nat} (hs : ∀ c ∈ s, IsHex c ∨ c = 45) (hf : s.filter (fun c => decide (c ≠ 45)) = h)
    (hh : h = hexDigits 32 n) (hn : n < 2 ^ 128) : uuidOfHex s = some n :=
  uuidOfHex_text hs hf (by rw [hh, hexDigits_lower]) hn

theorem isHex_filter {s : Bytes} (h : ∀ c ∈ s, IsHex c) : s.filter (fun c => decide (c ≠ 45)) = s := by
  rw [List.filter_eq_self]
  intro c hc
  have : c ≠ 45 := isHex_ne (h c hc) (by unfold IsHex; decide)
  simpa using this

theorem uuidHex_isHex (n : Nat) : ∀ c ∈ uuidHex n, IsHex c := hexDigits_isHex 32 n

theorem uuidStr_chars (n : Nat) : ∀ c ∈ uuidStr n, IsHex c ∨ c = 45 := by
  intro c hc
  have hx := uuidHex_isHex n
  unfold uuidStr at hc
  simp only [List.mem_append, List.mem_singleton] at hc
  rcases hc with (((((((h | h) | h) | h) | h) | h) | h) | h) | h
  · exact Or.inl (hx c (List.mem_of_mem_take h))
  · exact Or.inr h
  · exact Or.inl (hx c (List.mem_of_mem_drop (List.mem_of_mem_take h)))
  · exact Or.inr h
  · exact Or.inl (hx c (List.mem_of_mem_drop (List.mem_of_mem_take h)))
  · exact Or.inr h
  · exact Or.inl (hx c (List.mem_of_mem_drop (List.mem_of_mem_take h)))
  · exact Or.inr h
  · exact Or.inl (hx c (List.mem_of_mem_drop h))

theorem take_drop_join (x : Bytes) : x.take 8 ++ ((x.drop 8).take 4 ++ ((x.drop 12).take 4 ++ ((x.drop 16).take 4 ++ x.drop 20))) =
    x := by
  have h1 : x.drop 20 = (x.drop 16).drop 4 := by simp
  have h2 : x.drop 16 = (x.drop 12).drop 4 := by simp
  have h3 : x.drop 12 = (x.drop 8).drop 4 := by simp
  rw [h1, List.take_append_drop, h2, List.take_append_drop, h3, List.take_append_drop, List.take_append_drop]

theorem uuidStr_filter (n : Nat) : (uuidStr n).filter (fun c => decide (c ≠ 45)) = uuidHex n := by
  have hx := uuidHex_isHex n
  have h1 : ∀ s : Bytes, (∀ c ∈ s, c ∈ uuidHex n) → s.filter (fun c => decide (c ≠ 45)) = s :=
    fun s hs => isHex_filter fun c hc => hx c (hs c hc)
  have h45 : ([45] : Bytes).filter (fun c => decide (c ≠ 45)) = [] := by decide
  have e0 := h1 ((uuidHex n).take 8) (fun c h => List.mem_of_mem_take h)
  have e1 := h1 (((uuidHex n).drop 8).take 4) (fun c h => List.mem_of_mem_drop (List.mem_of_mem_take h))
  have e2 := h1 (((uuidHex n).drop 12).take 4) (fun c h => List.mem_of_mem_drop (List.mem_of_mem_take h))
  have e3 := h1 (((uuidHex n).drop 16).take 4) (fun c h => List.mem_of_mem_drop (List.mem_of_mem_take h))
  have e4 := h1 ((uuidHex n).drop 20) (fun c h => List.mem_of_mem_drop h)
  unfold uuidStr
  simp only [List.filter_append, e0, e1, e2, e3, e4, h45, List.append_assoc]
  simp only [List.nil_append]
  exact take_drop_join _

theorem uuidStr_length (n : Nat) : (uuidStr n).length = 36 := by
  simp [uuidStr, uuidHex, hexDigits_length]

theorem ascii_all {s : Bytes} (h : ∀ c ∈ s, IsHex c ∨ c = 45) : s.all (·.toNat < 128) = true := by
  rw [List.all_eq_true]
  intro c hc
  rcases h c hc with (h | h | h) | rfl
  · simp; omega
  · simp; omega
  · simp; omega
  · decide

theorem uuidDump_length (fmt : UUIDFormat) (n : Nat) : ((uuidDump fmt n).length : Int) = fmt.size := by
  cases fmt
  · simp [uuidDump, uuidBytes_length, UUIDFormat.size]
  · simp [uuidDump, uuidSwap_length (uuidBytes_length n), UUIDFormat.size]
  · simp [uuidDump, uuidStr_length, UUIDFormat.size]
  · simp [uuidDump, uuidHex, hexDigits_length, UUIDFormat.size]

theorem uuidParse_dump (fmt : UUIDFormat) {n : Nat} (h : n < 2 ^ 128) : uuidParse fmt (uuidDump fmt n) = .ok n := by
  cases fmt
  · simp [uuidParse, uuidDump, uuidBytes_val h]
  · simp [uuidParse, uuidDump, uuidSwap_swap (uuidBytes_length n), uuidBytes_val h]
  · simp only [uuidParse, uuidDump, ascii_all (uuidStr_chars n), if_true]
    rw [uuidOfHex_spec (uuidStr_chars n) (uuidStr_filter n) rfl h]
  · simp only [uuidParse, uuidDump, ascii_all (fun c hc => Or.inl (uuidHex_isHex n c hc)), if_true]
    rw [uuidOfHex_spec (fun c hc => Or.inl (uuidHex_isHex n c hc)) (isHex_filter (uuidHex_isHex n)) rfl h]

end Verif
