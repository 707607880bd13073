import Verif.Spec.Text
import Verif.Proofs.IntCodec

/-! The codecs of the model are lawful. -/

namespace Verif
open Spec

theorem u8_toNat_ofNat {x : Nat} (h : x < 256) : (UInt8.ofNat x).toNat = x := by
  simp [UInt8.toNat_ofNat']; omega

theorem u8_ofNat_eq {x : Nat} {b : UInt8} (h : x = b.toNat) : UInt8.ofNat x = b := by
  subst h; simp

theorem asciiCodec_lawful : Lawful asciiCodec where
  enc_ne h := by simp [asciiCodec] at h; rw [← h.2]; simp
  dec_enc {c b} h rest := by
    simp [asciiCodec] at h ⊢
    obtain ⟨h1, rfl⟩ := h
    simp [u8_toNat_ofNat (show c < 256 by omega), h1]
  dec_prefix {c b} h p q hpq hp hq := by
    simp [asciiCodec] at h
    obtain ⟨h1, rfl⟩ := h
    have := congrArg List.length hpq
    have h2 := List.length_pos_iff.2 hp
    have h3 := List.length_pos_iff.2 hq
    simp at this; omega
  dec_canon {b c n} h := by
    cases b with
    | nil => simp [asciiCodec] at h
    | cons a r =>
      simp only [asciiCodec] at h ⊢
      split at h
      · simp at h; obtain ⟨rfl, rfl⟩ := h
        rename_i hlt
        simp [hlt]
      · simp at h
  enc_nul := by decide

theorem latin1Codec_lawful : Lawful latin1Codec where
  enc_ne h := by simp [latin1Codec] at h; rw [← h.2]; simp
  dec_enc {c b} h rest := by
    simp [latin1Codec] at h ⊢
    obtain ⟨h1, rfl⟩ := h
    simp [u8_toNat_ofNat (show c < 256 by omega)]
  dec_prefix {c b} h p q hpq hp hq := by
    simp [latin1Codec] at h
    obtain ⟨h1, rfl⟩ := h
    have := congrArg List.length hpq
    have h2 := List.length_pos_iff.2 hp
    have h3 := List.length_pos_iff.2 hq
    simp at this; omega
  dec_canon {b c n} h := by
    cases b with
    | nil => simp [latin1Codec] at h
    | cons a r =>
      simp only [latin1Codec] at h ⊢
      simp at h; obtain ⟨rfl, rfl⟩ := h
      have := a.toNat_lt
      simp; omega
  enc_nul := by decide

theorem isCont_iff {b : UInt8} : isCont b = true ↔ 0x80 ≤ b.toNat ∧ b.toNat < 0xC0 := by
  simp [isCont]

theorem isSurrogate_iff {c : Nat} : isSurrogate c = true ↔ 0xD800 ≤ c ∧ c < 0xE000 := by
  simp [isSurrogate]

/-- What UTF-8 does to a code point, by length. -/
theorem utf8_enc {c : Nat} {b : Bytes} (h : utf8Codec.enc c = some b) :
    (c < 0x80 ∧ ∃ b0 : UInt8, b0.toNat = c ∧ b = [b0]) ∨
    (0x80 ≤ c ∧ c < 0x800 ∧ ∃ b0 b1 : UInt8, b0.toNat = 0xC0 + c / 64 ∧ b1.toNat = 0x80 + c % 64 ∧ b = [b0, b1]) ∨
    (0x800 ≤ c ∧ c < 0x10000 ∧ ¬ (0xD800 ≤ c ∧ c < 0xE000) ∧ ∃ b0 b1 b2 : UInt8, b0.toNat = 0xE0 + c / 4096 ∧
      b1.toNat = 0x80 + c / 64 % 64 ∧ b2.toNat = 0x80 + c % 64 ∧ b = [b0, b1, b2]) ∨
    (0x10000 ≤ c ∧ c < 0x110000 ∧ ∃ b0 b1 b2 b3 : UInt8, b0.toNat = 0xF0 + c / 262144 ∧
      b1.toNat = 0x80 + c / 4096 % 64 ∧ b2.toNat = 0x80 + c / 64 % 64 ∧ b3.toNat = 0x80 + c % 64 ∧ b = [b0, b1, b2, b3]) := by
  simp only [utf8Codec] at h
  split at h
  · simp at h; exact Or.inl ⟨by assumption, _, u8_toNat_ofNat (by omega), h.symm⟩
  · split at h
    · simp only [Option.some.injEq] at h
      exact Or.inr (Or.inl ⟨by omega, by assumption, _, _, u8_toNat_ofNat (by omega), u8_toNat_ofNat (by omega), h.symm⟩)
    · split at h
      · simp at h
      · rename_i hs
        rw [isSurrogate_iff] at hs
        split at h
        · simp only [Option.some.injEq] at h
          exact Or.inr (Or.inr (Or.inl ⟨by omega, by assumption, hs, _, _, _, u8_toNat_ofNat (by omega),
            u8_toNat_ofNat (by omega), u8_toNat_ofNat (by omega), h.symm⟩))
        · split at h
          · simp only [Option.some.injEq] at h
            exact Or.inr (Or.inr (Or.inr ⟨by omega, by assumption, _, _, _, _, u8_toNat_ofNat (by omega),
              u8_toNat_ofNat (by omega), u8_toNat_ofNat (by omega), u8_toNat_ofNat (by omega), h.symm⟩))
          · simp at h

theorem utf8_dec_enc {c : Nat} {b : Bytes} (h : utf8Codec.enc c = some b) (rest : Bytes) :
    utf8Codec.dec (b ++ rest) = .char c b.length := by
  rcases utf8_enc h with ⟨h1, b0, e0, rfl⟩ | ⟨h1, h2, b0, b1, e0, e1, rfl⟩ | ⟨h1, h2, h3, b0, b1, b2, e0, e1, e2, rfl⟩ |
    ⟨h1, h2, b0, b1, b2, b3, e0, e1, e2, e3, rfl⟩
  · simp [utf8Codec, e0, h1]
  · simp only [utf8Codec, List.cons_append, List.nil_append, List.length_cons, List.length_nil]
    rw [if_neg (by omega), if_neg (by omega), if_pos (by omega), if_pos (by simp only [isCont]; simp; omega)]
    rw [DecStep.char.injEq]; omega
  · simp only [utf8Codec, List.cons_append, List.nil_append, List.length_cons, List.length_nil]
    rw [if_neg (by omega), if_neg (by omega), if_neg (by omega), if_pos (by omega), if_pos (by simp only [isCont]; simp; omega),
      if_pos (by simp only [isCont]; simp; omega)]
    rw [DecStep.char.injEq]; omega
  · simp only [utf8Codec, List.cons_append, List.nil_append, List.length_cons, List.length_nil]
    rw [if_neg (by omega), if_neg (by omega), if_neg (by omega), if_neg (by omega), if_pos (by omega),
      if_pos (by simp only [isCont]; simp; omega), if_pos (by simp only [isCont]; simp; omega), if_pos (by simp only [isCont]; simp; omega)]
    rw [DecStep.char.injEq]; omega

theorem utf8_dec_prefix {c : Nat} {b : Bytes} (h : utf8Codec.enc c = some b) (p q : Bytes) (hpq : b = p ++ q)
    (hp : p ≠ []) (hq : q ≠ []) : utf8Codec.dec p = .more := by
  rcases utf8_enc h with ⟨h1, b0, e0, rfl⟩ | ⟨h1, h2, b0, b1, e0, e1, rfl⟩ | ⟨h1, h2, h3, b0, b1, b2, e0, e1, e2, rfl⟩ |
    ⟨h1, h2, b0, b1, b2, b3, e0, e1, e2, e3, rfl⟩
  · have h2 := List.length_pos_iff.2 hp
    have h3 := List.length_pos_iff.2 hq
    have := congrArg List.length hpq
    simp at this; omega
  · match p, q, hp, hq with
    | [a], q, _, _ =>
      simp only [List.cons_append, List.nil_append, List.cons.injEq] at hpq
      obtain ⟨rfl, -⟩ := hpq
      simp only [utf8Codec, e0]
      rw [if_neg (by omega), if_neg (by omega), if_pos (by omega)]
    | a :: a' :: p, y :: q, _, _ =>
      have := congrArg List.length hpq
      simp at this
  · match p, q, hp, hq with
    | [a], q, _, _ =>
      simp only [List.cons_append, List.nil_append, List.cons.injEq] at hpq
      obtain ⟨rfl, -⟩ := hpq
      simp only [utf8Codec, e0]
      rw [if_neg (by omega), if_neg (by omega), if_neg (by omega), if_pos (by omega)]
    | [a, a'], q, _, _ =>
      simp only [List.cons_append, List.nil_append, List.cons.injEq] at hpq
      obtain ⟨rfl, rfl, -⟩ := hpq
      simp only [utf8Codec, e0, e1, isCont]
      rw [if_neg (by omega), if_neg (by omega), if_neg (by omega), if_pos (by omega), if_pos (by simp; omega)]
    | a :: a' :: a'' :: p, y :: q, _, _ =>
      have := congrArg List.length hpq
      simp at this
  · match p, q, hp, hq with
    | [a], q, _, _ =>
      simp only [List.cons_append, List.nil_append, List.cons.injEq] at hpq
      obtain ⟨rfl, -⟩ := hpq
      simp only [utf8Codec, e0]
      rw [if_neg (by omega), if_neg (by omega), if_neg (by omega), if_neg (by omega), if_pos (by omega)]
    | [a, a'], q, _, _ =>
      simp only [List.cons_append, List.nil_append, List.cons.injEq] at hpq
      obtain ⟨rfl, rfl, -⟩ := hpq
      simp only [utf8Codec, e0, e1, isCont]
      rw [if_neg (by omega), if_neg (by omega), if_neg (by omega), if_neg (by omega), if_pos (by omega), if_pos (by simp; omega)]
    | [a, a', a''], q, _, _ =>
      simp only [List.cons_append, List.nil_append, List.cons.injEq] at hpq
      obtain ⟨rfl, rfl, rfl, -⟩ := hpq
      simp only [utf8Codec, e0, e1, e2, isCont]
      rw [if_neg (by omega), if_neg (by omega), if_neg (by omega), if_neg (by omega), if_pos (by omega), if_pos (by simp; omega),
        if_pos (by simp; omega)]
    | a :: a' :: a'' :: a''' :: p, y :: q, _, _ =>
      have := congrArg List.length hpq
      simp at this

theorem utf8_dec_canon {b : Bytes} {c n : Nat} (h : utf8Codec.dec b = .char c n) :
    n ≤ b.length ∧ utf8Codec.enc c = some (b.take n) := by
  cases b with
  | nil => simp [utf8Codec] at h
  | cons b0 r0 =>
    have hb0 := b0.toNat_lt
    simp only [utf8Codec] at h
    split at h
    · rename_i h0
      simp at h; obtain ⟨rfl, rfl⟩ := h
      simp [utf8Codec, h0]
    split at h
    · simp at h
    split at h
    · split at h
      · simp at h
      · rename_i b1 r1
        have hb1 := b1.toNat_lt
        split at h
        · rename_i hc
          rw [isCont_iff] at hc
          simp at h; obtain ⟨rfl, rfl⟩ := h
          refine ⟨by simp, ?_⟩
          simp only [utf8Codec]
          rw [if_neg (by omega), if_pos (by omega)]
          simp only [List.take_succ_cons, List.take_zero, Option.some.injEq, List.cons.injEq, and_true]
          exact ⟨u8_ofNat_eq (by omega), u8_ofNat_eq (by omega)⟩
        · simp at h
    split at h
    · split at h
      · simp at h
      · rename_i b1 r1
        have hb1 := b1.toNat_lt
        split at h
        · rename_i hc
          split at h
          · simp at h
          · rename_i b2 r2
            have hb2 := b2.toNat_lt
            split at h
            · rename_i hc2
              simp only [Bool.and_eq_true, Bool.or_eq_true, bne_iff_ne, ne_eq, decide_eq_true_eq, isCont_iff] at hc hc2
              simp at h; obtain ⟨rfl, rfl⟩ := h
              refine ⟨by simp, ?_⟩
              simp only [utf8Codec]
              rw [if_neg (by omega), if_neg (by omega), if_neg (by rw [isSurrogate_iff]; omega), if_pos (by omega)]
              simp only [List.take_succ_cons, List.take_zero, Option.some.injEq, List.cons.injEq, and_true]
              exact ⟨u8_ofNat_eq (by omega), u8_ofNat_eq (by omega), u8_ofNat_eq (by omega)⟩
            · simp at h
        · simp at h
    split at h
    · split at h
      · simp at h
      · rename_i b1 r1
        have hb1 := b1.toNat_lt
        split at h
        · rename_i hc
          split at h
          · simp at h
          · rename_i b2 r2
            have hb2 := b2.toNat_lt
            split at h
            · rename_i hc2
              split at h
              · simp at h
              · rename_i b3 r3
                have hb3 := b3.toNat_lt
                split at h
                · rename_i hc3
                  simp only [Bool.and_eq_true, Bool.or_eq_true, bne_iff_ne, ne_eq, decide_eq_true_eq, isCont_iff] at hc hc2 hc3
                  simp at h; obtain ⟨rfl, rfl⟩ := h
                  refine ⟨by simp, ?_⟩
                  simp only [utf8Codec]
                  rw [if_neg (by omega), if_neg (by omega), if_neg (by rw [isSurrogate_iff]; omega), if_neg (by omega), if_pos (by omega)]
                  simp only [List.take_succ_cons, List.take_zero, Option.some.injEq, List.cons.injEq, and_true]
                  exact ⟨u8_ofNat_eq (by omega), u8_ofNat_eq (by omega), u8_ofNat_eq (by omega), u8_ofNat_eq (by omega)⟩
                · simp at h
            · simp at h
        · simp at h
    · simp at h

theorem utf8Codec_lawful : Lawful utf8Codec where
  enc_ne h := by rcases utf8_enc h with ⟨_, _, _, rfl⟩ | ⟨_, _, _, _, _, _, rfl⟩ | ⟨_, _, _, _, _, _, _, _, _, rfl⟩ |
    ⟨_, _, _, _, _, _, _, _, _, _, rfl⟩ <;> simp
  dec_enc h := utf8_dec_enc h
  dec_prefix h := utf8_dec_prefix h
  dec_canon h := utf8_dec_canon h
  enc_nul := by decide

/-! ### UTF-16 -/

theorem unit16_two (e : Endian) (u : Nat) (hu : u < 65536) : ∃ a b, unit16 e u = [a, b] ∧ unit16Val e a b = u := by
  have h1 := u8_toNat_ofNat (show u % 256 < 256 by omega)
  have h2 := u8_toNat_ofNat (show u / 256 < 256 by omega)
  cases e
  · exact ⟨_, _, rfl, by simp only [unit16Val, h1, h2]; omega⟩
  · exact ⟨_, _, rfl, by simp only [unit16Val, h1, h2]; omega⟩

theorem unit16_val (e : Endian) (a b : UInt8) : unit16 e (unit16Val e a b) = [a, b] ∧ unit16Val e a b < 65536 := by
  have ha := a.toNat_lt
  have hb := b.toNat_lt
  cases e with
  | little =>
    refine ⟨?_, by simp [unit16Val]; omega⟩
    have e1 : UInt8.ofNat ((a.toNat + 256 * b.toNat) % 256) = a := u8_ofNat_eq (by omega)
    have e2 : UInt8.ofNat ((a.toNat + 256 * b.toNat) / 256) = b := u8_ofNat_eq (by omega)
    simp only [unit16, unit16Val, e1, e2]; rfl
  | big =>
    refine ⟨?_, by simp [unit16Val]; omega⟩
    have e1 : UInt8.ofNat ((b.toNat + 256 * a.toNat) % 256) = b := u8_ofNat_eq (by omega)
    have e2 : UInt8.ofNat ((b.toNat + 256 * a.toNat) / 256) = a := u8_ofNat_eq (by omega)
    simp only [unit16, unit16Val, e1, e2]; rfl

theorem utf16_enc {e : Endian} {c : Nat} {b : Bytes} (h : (utf16Codec e).enc c = some b) :
    (c < 0x10000 ∧ ¬ (0xD800 ≤ c ∧ c < 0xE000) ∧ b = unit16 e c) ∨
    (0x10000 ≤ c ∧ c < 0x110000 ∧
      b = unit16 e (0xD800 + (c - 0x10000) / 1024) ++ unit16 e (0xDC00 + (c - 0x10000) % 1024)) := by
  simp only [utf16Codec] at h
  split at h
  · simp at h
  · rename_i hs
    rw [isSurrogate_iff] at hs
    split at h
    · simp at h; exact Or.inl ⟨by assumption, hs, h.symm⟩
    · split at h
      · simp only [Option.some.injEq] at h; exact Or.inr ⟨by omega, by assumption, h.symm⟩
      · simp at h

theorem utf16Codec_lawful (e : Endian) : Lawful (utf16Codec e) where
  enc_ne {c b} h := by
    rcases utf16_enc h with ⟨h1, _, rfl⟩ | ⟨h1, h2, rfl⟩
    · obtain ⟨x, y, h3, -⟩ := unit16_two e c h1; rw [h3]; simp
    · obtain ⟨x, y, h3, -⟩ := unit16_two e (0xD800 + (c - 0x10000) / 1024) (by omega); rw [h3]; simp
  dec_enc {c b} h rest := by
    rcases utf16_enc h with ⟨h1, h2, rfl⟩ | ⟨h1, h2, rfl⟩
    · obtain ⟨x, y, h3, h4⟩ := unit16_two e c h1
      rw [h3]
      simp only [utf16Codec, List.cons_append, List.nil_append, h4, List.length_cons, List.length_nil]
      rw [if_neg (by rw [isSurrogate_iff]; exact h2)]
    · obtain ⟨x, y, h3, h4⟩ := unit16_two e (0xD800 + (c - 0x10000) / 1024) (by omega)
      obtain ⟨z, w, h5, h6⟩ := unit16_two e (0xDC00 + (c - 0x10000) % 1024) (by omega)
      rw [h3, h5]
      simp only [utf16Codec, List.cons_append, List.nil_append, h4, h6, List.length_cons, List.length_nil]
      rw [if_pos (by rw [isSurrogate_iff]; omega), if_pos (by omega), if_pos (by simp [isSurrogate]; omega)]
      rw [DecStep.char.injEq]; omega
  dec_prefix {c b} h p q hpq hp hq := by
    rcases utf16_enc h with ⟨h1, h2, rfl⟩ | ⟨h1, h2, rfl⟩
    · obtain ⟨x, y, h3, h4⟩ := unit16_two e c h1
      rw [h3] at hpq
      match p, q, hp, hq with
      | [a], q, _, _ => simp [utf16Codec]
      | a :: a' :: p, y :: q, _, _ =>
        have := congrArg List.length hpq
        simp at this
    · obtain ⟨x, y, h3, h4⟩ := unit16_two e (0xD800 + (c - 0x10000) / 1024) (by omega)
      obtain ⟨z, w, h5, h6⟩ := unit16_two e (0xDC00 + (c - 0x10000) % 1024) (by omega)
      rw [h3, h5] at hpq
      match p, q, hp, hq with
      | [a], q, _, _ => simp [utf16Codec]
      | [a, a'], q, _, _ =>
        simp at hpq
        obtain ⟨rfl, rfl, -⟩ := hpq
        simp only [utf16Codec, h4]
        rw [if_pos (by rw [isSurrogate_iff]; omega), if_pos (by omega)]
      | [a, a', a''], q, _, _ =>
        simp at hpq
        obtain ⟨rfl, rfl, rfl, -⟩ := hpq
        simp only [utf16Codec, h4]
        rw [if_pos (by rw [isSurrogate_iff]; omega), if_pos (by omega)]
      | a :: a' :: a'' :: a''' :: p, y :: q, _, _ =>
        have := congrArg List.length hpq
        simp at this
  dec_canon {b c n} h := by
    match b with
    | [] => simp [utf16Codec] at h
    | [a] => simp [utf16Codec] at h
    | a :: b' :: r =>
      obtain ⟨h1, h2⟩ := unit16_val e a b'
      simp only [utf16Codec] at h
      split at h
      · rename_i hs
        rw [isSurrogate_iff] at hs
        split at h
        · split at h
          · rename_i a' b'' r' 
            obtain ⟨h3, h4⟩ := unit16_val e a' b''
            split at h
            · rename_i hs2
              simp [isSurrogate] at hs2
              simp at h; obtain ⟨rfl, rfl⟩ := h
              refine ⟨by simp, ?_⟩
              simp only [utf16Codec]
              rw [if_neg (by rw [isSurrogate_iff]; omega), if_neg (by omega), if_pos (by omega)]
              have e1 : 0xD800 + (0x10000 + (unit16Val e a b' - 0xD800) * 1024 + (unit16Val e a' b'' - 0xDC00) - 0x10000) / 1024 =
                  unit16Val e a b' := by omega
              have e2 : 0xDC00 + (0x10000 + (unit16Val e a b' - 0xD800) * 1024 + (unit16Val e a' b'' - 0xDC00) - 0x10000) % 1024 =
                  unit16Val e a' b'' := by omega
              rw [e1, e2, h1, h3]
              simp
            · simp at h
          · simp at h
        · simp at h
      · rename_i hs
        simp at h; obtain ⟨rfl, rfl⟩ := h
        refine ⟨by simp, ?_⟩
        simp only [utf16Codec]
        rw [if_neg hs, if_pos h2, h1]
        simp
  enc_nul := by cases e <;> decide

/-! ### UTF-32 -/

theorem utf32_four (e : Endian) (u : Nat) (hu : u < 2 ^ 32) :
    ∃ a b c d, e.arrange (natToLE 4 u) = [a, b, c, d] ∧ natOfLE (e.arrange [a, b, c, d]) = u := by
  have hl : (e.arrange (natToLE 4 u)).length = 4 := by simp [natToLE_length]
  match hx : e.arrange (natToLE 4 u), hl with
  | [a, b, c, d], _ =>
    refine ⟨a, b, c, d, rfl, ?_⟩
    rw [← hx, Endian.arrange_arrange, natOfLE_natToLE]
    exact Nat.mod_eq_of_lt (by simpa using hu)

theorem utf32Codec_lawful (e : Endian) : Lawful (utf32Codec e) where
  enc_ne {c b} h := by
    simp [utf32Codec] at h
    obtain ⟨⟨-, h1⟩, rfl⟩ := h
    obtain ⟨x, y, z, w, h3, -⟩ := utf32_four e c (by omega); rw [h3]; simp
  dec_enc {c b} h rest := by
    simp [utf32Codec] at h
    obtain ⟨⟨h0, h1⟩, rfl⟩ := h
    obtain ⟨x, y, z, w, h3, h4⟩ := utf32_four e c (by omega)
    rw [h3]
    simp only [utf32Codec, List.cons_append, List.nil_append, h4, List.length_cons, List.length_nil]
    rw [if_neg (by simp [h0]; omega)]
  dec_prefix {c b} h p q hpq hp hq := by
    simp [utf32Codec] at h
    obtain ⟨⟨h0, h1⟩, rfl⟩ := h
    obtain ⟨x, y, z, w, h3, h4⟩ := utf32_four e c (by omega)
    rw [h3] at hpq
    match p, q, hp, hq with
    | [a], q, _, _ => simp [utf32Codec]
    | [a, a'], q, _, _ => simp [utf32Codec]
    | [a, a', a''], q, _, _ => simp [utf32Codec]
    | a :: a' :: a'' :: a''' :: p, y :: q, _, _ =>
      have := congrArg List.length hpq
      simp at this
  dec_canon {b c n} h := by
    match b with
    | [] => simp [utf32Codec] at h
    | [_] => simp [utf32Codec] at h
    | [_, _] => simp [utf32Codec] at h
    | [_, _, _] => simp [utf32Codec] at h
    | x :: y :: z :: w :: r =>
      simp only [utf32Codec] at h ⊢
      split at h
      · simp at h
      · rename_i hs
        simp at h; obtain ⟨rfl, rfl⟩ := h
        refine ⟨by simp, ?_⟩
        rw [if_neg hs]
        have := natToLE_natOfLE (e.arrange [x, y, z, w])
        rw [Endian.length_arrange] at this
        simp only [List.length_cons, List.length_nil] at this
        rw [this, Endian.arrange_arrange]
        simp
  enc_nul := by cases e <;> decide

theorem charmap_enc {table : UInt8 → Option Nat} {c : Nat} {bs : Bytes} (h : (charmapCodec table).enc c = some bs) :
    ∃ b, bs = [b] ∧ table b = some c := by
  simp only [charmapCodec, Option.map_eq_some_iff] at h
  obtain ⟨b, hb, rfl⟩ := h
  exact ⟨b, rfl, by simpa using List.find?_some hb⟩

theorem charmap_enc_of {table : UInt8 → Option Nat} (hi : ∀ a b c, table a = some c → table b = some c → a = b) {a : UInt8} {c : Nat}
    (h : table a = some c) : (charmapCodec table).enc c = some [a] := by
  have hm : a ∈ ((List.range 256).map UInt8.ofNat).reverse :=
    List.mem_reverse.2 <| List.mem_map.2 ⟨a.toNat, List.mem_range.2 a.toNat_lt, by simp⟩
  simp only [charmapCodec]
  cases hf : ((List.range 256).map UInt8.ofNat).reverse.find? fun b => decide (table b = some c) with
  | none =>
    have := List.find?_eq_none.1 hf a hm
    simp [h] at this
  | some b =>
    have hb : table b = some c := by simpa using List.find?_some hf
    rw [hi b a c hb h]
    rfl

theorem charmapCodec_lawful {table : UInt8 → Option Nat} (hi : ∀ a b c, table a = some c → table b = some c → a = b)
    (h0 : ∃ a, table a = some 0) : Lawful (charmapCodec table) where
  enc_ne h := by obtain ⟨b, rfl, -⟩ := charmap_enc h; simp
  dec_enc {c b} h rest := by
    obtain ⟨a, rfl, ha⟩ := charmap_enc h
    simp [charmapCodec, ha]
  dec_prefix {c b} h p q hpq hp hq := by
    obtain ⟨a, rfl, -⟩ := charmap_enc h
    have := congrArg List.length hpq
    have h2 := List.length_pos_iff.2 hp
    have h3 := List.length_pos_iff.2 hq
    simp at this; omega
  dec_canon {b c n} h := by
    cases b with
    | nil => simp [charmapCodec] at h
    | cons a r =>
      simp only [charmapCodec] at h
      split at h
      · rename_i x hx
        simp at h; obtain ⟨rfl, rfl⟩ := h
        exact ⟨by simp, by rw [charmap_enc_of hi hx]; simp⟩
      · simp at h
  enc_nul := by
    obtain ⟨a, ha⟩ := h0
    rw [charmap_enc_of hi ha]; rfl

theorem supported_lawful {k : CharCodec} (h : Supported k) : Lawful k := by
  cases h with
  | ascii => exact asciiCodec_lawful
  | latin1 => exact latin1Codec_lawful
  | charmap hi h0 => exact charmapCodec_lawful hi h0
  | utf8 => exact utf8Codec_lawful
  | utf16 e => exact utf16Codec_lawful e
  | utf32 e => exact utf32Codec_lawful e

end Verif
