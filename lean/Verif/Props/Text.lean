import Verif.Proofs.Text
import Verif.Spec.Samples
import Verif.Model.Struct

/-!
# Properties of text and byte-string fields

C45 - C49, C51, C65.
-/

namespace Verif
open Spec

/-! ## C51: codecs -/

/-- **C51** Decoding an encoded string gives it back, also when the decoder is fed byte by byte. -/
theorem C51_codec_round_trip (k : CharCodec) (hk : Supported k) (t : List Nat) (code : Bytes) (h : k.encode t = .ok code) :
    k.decode code = .ok t ∧ feedBytes k [] code = .ok (t, []) :=
  ⟨decode_encode (supported_lawful hk) h, feedBytes_encode (supported_lawful hk) h⟩

/-- **C51** The decoders are strict: what they accept is the encoding of what they return.  (So no two strings share an
encoding, and no string has two.) -/
theorem C51_codec_strict (k : CharCodec) (hk : Supported k) (t : List Nat) (code : Bytes) (h : k.decode code = .ok t) :
    k.encode t = .ok code := decode_sound (supported_lawful hk) h

/-- **C51** What can be encoded: ASCII below 128, Latin-1 below 256, the UTFs every code point that is not a surrogate. -/
theorem C51_encodable (c : Nat) (e : Endian) :
    ((asciiCodec.enc c).isSome ↔ c < 128) ∧ ((latin1Codec.enc c).isSome ↔ c < 256) ∧
    ((utf8Codec.enc c).isSome ↔ c < 0x110000 ∧ ¬ (0xD800 ≤ c ∧ c ≤ 0xDFFF)) ∧
    (((utf16Codec e).enc c).isSome ↔ c < 0x110000 ∧ ¬ (0xD800 ≤ c ∧ c ≤ 0xDFFF)) ∧
    (((utf32Codec e).enc c).isSome ↔ c < 0x110000 ∧ ¬ (0xD800 ≤ c ∧ c ≤ 0xDFFF)) := by
  refine ⟨?_, ?_, ?_, ?_, ?_⟩
  · simp [asciiCodec]
  · simp [latin1Codec]
  · simp only [utf8Codec]
    by_cases hs : isSurrogate c = true
    · have := isSurrogate_iff.1 hs
      rw [if_neg (by omega), if_neg (by omega), if_pos hs]
      simp; omega
    · have h1 := mt isSurrogate_iff.2 hs
      split
      · simp; omega
      · split
        · simp; omega
        · split
          · simp; omega
          · split
            · simp; omega
            · simp; omega
  · simp only [utf16Codec]
    by_cases hs : isSurrogate c = true
    · have := isSurrogate_iff.1 hs
      rw [if_pos hs]
      simp; omega
    · have h1 := mt isSurrogate_iff.2 hs
      rw [if_neg hs]
      split
      · simp; omega
      · split
        · simp; omega
        · simp; omega
  · simp [utf32Codec, isSurrogate]; omega

/-- **C51** Code pages: a character is encoded as a byte that stands for it, if there is one; bytes without meaning cannot be decoded. -/
theorem C51_code_page (table : UInt8 → Option Nat) :
    (∀ c bs, (charmapCodec table).enc c = some bs → ∃ a, bs = [a] ∧ table a = some c) ∧
    (∀ c, ((charmapCodec table).enc c).isSome ↔ ∃ a, table a = some c) ∧
    (∀ a, (charmapCodec table).decode [a] = match table a with
      | some c => .ok [c]
      | none => .error .unicodeErr) := by
  refine ⟨fun c bs h => charmap_enc h, fun c => ⟨fun h => ?_, fun ⟨a, ha⟩ => ?_⟩, fun a => ?_⟩
  · obtain ⟨bs, h⟩ := Option.isSome_iff_exists.1 h
    obtain ⟨a, -, ha⟩ := charmap_enc h
    exact ⟨a, ha⟩
  · simp only [charmapCodec, Option.isSome_map, List.find?_isSome, List.mem_reverse, List.mem_map, List.mem_range]
    exact ⟨a, ⟨a.toNat, a.toNat_lt, by simp⟩, by simp [ha]⟩
  · simp only [CharCodec.decode, CharCodec.feed, List.length_singleton, CharCodec.decodeSome, charmapCodec]
    cases table a <;> rfl

/-- **C51** Every code page gives back what was encoded, also one with several bytes for one character … -/
theorem C51_code_page_round_trip (table : UInt8 → Option Nat) (t : List Nat) (code : Bytes) (h : (charmapCodec table).encode t = .ok code) :
    (charmapCodec table).decode code = .ok t := by
  have key : (charmapCodec table).feed code = .ok (t, []) := by
    unfold CharCodec.feed
    induction t generalizing code with
    | nil => simp [CharCodec.encode] at h; subst h; rfl
    | cons c cs ih =>
      simp only [CharCodec.encode] at h
      cases hc : (charmapCodec table).enc c with
      | none => simp [hc] at h
      | some b0 =>
        cases hcs : (charmapCodec table).encode cs with
        | error e => simp [hc, hcs] at h
        | ok bs =>
          simp [hc, hcs] at h
          subst h
          obtain ⟨a, rfl, ha⟩ := charmap_enc hc
          have := ih bs hcs
          simp [CharCodec.decodeSome, show (charmapCodec table).dec (a :: bs) = .char c 1 by simp [charmapCodec, ha], this]
  simp [CharCodec.decode, key]

/-- … but such a code page is not strict: in cp875 (Greek EBCDIC) 3F, DC, E1, EC, ED, FC and FD all stand for U+001A, and text with any of
them is saved with FD. -/
theorem C51_code_page_strict_refuted : ∃ table : UInt8 → Option Nat, ∃ t,
    (charmapCodec table).decode [0x3F] = .ok t ∧ (charmapCodec table).encode t = .ok [0xFD] := by
  let dup : UInt8 → Option Nat := fun b => if b ∈ [0x3F, 0xDC, 0xE1, 0xEC, 0xED, 0xFC, 0xFD] then some 0x1A else none
  exact ⟨dup, [0x1A], by decide +kernel, by decide +kernel⟩

namespace Sample

/-- Windows code page 1252. -/
def cp1252 (b : UInt8) : Option Nat :=
  if 0x80 ≤ b.toNat ∧ b.toNat < 0xA0 then
    let c := [0x20AC, 0, 0x201A, 0x0192, 0x201E, 0x2026, 0x2020, 0x2021, 0x02C6, 0x2030, 0x0160, 0x2039, 0x0152, 0, 0x017D, 0,
      0, 0x2018, 0x2019, 0x201C, 0x201D, 0x2022, 0x2013, 0x2014, 0x02DC, 0x2122, 0x0161, 0x203A, 0x0153, 0, 0x017E, 0x0178].getD (b.toNat - 0x80) 0
    if c = 0 then none else some c
  else some b.toNat

theorem cp1252_supported : Supported (charmapCodec cp1252) := by
  refine .charmap ?_ ⟨0, by decide⟩
  have h : ∀ i : Fin 256, ∀ c, cp1252 (UInt8.ofNat i.1) = some c → ∀ j : Fin 256, cp1252 (UInt8.ofNat j.1) = some c → i = j := by
    have : ∀ i : Fin 256, ∀ j : Fin 256, (cp1252 (UInt8.ofNat i.1)).isSome = true → cp1252 (UInt8.ofNat i.1) = cp1252 (UInt8.ofNat j.1) → i = j := by
      decide +kernel
    intro i c hi j hj
    exact this i j (by rw [hi]; rfl) (hi.trans hj.symm)
  intro a b c ha hb
  have := h ⟨a.toNat, a.toNat_lt⟩ c (by simpa using ha) ⟨b.toNat, b.toNat_lt⟩ (by simpa using hb)
  exact UInt8.toNat_inj.1 (congrArg Fin.val this)

end Sample

-- "5 €" in cp1252; 81 is not a character there
example : (charmapCodec Sample.cp1252).encode [0x35, 0x20, 0x20AC] = .ok [0x35, 0x20, 0x80] ∧
    (charmapCodec Sample.cp1252).decode [0x35, 0x20, 0x80] = .ok [0x35, 0x20, 0x20AC] ∧
    (charmapCodec Sample.cp1252).decode [0x81] = .error .unicodeErr := by decide +kernel
-- "aé€😀" in UTF-8, and in UTF-16-BE
example : utf8Codec.encode [0x61, 0xE9, 0x20AC, 0x1F600] =
      .ok [0x61, 0xC3, 0xA9, 0xE2, 0x82, 0xAC, 0xF0, 0x9F, 0x98, 0x80] ∧
    (utf16Codec .big).encode [0x61, 0x1F600] = .ok [0x00, 0x61, 0xD8, 0x3D, 0xDE, 0x00] := by decide
example : feedBytes utf8Codec [] [0xE2, 0x82, 0xAC, 0x41] = .ok ([0x20AC, 0x41], []) := by decide
example : utf8Codec.decode [0xC0, 0x80] = .error .unicodeErr := by decide

/-! ## C45, C46, C48: `StringZ` -/

/-- The size a `StringZ` (or any field without children) without `size` and without a default works with while it loads. -/
theorem leafExpectedSize_undefined {b : FieldBase} {k : Leaf} {loaded : Dict} (hsize : b.size = .none)
    (hdef : b.default = .ok .undefined) (hfirst : Dict.get? loaded b.name = none) :
    leafExpectedSize b k loaded = .error (.undefinedSize b.name) := by
  simp [leafExpectedSize, FieldBase.expectedSizeWith, hsize, FieldBase.sizingValue, hfirst, hdef]

theorem encode_terminated {k : CharCodec} (hk : Supported k) {t : List Nat} {code : Bytes} (h : k.encode t = .ok code) :
    ∃ term, k.encode [0] = .ok term ∧ term ≠ [] ∧ k.encode (t ++ [0]) = .ok (code ++ term) := by
  have hz := (supported_lawful hk).enc_nul
  cases h0 : k.enc 0 with
  | none => simp [h0] at hz
  | some z =>
    refine ⟨z, by simp [CharCodec.encode, h0], (supported_lawful hk).enc_ne h0, ?_⟩
    rw [encode_append, h]
    simp [Except.bind, CharCodec.encode, h0, Except.map]

/-- **C45** Every string without NUL that the encoding can encode round-trips through an unsized `StringZ` (without a default):
it is written as its encoding and a terminator, and loading gives it back from wherever these bytes are, consuming exactly
them. -/
theorem C45_stringz_round_trip (Γ : Classes) (n : Nat) (b : FieldBase) (k : CharCodec) (pad : Option UInt8) (t : List Nat)
    (code : Bytes) (ctx : Value) (all loaded : Dict) (hk : Supported k) (hplain : Plain b (.str t)) (hsize : b.size = .none)
    (hdef : b.default = .ok .undefined) (hfirst : Dict.get? loaded b.name = none) (hnul : 0 ∉ t)
    (hcode : k.encode t = .ok code) :
    ∃ term, k.encode [0] = .ok term ∧
      fieldToStream Γ (n + 1) (.leaf b (.stringz k pad)) (.str t) ctx all = (code ++ term, .ok ()) ∧
      ∀ pre rest, fieldFromStream Γ (n + 2) (.leaf b (.stringz k pad)) ⟨pre ++ (code ++ term) ++ rest, pre.length⟩ ctx loaded =
        (.ok (.str t), ⟨pre ++ (code ++ term) ++ rest, pre.length + (code ++ term).length⟩) := by
  obtain ⟨term, h1, h2, h3⟩ := encode_terminated hk hcode
  refine ⟨term, h1, ?_, ?_⟩
  · apply fieldToStream_plain (f := .leaf b (.stringz k pad)) (by simp) (by simp) (by simp) hplain.2.2.2 (Or.inl hsize)
    simp [fieldDoDump, leafDump, h3, W.ofExcept, W.ok]
  · intro pre rest
    apply fieldFromStream_plain (f := .leaf b (.stringz k pad)) hplain
    simp only [fieldDoLoad, leafLoad, leafExpectedSize_undefined hsize hdef hfirst]
    have hr : (⟨pre ++ (code ++ term) ++ rest, pre.length⟩ : Stream).rest = (code ++ term) ++ rest := by
      simp [Stream.rest, List.append_assoc]
    rw [stringzLoop_reads (supported_lawful hk) (code ++ term) _ 0 [] [] _ t rest (Or.inl rfl) hnul (by simpa using h3) hr
      (by rw [hr]; simp) (by simp [h2]) (by simp)]
    simp [R.map, Except.map]

/-- **C45** A string with a NUL in it is written whole, but loads back as the part before the first NUL; the rest stays in the
stream. -/
theorem C45_embedded_nul (Γ : Classes) (n : Nat) (b : FieldBase) (k : CharCodec) (pad : Option UInt8) (t u : List Nat)
    (bs : Bytes) (ctx : Value) (all loaded : Dict) (hk : Supported k) (hw : Plain b (.str (t ++ 0 :: u))) (hr : Plain b (.str t))
    (hsize : b.size = .none) (hdef : b.default = .ok .undefined) (hfirst : Dict.get? loaded b.name = none) (hnul : 0 ∉ t)
    (hbs : k.encode (t ++ 0 :: u ++ [0]) = .ok bs) :
    fieldToStream Γ (n + 1) (.leaf b (.stringz k pad)) (.str (t ++ 0 :: u)) ctx all = (bs, .ok ()) ∧
    ∃ head tail, k.encode (t ++ [0]) = .ok head ∧ bs = head ++ tail ∧
      ∀ pre rest, fieldFromStream Γ (n + 2) (.leaf b (.stringz k pad)) ⟨pre ++ bs ++ rest, pre.length⟩ ctx loaded =
        (.ok (.str t), ⟨pre ++ bs ++ rest, pre.length + head.length⟩) := by
  constructor
  · apply fieldToStream_plain (f := .leaf b (.stringz k pad)) (by simp) (by simp) (by simp) hw.2.2.2 (Or.inl hsize)
    simp [fieldDoDump, leafDump, W.ofExcept, W.ok, show k.encode (t ++ 0 :: (u ++ [0])) = .ok bs by simpa using hbs]
  · have : t ++ 0 :: u ++ [0] = (t ++ [0]) ++ (u ++ [0]) := by simp
    rw [this] at hbs
    obtain ⟨head, tail, h1, h2, rfl⟩ := encode_append_ok hbs
    refine ⟨head, tail, h1, rfl, ?_⟩
    intro pre rest
    apply fieldFromStream_plain (f := .leaf b (.stringz k pad)) hr
    simp only [fieldDoLoad, leafLoad, leafExpectedSize_undefined hsize hdef hfirst]
    have hrest : (⟨pre ++ (head ++ tail) ++ rest, pre.length⟩ : Stream).rest = head ++ (tail ++ rest) := by
      simp [Stream.rest, List.append_assoc]
    have hne : head ≠ [] := by
      obtain ⟨a, c, -, h3, rfl⟩ := encode_append_ok h1
      obtain ⟨term, h4, h5, -⟩ := encode_terminated hk (t := []) (code := []) rfl
      rw [h3] at h4; simp at h4; simp [h4, h5]
    rw [stringzLoop_reads (supported_lawful hk) head _ 0 [] [] _ t (tail ++ rest) (Or.inl rfl) hnul (by simpa using h1) hrest
      (by rw [hrest]; simp) hne (by simp)]
    simp [R.map, Except.map]

-- "h\xE9" in UTF-8, followed by other bytes
example : fieldToStream Sample.noClasses 1 (Sample.strz "s") (.str [0x68, 0xE9]) .none [] = ([0x68, 0xC3, 0xA9, 0x00], .ok ()) ∧
    fieldFromStream Sample.noClasses 2 (Sample.strz "s") ⟨[0x07, 0x68, 0xC3, 0xA9, 0x00, 0xFF], 1⟩ .none [] =
      (.ok (.str [0x68, 0xE9]), ⟨[0x07, 0x68, 0xC3, 0xA9, 0x00, 0xFF], 5⟩) := by decide
-- "a\0b" loads as "a"
example : fieldToStream Sample.noClasses 1 (Sample.strz "s") (.str [0x61, 0, 0x62]) .none [] = ([0x61, 0, 0x62, 0], .ok ()) ∧
    fieldFromStream Sample.noClasses 2 (Sample.strz "s") ⟨[0x61, 0, 0x62, 0], 0⟩ .none [] =
      (.ok (.str [0x61]), ⟨[0x61, 0, 0x62, 0], 2⟩) := by decide

/-- **C46** A present `StringZ` only ever returns a string whose encoding, followed by a terminator, is in the stream at the current
position - all of it within the size, if there is one - and consumes exactly that.  So it never returns a truncated string. -/
theorem C46_terminator_required (Γ : Classes) (n : Nat) (b : FieldBase) (k : CharCodec) (pad : Option UInt8) (s s' : Stream)
    (ctx : Value) (loaded : Dict) (txt : List Nat) (hk : Supported k)
    (hpresent : b.present loaded.view ctx (some s) = .ok true)
    (h : fieldFromStream Γ n (.leaf b (.stringz k pad)) s ctx loaded = (.ok (.str txt), s')) :
    ∃ used rest, s.rest = used ++ rest ∧ k.encode (txt ++ [0]) = .ok used ∧ 0 ∉ txt ∧ s' = ⟨s.data, s.pos + used.length⟩ ∧
      ∀ m, DeclaredSize (.leaf b (.stringz k pad)) loaded m → (used.length : Int) ≤ m := by
  cases n with
  | zero => simp [fieldFromStream] at h
  | succ n =>
    rcases fieldFromStream_ok h with ⟨h1, -, -⟩ | ⟨-, -, ⟨-, h2, -⟩ | ⟨w, h2, h3⟩⟩
    · simp [Field.base, hpresent] at h1
    · simp at h2
    · rcases h3 with rfl | ⟨h3, -⟩
      · cases n with
        | zero => simp [fieldDoLoad] at h2
        | succ n =>
          simp only [fieldDoLoad, leafLoad] at h2
          have key : ∀ max, R.map (stringzLoop b.name k max s.rest.length 0 [] [] s) Value.str = (.ok (.str txt), s') →
              ∃ used rest, s.rest = used ++ rest ∧ k.encode (txt ++ [0]) = .ok used ∧ 0 ∉ txt ∧
                s' = ⟨s.data, s.pos + used.length⟩ ∧ ∀ m, max = some m → (used.length : Int) ≤ m := by
            intro max hl
            rcases hg : stringzLoop b.name k max s.rest.length 0 [] [] s with ⟨r, s2⟩
            rw [hg] at hl
            cases r with
            | error e => simp [R.map, Except.map] at hl
            | ok u =>
              simp [R.map, Except.map] at hl
              obtain ⟨rfl, rfl⟩ := hl
              obtain ⟨t, used, rest, h4, h5, h6, h7, h8, h9⟩ := stringzLoop_ok (supported_lawful hk) _ _ _ _ _ _ _ (Or.inl rfl) hg
              simp at h4; subst h4
              exact ⟨used, rest, h7, by simpa using h6, h5, h8, by simpa using h9⟩
          split at h2
          · rename_i m hm
            obtain ⟨used, rest, h4, h5, h6, h7, h8⟩ := key _ h2
            refine ⟨used, rest, h4, h5, h6, h7, ?_⟩
            intro m' hm'
            rw [leafExpectedSize_declared hm'] at hm
            simp at hm
            subst hm
            exact h8 _ rfl
          · rename_i e he
            obtain ⟨used, rest, h4, h5, h6, h7, h8⟩ := key _ h2
            refine ⟨used, rest, h4, h5, h6, h7, ?_⟩
            intro m' hm'
            rw [leafExpectedSize_declared hm'] at he
            simp at he
          · simp at h2
      · simp at h3

/-- **C46** If no encoded string with a terminator is at the current position (within the size, if there is one), loading the field
raises. -/
theorem C46_missing_terminator_raises (Γ : Classes) (n : Nat) (b : FieldBase) (k : CharCodec) (pad : Option UInt8) (s : Stream)
    (ctx : Value) (loaded : Dict) (hk : Supported k) (hplain : ∀ w c st, b.present w c st = .ok true)
    (hnull : b.nullValue = .undefined)
    (hmissing : ∀ txt used rest, s.rest = used ++ rest → k.encode (txt ++ [0]) = .ok used → 0 ∉ txt →
      ∃ m, DeclaredSize (.leaf b (.stringz k pad)) loaded m ∧ m < used.length) :
    ∃ e, (fieldFromStream Γ n (.leaf b (.stringz k pad)) s ctx loaded).1 = .error e := by
  rcases hg : fieldFromStream Γ n (.leaf b (.stringz k pad)) s ctx loaded with ⟨r, s'⟩
  cases r with
  | error e => exact ⟨e, rfl⟩
  | ok v =>
    exfalso
    have hstr : ∃ txt, v = .str txt := by
      cases n with
      | zero => simp [fieldFromStream] at hg
      | succ n =>
        rcases fieldFromStream_ok hg with ⟨h1, -, -⟩ | ⟨-, -, ⟨h2, -, -⟩ | ⟨w, h2, h3⟩⟩
        · simp [Field.base, hplain] at h1
        · simp [Field.base, FieldBase.allowNull, hnull] at h2
        · rcases h3 with rfl | ⟨-, h3⟩
          · cases n with
            | zero => simp [fieldDoLoad] at h2
            | succ n =>
              simp only [fieldDoLoad, leafLoad] at h2
              have key : ∀ r : R (List Nat), R.map r Value.str = (.ok v, s') → ∃ txt, v = .str txt := by
                rintro ⟨r, st⟩ h
                cases r with
                | error e => simp [R.map, Except.map] at h
                | ok t => simp [R.map, Except.map] at h; exact ⟨t, h.1.symm⟩
              split at h2
              · exact key _ h2
              · exact key _ h2
              · simp at h2
          · simp [Field.base, FieldBase.allowNull, hnull] at h3
    obtain ⟨txt, rfl⟩ := hstr
    obtain ⟨used, rest, h1, h2, h3, -, h5⟩ := C46_terminator_required Γ n b k pad s s' ctx loaded txt hk (hplain _ _ _) hg
    obtain ⟨m, h6, h7⟩ := hmissing txt used rest h1 h2 h3
    have := h5 m h6
    omega

/-- **C46** Whatever the outcome, loading a `StringZ` (that takes no `None`) terminates, never moves the stream backwards or past
its end, and never consumes more than `size` bytes if a size is set. -/
theorem C46_never_over_reads (Γ : Classes) (n : Nat) (b : FieldBase) (k : CharCodec) (pad : Option UInt8) (s : Stream)
    (ctx : Value) (loaded : Dict) (hplain : ∀ w c st, b.present w c st = .ok true) (hnull : b.nullValue = .undefined) :
    ∃ used rest, s.rest = used ++ rest ∧
      (fieldFromStream Γ (n + 2) (.leaf b (.stringz k pad)) s ctx loaded).2 = ⟨s.data, s.pos + used.length⟩ ∧
      (∀ m, DeclaredSize (.leaf b (.stringz k pad)) loaded m → (used.length : Int) ≤ m ∨ used = []) ∧
      ((∃ m, DeclaredSize (.leaf b (.stringz k pad)) loaded m) ∨
          (b.size = .none ∧ b.default = .ok .undefined ∧ Dict.get? loaded b.name = none) →
        (fieldDoLoad Γ (n + 1) (.leaf b (.stringz k pad)) s ctx loaded).1 ≠ .error .outOfFuel) := by
  rw [fieldFromStream_snd (f := .leaf b (.stringz k pad)) (hplain _ _ _) hnull]
  simp only [fieldDoLoad, leafLoad]
  have key : ∀ max, ∃ used rest, s.rest = used ++ rest ∧
      (R.map (stringzLoop b.name k max s.rest.length 0 [] [] s) Value.str).2 = ⟨s.data, s.pos + used.length⟩ ∧
      (∀ m, max = some m → (used.length : Int) ≤ m ∨ used = []) ∧
      (R.map (stringzLoop b.name k max s.rest.length 0 [] [] s) Value.str).1 ≠ .error .outOfFuel := by
    intro max
    obtain ⟨used, rest, h1, h2, h3, h4⟩ :=
      stringzLoop_bound (k := k) (name := b.name) (max := max) s.rest.length 0 [] [] s (Nat.le_refl _)
    refine ⟨used, rest, h1, h2, by simpa using h3, ?_⟩
    have := h4 feed_ne_outOfFuel
    rcases hg : stringzLoop b.name k max s.rest.length 0 [] [] s with ⟨r, t⟩
    rw [hg] at this
    cases r with
    | error e => simpa [R.map, Except.map] using this
    | ok v => simp [R.map, Except.map]
  split
  · rename_i m hm
    obtain ⟨used, rest, h1, h2, h3, h4⟩ := key (some m)
    refine ⟨used, rest, h1, h2, ?_, fun _ => h4⟩
    intro m' hm'
    rw [leafExpectedSize_declared hm'] at hm
    simp at hm
    subst hm
    exact h3 _ rfl
  · rename_i e he
    obtain ⟨used, rest, h1, h2, h3, h4⟩ := key none
    refine ⟨used, rest, h1, h2, ?_, fun _ => h4⟩
    intro m' hm'
    rw [leafExpectedSize_declared hm'] at he
    simp at he
  · rename_i e he hne
    refine ⟨[], s.rest, by simp, by simp, by simp, ?_⟩
    rintro (⟨m, hm⟩ | ⟨h1, h2, h3⟩)
    · rw [leafExpectedSize_declared hm] at hne; simp at hne
    · rw [leafExpectedSize_undefined h1 h2 h3] at hne; simp at hne; exact absurd hne.symm (he _)

-- no terminator; terminator beyond the size
example : (fieldFromStream Sample.noClasses 2 (Sample.strz "s") ⟨[0x61, 0x62], 0⟩ .none []).1 = .error (.deser (some "s")) := by
  decide
example : (fieldFromStream Sample.noClasses 2 (Sample.upd (Sample.strz "s") ({ · with size := .fixed 2 })) ⟨[0x61, 0x62, 0], 0⟩
    .none []) = (.error (.deser (some "s")), ⟨[0x61, 0x62, 0], 2⟩) := by decide

/-- **C48** (exact behaviour) What a `StringZ` of size `n` with a pad byte does to text without NUL that fits: it writes the encoded
text, the terminator and pad bytes up to `n` bytes; loading gives the text back but consumes only up to the terminator.  So the
stream stays aligned exactly if there was no padding. -/
theorem C48_padded_stringz_partial (Γ : Classes) (m : Nat) (b : FieldBase) (k : CharCodec) (p : UInt8) (t : List Nat)
    (code : Bytes) (n : Nat) (ctx : Value) (all loaded : Dict) (hk : Supported k) (hplain : Plain b (.str t))
    (hsize : b.size = .fixed n) (hnul : 0 ∉ t) (hcode : k.encode (t ++ [0]) = .ok code) (hfits : code.length ≤ n) :
    fieldToStream Γ (m + 1) (.leaf b (.stringz k (some p))) (.str t) ctx all =
      (code ++ List.replicate (n - code.length) p, .ok ()) ∧
    ∀ pre rest, fieldFromStream Γ (m + 2) (.leaf b (.stringz k (some p)))
        ⟨pre ++ (code ++ List.replicate (n - code.length) p) ++ rest, pre.length⟩ ctx loaded =
      (.ok (.str t), ⟨pre ++ (code ++ List.replicate (n - code.length) p) ++ rest, pre.length + code.length⟩) := by
  constructor
  · rw [fieldToStream_succ, toStreamWith_plain (b := (Field.leaf b (.stringz k (some p))).base) (by simp) (by simp) (by simp)
      hplain.2.2.2]
    simp only [fieldDoDump, leafDump, hcode, W.ofExcept, W.ok, W.toExcept, finishDump, Field.base, hsize]
    rw [if_neg (by omega)]
    by_cases h : code.length = n
    · simp [h]
    · rw [if_pos (by omega)]
      have : ((n : Int) - code.length).toNat = n - code.length := by omega
      simp [fieldAddPadding, leafAddPadding, this]
  · intro pre rest
    apply fieldFromStream_plain (f := .leaf b (.stringz k (some p))) hplain
    simp only [fieldDoLoad, leafLoad, leafExpectedSize_declared (k := (n : Int)) (Or.inl hsize)]
    have hr : (⟨pre ++ (code ++ List.replicate (n - code.length) p) ++ rest, pre.length⟩ : Stream).rest =
        code ++ (List.replicate (n - code.length) p ++ rest) := by
      simp [Stream.rest, List.append_assoc]
    have hne : code ≠ [] := by
      obtain ⟨a, c, -, h3, rfl⟩ := encode_append_ok hcode
      obtain ⟨term, h4, h5, -⟩ := encode_terminated hk (t := []) (code := []) rfl
      rw [h3] at h4; simp at h4; simp [h4, h5]
    rw [stringzLoop_reads (supported_lawful hk) code _ 0 [] [] _ t (List.replicate (n - code.length) p ++ rest) (Or.inl rfl) hnul
      (by simpa using hcode) hr (by rw [hr]; simp) hne (by intro m hm; simp at hm; omega)]
    simp [R.map, Except.map]

/-- **C48 is false of the code**: a `StringZ(size=8, pad_byte=b" ")` writes 8 bytes for "ab" and consumes 3 of them when it loads, so
the next field is read from the padding. -/
theorem C48_padding_keeps_alignment_refuted :
    ¬ ∀ (Γ : Classes) (n : Nat) (b : FieldBase) (k : CharCodec) (pad : Option UInt8) (size : Nat) (t : List Nat) (bs : Bytes)
        (v : Value) (s' : Stream), b.size = .fixed size →
        fieldToStream Γ n (.leaf b (.stringz k pad)) (.str t) .none [] = (bs, .ok ()) →
        fieldFromStream Γ n (.leaf b (.stringz k pad)) ⟨bs, 0⟩ .none [] = (.ok v, s') → s'.pos = bs.length := by
  intro h
  have := h Sample.noClasses 2 { name := "s", size := .fixed 8 } asciiCodec (some 0x20) 8 [0x61, 0x62]
    [0x61, 0x62, 0, 0x20, 0x20, 0x20, 0x20, 0x20] (.str [0x61, 0x62]) ⟨[0x61, 0x62, 0, 0x20, 0x20, 0x20, 0x20, 0x20], 3⟩ rfl
    (by decide) (by decide)
  simp at this

/-! ## C47: defaults -/

/-- Field types that measure their own default value when no size is given. -/
def Spec.MeasuresItself : Field → Prop
  | .leaf _ k =>
    match k with
    | .bytes | .string .. | .stringz .. | .float .. | .timestamp .. | .custom .. => True
    | _ => False
  | _ => False

/-- **C47 is false of the code**: `StringZ()` loads "abc", `StringZ(default="a")` refuses it, because the default's length limits
the load. -/
theorem C47_default_does_not_change_loading_refuted :
    ¬ ∀ (Γ : Classes) (n : Nat) (b : FieldBase) (k : Leaf) (d : Value) (s : Stream) (ctx : Value) (loaded : Dict),
        fieldFromStream Γ n (.leaf { b with dflt := d } k) s ctx loaded = fieldFromStream Γ n (.leaf b k) s ctx loaded := by
  intro h
  have := h Sample.noClasses 2 { name := "s" } (.stringz asciiCodec none) (.str [0x61]) ⟨[0x61, 0x62, 0x63, 0], 0⟩ .none []
  have h1 : fieldFromStream Sample.noClasses 2 (.leaf { name := "s" } (.stringz asciiCodec none)) ⟨[0x61, 0x62, 0x63, 0], 0⟩
      .none [] = (.ok (.str [0x61, 0x62, 0x63]), ⟨[0x61, 0x62, 0x63, 0], 4⟩) := by decide
  have h2 : fieldFromStream Sample.noClasses 2 (.leaf { name := "s", dflt := .str [0x61] } (.stringz asciiCodec none))
      ⟨[0x61, 0x62, 0x63, 0], 0⟩ .none [] = (.error (.deser (some "s")), ⟨[0x61, 0x62, 0x63, 0], 2⟩) := by decide
  rw [h1] at this
  exact absurd (this.symm.trans h2) (by simp)

/-- **C47** For a field whose size is declared (as a number or through another field), default and factory make no difference to what
it loads.  (What is missing: fields without a declared size, for which the claim is false.) -/
theorem C47_declared_size_partial (Γ : Classes) (n : Nat) (b : FieldBase) (k : Leaf) (d : Value) (fac : Option (Except Err Value))
    (s : Stream) (ctx : Value) (loaded : Dict) (hsize : b.size ≠ .none) :
    fieldFromStream Γ n (.leaf { b with dflt := d, factory := fac } k) s ctx loaded =
      fieldFromStream Γ n (.leaf b k) s ctx loaded := by
  have hexp : leafExpectedSize { b with dflt := d, factory := fac } k loaded = leafExpectedSize b k loaded := by
    unfold leafExpectedSize FieldBase.expectedSizeWith
    cases hs : b.size with
    | none => exact absurd hs hsize
    | fixed m => simp
    | ref m => simp
  cases n with
  | zero => rfl
  | succ n =>
    have hload : ∀ s, fieldDoLoad Γ n (.leaf { b with dflt := d, factory := fac } k) s ctx loaded =
        fieldDoLoad Γ n (.leaf b k) s ctx loaded := by
      intro s
      cases n with
      | zero => rfl
      | succ n => simp only [fieldDoLoad, hexp]; cases k <;> rfl
    have hnull : fieldNullRepr Γ n (.leaf { b with dflt := d, factory := fac } k) loaded = fieldNullRepr Γ n (.leaf b k) loaded := by
      simp only [fieldNullRepr, leafNullRepr, hexp]
      cases k <;> rfl
    simp only [fieldFromStream, hload, hnull]
    rfl

/-- **C47** Fields that do not measure their default (integers, variable-length integers, UUIDs, arrays, nested structs, unions) and
take no `None` load the same with and without a default. -/
theorem C47_other_fields_partial (Γ : Classes) (n : Nat) (f : Field) (d : Value) (fac : Option (Except Err Value)) (s : Stream)
    (ctx : Value) (loaded : Dict) (hf : ¬ MeasuresItself f) (hnull : f.base.nullValue = .undefined) :
    fieldFromStream Γ n (f.withBase { f.base with dflt := d, factory := fac }) s ctx loaded =
      fieldFromStream Γ n f s ctx loaded := by
  cases n with
  | zero => rfl
  | succ n =>
    have hload : ∀ s, fieldDoLoad Γ n (f.withBase { f.base with dflt := d, factory := fac }) s ctx loaded =
        fieldDoLoad Γ n f s ctx loaded := by
      intro s
      cases n with
      | zero => rfl
      | succ n =>
        cases f with
        | leaf b k => cases k <;> first | rfl | (exact absurd trivial hf)
        | array b c ct h => rfl
        | nested b c => rfl
        | union b c l w => rfl
    have hb : (f.withBase { f.base with dflt := d, factory := fac }).base = { f.base with dflt := d, factory := fac } := by
      cases f <;> rfl
    simp only [fieldFromStream, hload, hb]
    have h1 : f.base.allowNull = false := allowNull_false hnull
    have h2 : ({ f.base with dflt := d, factory := fac } : FieldBase).allowNull = false := h1
    simp only [fromStreamWith, h1, h2]
    rfl

example : MeasuresItself (Sample.strz "s") ∧ ¬ MeasuresItself (Sample.u8 "x") := ⟨trivial, fun h => h⟩

/-! ## C49: `String` -/

/-- **C49** (dump) A `String` of size `n` writes exactly `n` bytes - the encoded text, then pad bytes - or raises `ValueSizeError` and
writes nothing: if the encoded text is longer than `n` bytes, or shorter and there is no pad byte. -/
theorem C49_string_dump (Γ : Classes) (m : Nat) (b : FieldBase) (k : CharCodec) (pad : Option UInt8) (t : List Nat)
    (code : Bytes) (n : Int) (ctx : Value) (all : Dict) (hv : Accepts (.leaf b (.string k pad)) (.str t))
    (hsize : DeclaredSize (.leaf b (.string k pad)) all n) (hcode : k.encode t = .ok code) :
    (code.length = n → fieldToStream Γ (m + 1) (.leaf b (.string k pad)) (.str t) ctx all = (code, .ok ())) ∧
    (n < code.length → fieldToStream Γ (m + 1) (.leaf b (.string k pad)) (.str t) ctx all = ([], .error (.valueSize b.name))) ∧
    (code.length < n → pad = none →
      fieldToStream Γ (m + 1) (.leaf b (.string k pad)) (.str t) ctx all = ([], .error (.valueSize b.name))) ∧
    (∀ j p, n = code.length + (j + 1 : Nat) → pad = some p →
      fieldToStream Γ (m + 1) (.leaf b (.string k pad)) (.str t) ctx all = (code ++ List.replicate (j + 1) p, .ok ())) := by
  have hexp : leafExpectedSize b (.string k pad) all = .ok n := leafExpectedSize_declared hsize
  have hfin : ∀ bs : Bytes, (bs.length : Int) = n →
      finishDump b (.ok n) (leafAddPadding b (.string k pad)) bs = (bs, .ok ()) := by
    intro bs hbs
    unfold finishDump
    rcases hsize with h | ⟨x, h, -⟩
    · simp only [Field.base] at h; simp [h, hbs, W.ok]
    · simp only [Field.base] at h; simp [h, hbs, W.ok]
  have hgo : fieldToStream Γ (m + 1) (.leaf b (.string k pad)) (.str t) ctx all =
      match encodeAndResize b.name k pad t (.ok n) with
      | .error e => W.fail e
      | .ok bs => finishDump b (.ok n) (leafAddPadding b (.string k pad)) bs := by
    rw [fieldToStream_succ, toStreamWith_plain (by simp) (by simp) (by simp) hv]
    simp only [fieldDoDump, leafDump, hexp, fieldExpectedSize, Field.base]
    cases encodeAndResize b.name k pad t (.ok n) <;> rfl
  rw [hgo]
  simp only [encodeAndResize, hcode]
  refine ⟨?_, ?_, ?_, ?_⟩
  · intro h
    rw [if_neg (by omega), if_neg (by omega)]
    exact hfin _ h
  · intro h
    rw [if_pos (by omega)]; rfl
  · rintro h rfl
    rw [if_neg (by omega), if_pos (by omega)]; rfl
  · rintro j p h rfl
    rw [if_neg (by omega), if_pos (by omega)]
    have : (-((code.length : Int) - n)).toNat = j + 1 := by omega
    simp only [this]
    exact hfin _ (by simp [h])

/-- **C49** (dump) So does a `StringZ` with a declared size, counting the terminator. -/
theorem C49_stringz_dump (Γ : Classes) (m : Nat) (b : FieldBase) (k : CharCodec) (pad : Option UInt8) (t : List Nat)
    (code : Bytes) (n : Int) (ctx : Value) (all : Dict) (hv : Accepts (.leaf b (.stringz k pad)) (.str t))
    (hsize : DeclaredSize (.leaf b (.stringz k pad)) all n) (hcode : k.encode (t ++ [0]) = .ok code) :
    (code.length = n → fieldToStream Γ (m + 1) (.leaf b (.stringz k pad)) (.str t) ctx all = (code, .ok ())) ∧
    (n < code.length → fieldToStream Γ (m + 1) (.leaf b (.stringz k pad)) (.str t) ctx all = ([], .error (.valueSize b.name))) ∧
    (code.length < n → pad = none →
      fieldToStream Γ (m + 1) (.leaf b (.stringz k pad)) (.str t) ctx all = ([], .error (.valueSize b.name))) ∧
    (∀ j p, n = code.length + (j + 1 : Nat) → pad = some p →
      fieldToStream Γ (m + 1) (.leaf b (.stringz k pad)) (.str t) ctx all = (code ++ List.replicate (j + 1) p, .ok ())) := by
  have hexp : fieldExpectedSize Γ m (.leaf b (.stringz k pad)) all = .ok n := leafExpectedSize_declared hsize
  have hgo : fieldToStream Γ (m + 1) (.leaf b (.stringz k pad)) (.str t) ctx all =
      if (code.length : Int) - n > 0 then W.fail (.valueSize b.name)
      else if (code.length : Int) - n < 0 then W.ofExcept (leafAddPadding b (.stringz k pad) code n)
      else W.ok code := by
    rw [fieldToStream_succ, toStreamWith_plain (by simp) (by simp) (by simp) hv, hexp]
    simp only [fieldDoDump, leafDump, hcode, W.ofExcept, W.ok, W.toExcept, finishDump, Field.base, fieldAddPadding]
    rcases hsize with h | ⟨x, h, -⟩
    · simp only [Field.base] at h; simp only [h]
    · simp only [Field.base] at h; simp only [h]
  rw [hgo]
  refine ⟨?_, ?_, ?_, ?_⟩
  · intro h
    rw [if_neg (by omega), if_neg (by omega)]; rfl
  · intro h
    rw [if_pos (by omega)]; rfl
  · rintro h rfl
    rw [if_neg (by omega), if_pos (by omega)]; rfl
  · rintro j p h rfl
    rw [if_neg (by omega), if_pos (by omega)]
    have : (n - (code.length : Int)).toNat = j + 1 := by omega
    simp only [leafAddPadding, this]; rfl

example : fieldToStream Sample.noClasses 1 (Sample.upd (Sample.strz "s") ({ · with size := .fixed 4 })) (.str [0x61, 0x62]) .none [] =
    ([], .error (.valueSize "s")) := by decide

/-- **C49** (load) A `String` of size `n` returns the decoding of the next `n` bytes, and consumes exactly these; if they are not
valid in the encoding it raises. -/
theorem C49_string_load (Γ : Classes) (m : Nat) (b : FieldBase) (k : CharCodec) (pad : Option UInt8) (data : Bytes) (ctx : Value)
    (loaded : Dict) (hsize : DeclaredSize (.leaf b (.string k pad)) loaded data.length) (pre rest : Bytes) :
    (∀ t, k.decode data = .ok t → Plain b (.str t) →
      fieldFromStream Γ (m + 2) (.leaf b (.string k pad)) ⟨pre ++ data ++ rest, pre.length⟩ ctx loaded =
        (.ok (.str t), ⟨pre ++ data ++ rest, pre.length + data.length⟩)) ∧
    (∀ e, k.decode data = .error e → (∀ w c s, b.present w c s = .ok true) → b.nullValue = .undefined →
      fieldFromStream Γ (m + 2) (.leaf b (.string k pad)) ⟨pre ++ data ++ rest, pre.length⟩ ctx loaded =
        (.error (setErrField b.name e), ⟨pre ++ data ++ rest, pre.length + data.length⟩)) := by
  have hexp : leafExpectedSize b (.string k pad) loaded = .ok data.length := leafExpectedSize_declared hsize
  have hread := readExactSize_here b.name pre data rest
  constructor
  · intro t ht hp
    apply fieldFromStream_plain (f := .leaf b (.string k pad)) hp
    simp only [fieldDoLoad, leafLoad, hexp, hread, R.andThen, Except.bind, ht, Except.map]
  · intro e he hp hn
    rw [fieldFromStream, fromStreamWith_plain (b := (Field.leaf b (.string k pad)).base) (hp _ _ _) (Or.inl (allowNull_false hn))]
    simp only [loadAndFinish, fieldDoLoad, leafLoad, hexp, hread, R.andThen, Except.bind, he, Except.map]
    rfl

/-- **C49** Text of exactly `n` encoded bytes round-trips; shorter text comes back with its padding, read as text. -/
theorem C49_string_round_trip (Γ : Classes) (m : Nat) (b : FieldBase) (k : CharCodec) (p : UInt8) (t w : List Nat)
    (code : Bytes) (j : Nat) (ctx : Value) (all loaded : Dict) (hk : Supported k) (hw : Plain b (.str t))
    (hr : Plain b (.str (t ++ w)))
    (hsize : b.size = .fixed (code.length + j : Nat)) (hcode : k.encode t = .ok code)
    (hpad : k.encode w = .ok (List.replicate j p)) :
    fieldToStream Γ (m + 1) (.leaf b (.string k (some p))) (.str t) ctx all = (code ++ List.replicate j p, .ok ()) ∧
    ∀ pre rest, fieldFromStream Γ (m + 2) (.leaf b (.string k (some p))) ⟨pre ++ (code ++ List.replicate j p) ++ rest, pre.length⟩
        ctx loaded =
      (.ok (.str (t ++ w)),
        ⟨pre ++ (code ++ List.replicate j p) ++ rest, pre.length + (code ++ List.replicate j p).length⟩) := by
  constructor
  · have := C49_string_dump Γ m b k (some p) t code ((code.length + j : Nat) : Int) ctx all hw.2.2.2 (Or.inl hsize) hcode
    cases j with
    | zero => simpa using this.1 (by simp)
    | succ j => exact this.2.2.2 j p (by simp) rfl
  · intro pre rest
    have henc : k.encode (t ++ w) = .ok (code ++ List.replicate j p) := by
      rw [encode_append, hcode, hpad]; rfl
    exact (C49_string_load Γ m b k (some p) (code ++ List.replicate j p) ctx loaded
      (Or.inl (by simpa [Field.base] using hsize)) pre rest).1 _ (decode_encode (supported_lawful hk) henc) hr

example : fieldToStream Sample.noClasses 1 (Sample.str "s" 4 (some 0x20)) (.str [0x61, 0x62]) .none [] =
      ([0x61, 0x62, 0x20, 0x20], .ok ()) ∧
    fieldToStream Sample.noClasses 1 (Sample.str "s" 4) (.str [0x61, 0x62]) .none [] = ([], .error (.valueSize "s")) ∧
    fieldFromStream Sample.noClasses 2 (Sample.str "s" 4) ⟨[0x61, 0x62, 0x20, 0x20, 0x07], 0⟩ .none [] =
      (.ok (.str [0x61, 0x62, 0x20, 0x20]), ⟨[0x61, 0x62, 0x20, 0x20, 0x07], 4⟩) := by decide

/-! ## C65: negative sizes -/

/-- **C65 is false of the code**: with `size=-1` in its size field, a `Bytes` field reads everything that is left. -/
theorem C65_negative_size_over_reads_refuted :
    ¬ ∀ (Γ : Classes) (n : Nat) (b : FieldBase) (name : String) (size : Int) (loaded : Dict) (s s' : Stream) (v : Value),
        b.size = .ref name → Dict.get? loaded name = some (.int size) →
        fieldFromStream Γ n (.leaf b .bytes) s .none loaded = (.ok v, s') → ((s'.pos : Int) - s.pos ≤ size ∨ s'.pos = s.pos) := by
  intro h
  have := h Sample.noClasses 2 { name := "b", size := .ref "n" } "n" (-1) [("n", .int (-1))] ⟨[0xFF, 0x01, 0x02, 0x03], 1⟩
    ⟨[0xFF, 0x01, 0x02, 0x03], 4⟩ (.bytes [0x01, 0x02, 0x03]) rfl (by decide) (by decide)
  simp at this

/-- **C65** For sizes that are not negative, a `Bytes` or `String` field consumes exactly that many bytes when it returns a value, and
never more when it raises.  (Missing: negative sizes, for which the claim is false.) -/
theorem C65_nonnegative_size_partial (Γ : Classes) (n : Nat) (b : FieldBase) (kd : Leaf) (size : Nat) (ctx : Value) (loaded : Dict)
    (s : Stream) (hkd : kd = .bytes ∨ ∃ k pad, kd = .string k pad) (hsize : DeclaredSize (.leaf b kd) loaded size)
    (hpresent : b.present loaded.view ctx (some s) = .ok true) (hnull : b.nullValue = .undefined) :
    (fieldFromStream Γ (n + 2) (.leaf b kd) s ctx loaded).2 = ⟨s.data, s.pos + min size s.rest.length⟩ ∧
    (∀ v s', fieldFromStream Γ (n + 2) (.leaf b kd) s ctx loaded = (.ok v, s') → s'.pos = s.pos + size) := by
  have hexp : leafExpectedSize b kd loaded = .ok size := leafExpectedSize_declared hsize
  have hread : (readExactSize b.name (.ok (size : Int)) s).2 = ⟨s.data, s.pos + min size s.rest.length⟩ ∧
      (∀ d s', readExactSize b.name (.ok (size : Int)) s = (.ok d, s') → size ≤ s.rest.length) := by
    rw [readExactSize_nat]
    split
    · refine ⟨by simp; omega, by simp⟩
    · refine ⟨by simp; omega, ?_⟩
      intro d s' _; omega
  have hload : (fieldDoLoad Γ (n + 1) (.leaf b kd) s ctx loaded).2 = ⟨s.data, s.pos + min size s.rest.length⟩ ∧
      (∀ v s', fieldDoLoad Γ (n + 1) (.leaf b kd) s ctx loaded = (.ok v, s') → size ≤ s.rest.length) := by
    rcases hkd with rfl | ⟨k, pad, rfl⟩
    · simp only [fieldDoLoad, leafLoad, hexp]
      refine ⟨hread.1, ?_⟩
      intro v s' h
      rcases hg : readExactSize b.name (.ok (size : Int)) s with ⟨r, t⟩
      rw [hg] at h
      cases r with
      | error e => simp [R.map, Except.map] at h
      | ok d => exact hread.2 d t hg
    · simp only [fieldDoLoad, leafLoad, hexp]
      refine ⟨hread.1, ?_⟩
      intro v s' h
      rcases hg : readExactSize b.name (.ok (size : Int)) s with ⟨r, t⟩
      rw [hg] at h
      cases r with
      | error e => simp [R.andThen, Except.bind] at h
      | ok d => exact hread.2 d t hg
  have h1 := fieldFromStream_snd (Γ := Γ) (n := n + 1) (f := .leaf b kd) hpresent hnull
  refine ⟨h1.trans hload.1, ?_⟩
  intro v s' h
  rw [h] at h1
  rcases fieldFromStream_ok h with ⟨h2, -, -⟩ | ⟨-, -, ⟨h2, -, -⟩ | ⟨w, h2, -⟩⟩
  · simp [Field.base, hpresent] at h2
  · simp [Field.base, FieldBase.allowNull, hnull] at h2
  · have h3 := hload.2 _ _ h2
    have h4 := hload.1
    rw [h2] at h4
    simp only at h4
    rw [h4]
    simp; omega

-- the same, seen from a struct: n = Int8(); data = Bytes(size=n)
example : fieldFromStream Sample.noClasses 2 (Sample.bytesRef "b" "n") ⟨[0x02, 0x01, 0x02, 0x03], 1⟩ .none [("n", .int 2)] =
    (.ok (.bytes [0x01, 0x02]), ⟨[0x02, 0x01, 0x02, 0x03], 3⟩) := by decide

end Verif
