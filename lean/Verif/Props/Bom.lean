import Verif.Proofs.Bom
import Verif.Props.RoundTrip

/-!
# C100: text with a byte order mark
-/

namespace Verif

open Verif.Spec

/-! ## The codecs -/

/-- **C100** Encoding gives the mark that announces the codec, then the text in that codec; it fails exactly for the text which that codec cannot
encode. -/
theorem C100_encode (enc : BomEncoding) : ∃ m k, Announces enc m k ∧
    ∀ t, (∀ body, k.encode t = .ok body → enc.encode t = .ok (m ++ body)) ∧ (∀ e, k.encode t = .error e → enc.encode t = .error e) :=
  ⟨enc.mark, enc.base, announces_own enc, fun t => ⟨fun body h => by simp [BomEncoding.encode, h, Except.map],
    fun e h => by simp [BomEncoding.encode, h, Except.map]⟩⟩

/-- **C100** Decoding takes the text to be in the codec that the mark announces, whatever the byte order of the machine. -/
theorem C100_decode_marked (enc : BomEncoding) (m : Bytes) (k : CharCodec) (body : Bytes) (h : Announces enc m k) :
    enc.decode (m ++ body) = k.decode body := by
  simp [BomEncoding.decode, sniff_mark h]

/-- **C100** Decoding text without a mark is decoding it in the byte order of the machine, or in UTF-8. -/
theorem C100_decode_unmarked (data : Bytes) :
    (∀ e, Unmarked (.utf16 e) data → (BomEncoding.utf16 e).decode data = (utf16Codec e).decode data) ∧
    (∀ e, Unmarked (.utf32 e) data → (BomEncoding.utf32 e).decode data = (utf32Codec e).decode data) ∧
    (Unmarked .utf8sig data → BomEncoding.utf8sig.decode data = utf8Codec.decode data) := by
  refine ⟨fun e h => ?_, fun e h => ?_, fun h => ?_⟩ <;>
    rcases sniff_unmarked h with h | h <;> simp only [BomEncoding.decode, h] <;> rfl

/-- **C100** Whatever was encoded is decoded again, all at once or byte by byte - also on a machine of the other byte order. -/
theorem C100_codec_round_trip (enc enc' : BomEncoding) (t : List Nat) (code : Bytes) (h : enc.encode t = .ok code)
    (hsame : enc' = enc ∨ (∃ e e', enc = .utf16 e ∧ enc' = .utf16 e') ∨ ∃ e e', enc = .utf32 e ∧ enc' = .utf32 e') :
    enc'.decode code = .ok t ∧ bomFeed enc' none [] code = .ok (t, []) := by
  have hann : Announces enc' enc.mark enc.base := by
    rcases hsame with rfl | ⟨e, e', rfl, rfl⟩ | ⟨e, e', rfl, rfl⟩
    · exact announces_own _
    · cases e <;> constructor
    · cases e <;> constructor
  unfold BomEncoding.encode at h
  cases hb : enc.base.encode t with
  | error e => simp [hb, Except.map] at h
  | ok body =>
    simp [hb, Except.map] at h
    subst h
    refine ⟨by rw [C100_decode_marked _ _ _ _ hann]; exact decode_encode hann.lawful hb, ?_⟩
    rw [bomFeed_mark hann body enc.mark [] rfl (mark_ne hann)]
    exact feedBytes_encode hann.lawful hb

-- "aé" in UTF-16 on a little-endian machine, read on a big-endian one
example : (BomEncoding.utf16 .little).encode [0x61, 0xE9] = .ok [0xFF, 0xFE, 0x61, 0x00, 0xE9, 0x00] ∧
    (BomEncoding.utf16 .big).decode [0xFF, 0xFE, 0x61, 0x00, 0xE9, 0x00] = .ok [0x61, 0xE9] := by decide
example : BomEncoding.utf8sig.encode [0x20AC] = .ok [0xEF, 0xBB, 0xBF, 0xE2, 0x82, 0xAC] ∧
    BomEncoding.utf8sig.decode [0xE2, 0x82, 0xAC] = .ok [0x20AC] := by decide
-- a second mark is text
example : (BomEncoding.utf16 .little).decode [0xFF, 0xFE, 0xFF, 0xFE] = .ok [0xFEFF] := by decide

/-! ## `String` -/

theorem bomStringExpectedSize_declared {b : FieldBase} {enc : BomEncoding} {pad : Option UInt8} {values : Dict} {k : Int}
    (h : DeclaredSize (bomString b enc pad) values k) : bomStringExpectedSize b enc pad values = .ok k :=
  expectedSizeWith_declared h

theorem bomStringzExpectedSize_declared {b : FieldBase} {enc : BomEncoding} {pad : Option UInt8} {values : Dict} {k : Int}
    (h : DeclaredSize (bomStringz b enc pad) values k) : bomStringzExpectedSize b enc values = .ok k :=
  expectedSizeWith_declared h

/-- **C100** The mark counts towards the size of a `String`: it writes exactly `size` bytes - mark, text, pad bytes - or raises
`ValueSizeError` and writes nothing. -/
theorem C100_string_dump (Γ : Classes) (m : Nat) (b : FieldBase) (enc : BomEncoding) (pad : Option UInt8) (t : List Nat)
    (code : Bytes) (n : Int) (ctx : Value) (all : Dict) (hv : Accepts (bomString b enc pad) (.str t))
    (hsize : DeclaredSize (bomString b enc pad) all n) (hcode : enc.encode t = .ok code) :
    (code.length = n → fieldToStream Γ (m + 1) (bomString b enc pad) (.str t) ctx all = (code, .ok ())) ∧
    (n < code.length → fieldToStream Γ (m + 1) (bomString b enc pad) (.str t) ctx all = ([], .error (.valueSize b.name))) ∧
    (code.length < n → pad = none →
      fieldToStream Γ (m + 1) (bomString b enc pad) (.str t) ctx all = ([], .error (.valueSize b.name))) ∧
    (∀ j p, n = code.length + (j + 1 : Nat) → pad = some p →
      fieldToStream Γ (m + 1) (bomString b enc pad) (.str t) ctx all = (code ++ List.replicate (j + 1) p, .ok ())) := by
  have hexp := bomStringExpectedSize_declared hsize
  have hexp' : leafExpectedSize b (.custom (bomStringOps b enc pad)) all = .ok n := leafExpectedSize_declared hsize
  have hfin : ∀ bs : Bytes, (bs.length : Int) = n →
      finishDump b (.ok n) (leafAddPadding b (.custom (bomStringOps b enc pad))) bs = (bs, .ok ()) := by
    intro bs hbs
    unfold finishDump
    rcases hsize with h | ⟨x, h, -⟩
    · simp only [bomString, Field.base] at h; simp [h, hbs, W.ok]
    · simp only [bomString, Field.base] at h; simp [h, hbs, W.ok]
  have hgo : fieldToStream Γ (m + 1) (bomString b enc pad) (.str t) ctx all =
      match bomEncodeAndResize b.name enc pad t (.ok n) with
      | .error e => W.fail e
      | .ok bs => finishDump b (.ok n) (leafAddPadding b (.custom (bomStringOps b enc pad))) bs := by
    have hdo : fieldDoDump Γ m (bomString b enc pad) (.str t) ctx all = W.ofExcept (bomEncodeAndResize b.name enc pad t (.ok n)) := by
      show W.ofExcept (bomEncodeAndResize b.name enc pad t (bomStringExpectedSize b enc pad all)) = _
      rw [hexp]
    have hsz : fieldExpectedSize Γ m (bomString b enc pad) all = .ok n := hexp'
    rw [fieldToStream_succ, toStreamWith_plain (by simp) (by simp) (by simp) hv, hdo, hsz]
    cases bomEncodeAndResize b.name enc pad t (.ok n) <;> rfl
  rw [hgo]
  simp only [bomEncodeAndResize, hcode]
  refine ⟨?_, ?_, ?_, ?_⟩
  · intro h
    rw [if_neg (by omega), if_neg (by omega)]
    exact hfin _ h
  · intro h
    rw [if_pos (by omega)]; rfl
  · rintro h rfl
    rw [if_neg (by omega), if_pos (by omega)]; rfl
  · rintro j p h rfl
    rw [if_neg (by omega), if_pos (by omega)]
    have : (-((code.length : Int) - n)).toNat = j + 1 := by omega
    simp only [this]
    exact hfin _ (by simp [h])

/-- **C100** A `String` of size `n` returns the decoding of the next `n` bytes and consumes exactly these, or raises. -/
theorem C100_string_load (Γ : Classes) (m : Nat) (b : FieldBase) (enc : BomEncoding) (pad : Option UInt8) (data : Bytes) (ctx : Value)
    (loaded : Dict) (hsize : DeclaredSize (bomString b enc pad) loaded data.length) (pre rest : Bytes) :
    (∀ t, enc.decode data = .ok t → Plain b (.str t) →
      fieldFromStream Γ (m + 2) (bomString b enc pad) ⟨pre ++ data ++ rest, pre.length⟩ ctx loaded =
        (.ok (.str t), ⟨pre ++ data ++ rest, pre.length + data.length⟩)) ∧
    (∀ e, enc.decode data = .error e → (∀ w c s, b.present w c s = .ok true) → b.nullValue = .undefined →
      fieldFromStream Γ (m + 2) (bomString b enc pad) ⟨pre ++ data ++ rest, pre.length⟩ ctx loaded =
        (.error (setErrField b.name e), ⟨pre ++ data ++ rest, pre.length + data.length⟩)) := by
  have hexp := bomStringExpectedSize_declared hsize
  have hread := readExactSize_here b.name pre data rest
  constructor
  · intro t ht hp
    apply fieldFromStream_plain (f := bomString b enc pad) hp
    simp only [bomString, fieldDoLoad, leafLoad, bomStringOps, hexp, hread, R.andThen, Except.bind, ht, Except.map]
  · intro e he hp hn
    unfold bomString
    rw [fieldFromStream, fromStreamWith_plain (b := (Field.leaf b (.custom (bomStringOps b enc pad))).base) (hp _ _ _)
      (Or.inl (allowNull_false hn))]
    simp only [loadAndFinish, fieldDoLoad, leafLoad, bomStringOps, hexp, hread, R.andThen, Except.bind, he, Except.map]
    rfl

/-- **C100** Text whose encoding, with the mark, has exactly the declared size survives a dump and a load. -/
theorem C100_string_round_trip (Γ : Classes) (m : Nat) (b : FieldBase) (enc : BomEncoding) (pad : Option UInt8) (t : List Nat)
    (code : Bytes) (ctx : Value) (all loaded : Dict) (hw : Plain b (.str t)) (hcode : enc.encode t = .ok code)
    (hsize : DeclaredSize (bomString b enc pad) all code.length) (hsize' : DeclaredSize (bomString b enc pad) loaded code.length) :
    fieldToStream Γ (m + 1) (bomString b enc pad) (.str t) ctx all = (code, .ok ()) ∧
    ∀ pre rest, fieldFromStream Γ (m + 2) (bomString b enc pad) ⟨pre ++ code ++ rest, pre.length⟩ ctx loaded =
      (.ok (.str t), ⟨pre ++ code ++ rest, pre.length + code.length⟩) :=
  ⟨(C100_string_dump Γ m b enc pad t code code.length ctx all hw.2.2.2 hsize hcode).1 rfl, fun pre rest =>
    (C100_string_load Γ m b enc pad code ctx loaded hsize' pre rest).1 t (C100_codec_round_trip enc enc t code hcode (Or.inl rfl)).1 hw⟩

/-! ## `StringZ` -/

theorem bomStringzExpectedSize_undefined {b : FieldBase} {enc : BomEncoding} {loaded : Dict} (hsize : b.size = .none)
    (hdef : b.default = .ok .undefined) (hfirst : Dict.get? loaded b.name = none) :
    bomStringzExpectedSize b enc loaded = .error (.undefinedSize b.name) := by
  simp [bomStringzExpectedSize, FieldBase.expectedSizeWith, hsize, FieldBase.sizingValue, hfirst, hdef]

/-- **C100** A `StringZ` loads text behind any mark the encoding knows, up to the terminator, and consumes exactly the mark, the text and the
terminator. -/
theorem C100_stringz_load (Γ : Classes) (n : Nat) (b : FieldBase) (enc : BomEncoding) (pad : Option UInt8) (m body : Bytes) (k : CharCodec)
    (t : List Nat) (ctx : Value) (loaded : Dict) (hplain : Plain b (.str t)) (hm : Announces enc m k) (hnul : 0 ∉ t)
    (hbody : k.encode (t ++ [0]) = .ok body)
    (hsize : (b.size = .none ∧ b.default = .ok .undefined ∧ Dict.get? loaded b.name = none) ∨
      ∃ j, DeclaredSize (bomStringz b enc pad) loaded j ∧ ((m ++ body).length : Int) ≤ j) (pre rest : Bytes) :
    fieldFromStream Γ (n + 2) (bomStringz b enc pad) ⟨pre ++ (m ++ body) ++ rest, pre.length⟩ ctx loaded =
      (.ok (.str t), ⟨pre ++ (m ++ body) ++ rest, pre.length + (m ++ body).length⟩) := by
  apply fieldFromStream_plain (f := bomStringz b enc pad) hplain
  have hr : (⟨pre ++ (m ++ body) ++ rest, pre.length⟩ : Stream).rest = (m ++ body) ++ rest := by
    simp [Stream.rest, List.append_assoc]
  rcases hsize with ⟨h1, h2, h3⟩ | ⟨j, h1, h2⟩
  · simp only [bomStringz, fieldDoLoad, leafLoad, bomStringzOps, bomStringzLoad, bomStringzExpectedSize_undefined h1 h2 h3]
    rw [bomLoop_reads hm hnul hbody hr (by simp)]
    simp [R.map, Except.map]
  · simp only [bomStringz, fieldDoLoad, leafLoad, bomStringzOps, bomStringzLoad, bomStringzExpectedSize_declared h1]
    rw [bomLoop_reads hm hnul hbody hr (by intro i hi; cases hi; exact h2)]
    simp [R.map, Except.map]

/-- **C100** A `StringZ` with a declared size writes exactly that many bytes - mark, text, terminator, pad bytes - or raises `ValueSizeError` and
writes nothing. -/
theorem C100_stringz_dump (Γ : Classes) (m : Nat) (b : FieldBase) (enc : BomEncoding) (pad : Option UInt8) (t : List Nat)
    (code : Bytes) (n : Int) (ctx : Value) (all : Dict) (hv : Accepts (bomStringz b enc pad) (.str t))
    (hsize : DeclaredSize (bomStringz b enc pad) all n) (hcode : enc.encode (t ++ [0]) = .ok code) :
    (code.length = n → fieldToStream Γ (m + 1) (bomStringz b enc pad) (.str t) ctx all = (code, .ok ())) ∧
    (n < code.length → fieldToStream Γ (m + 1) (bomStringz b enc pad) (.str t) ctx all = ([], .error (.valueSize b.name))) ∧
    (code.length < n → pad = none →
      fieldToStream Γ (m + 1) (bomStringz b enc pad) (.str t) ctx all = ([], .error (.valueSize b.name))) ∧
    (∀ j p, n = code.length + (j + 1 : Nat) → pad = some p →
      fieldToStream Γ (m + 1) (bomStringz b enc pad) (.str t) ctx all = (code ++ List.replicate (j + 1) p, .ok ())) := by
  have hexp : fieldExpectedSize Γ m (bomStringz b enc pad) all = .ok n := leafExpectedSize_declared hsize
  have hdo : fieldDoDump Γ m (bomStringz b enc pad) (.str t) ctx all = W.ok code := by
    show W.ofExcept (enc.encode (t ++ [0])) = _
    rw [hcode]; rfl
  have hgo : fieldToStream Γ (m + 1) (bomStringz b enc pad) (.str t) ctx all =
      if (code.length : Int) - n > 0 then W.fail (.valueSize b.name)
      else if (code.length : Int) - n < 0 then W.ofExcept (fieldAddPadding (bomStringz b enc pad) code n)
      else W.ok code := by
    rw [fieldToStream_succ, toStreamWith_plain (by simp) (by simp) (by simp) hv, hexp, hdo]
    simp only [W.ok, W.toExcept, finishDump]
    rcases hsize with h | ⟨x, h, -⟩
    · simp only [h]; rfl
    · simp only [h]; rfl
  rw [hgo]
  refine ⟨?_, ?_, ?_, ?_⟩
  · intro h
    rw [if_neg (by omega), if_neg (by omega)]; rfl
  · intro h
    rw [if_pos (by omega)]; rfl
  · rintro h rfl
    rw [if_neg (by omega), if_pos (by omega)]; rfl
  · rintro j p h rfl
    rw [if_neg (by omega), if_pos (by omega)]
    have : (n - (code.length : Int)).toNat = j + 1 := by omega
    simp only [bomStringz, fieldAddPadding, leafAddPadding, bomStringzOps, bomAddPadding, Option.map_some, this]; rfl

theorem bom_terminated {enc : BomEncoding} {t : List Nat} {code : Bytes} (h : enc.encode t = .ok code) :
    ∃ body term, code = enc.mark ++ body ∧ enc.base.encode [0] = .ok term ∧ enc.base.encode (t ++ [0]) = .ok (body ++ term) ∧
      enc.encode (t ++ [0]) = .ok (code ++ term) := by
  unfold BomEncoding.encode at h
  cases hb : enc.base.encode t with
  | error e => simp [hb, Except.map] at h
  | ok body =>
    simp [hb, Except.map] at h
    obtain ⟨term, h1, -, h3⟩ := encode_terminated (base_supported enc) hb
    exact ⟨body, term, h.symm, h1, h3, by simp [BomEncoding.encode, h3, Except.map, ← h]⟩

/-- **C100** Every string without NUL that the encoding can encode round-trips through a `StringZ`: it is written as one mark, its encoding and a
terminator without a mark of its own, and loading gives it back from wherever these bytes are, consuming exactly them. -/
theorem C100_stringz_round_trip (Γ : Classes) (n : Nat) (b : FieldBase) (enc : BomEncoding) (pad : Option UInt8) (t : List Nat)
    (code : Bytes) (ctx : Value) (all loaded : Dict) (hplain : Plain b (.str t)) (hsize : b.size = .none)
    (hdef : b.default = .ok .undefined) (hfirst : Dict.get? loaded b.name = none) (hnul : 0 ∉ t) (hcode : enc.encode t = .ok code) :
    ∃ m k term, Announces enc m k ∧ m <+: code ∧ k.encode [0] = .ok term ∧
      fieldToStream Γ (n + 1) (bomStringz b enc pad) (.str t) ctx all = (code ++ term, .ok ()) ∧
      ∀ pre rest, fieldFromStream Γ (n + 2) (bomStringz b enc pad) ⟨pre ++ (code ++ term) ++ rest, pre.length⟩ ctx loaded =
        (.ok (.str t), ⟨pre ++ (code ++ term) ++ rest, pre.length + (code ++ term).length⟩) := by
  obtain ⟨body, term, rfl, h1, h2, h3⟩ := bom_terminated hcode
  refine ⟨enc.mark, enc.base, term, announces_own enc, ⟨body, rfl⟩, h1, ?_, fun pre rest => ?_⟩
  · apply fieldToStream_plain (f := bomStringz b enc pad) (by simp) (by simp) (by simp) hplain.2.2.2 (Or.inl hsize)
    simp [bomStringz, fieldDoDump, leafDump, bomStringzOps, bomStringzDump, h3, W.ofExcept, W.ok]
  · have := C100_stringz_load Γ n b enc pad enc.mark (body ++ term) enc.base t ctx loaded hplain (announces_own enc) hnul h2
      (Or.inl ⟨hsize, hdef, hfirst⟩) pre rest
    simpa [List.append_assoc] using this

/-- **C100** A `StringZ` in `utf-8-sig` also loads text without a mark, as one in UTF-8 does. -/
theorem C100_stringz_utf8 (Γ : Classes) (n : Nat) (b : FieldBase) (pad : Option UInt8) (body : Bytes) (t : List Nat) (ctx : Value)
    (loaded : Dict) (hplain : Plain b (.str t)) (hnul : 0 ∉ t) (hbody : utf8Codec.encode (t ++ [0]) = .ok body)
    (hmark : t.head? ≠ some 0xFEFF) (hsize : b.size = .none) (hdef : b.default = .ok .undefined)
    (hfirst : Dict.get? loaded b.name = none) (pre rest : Bytes) :
    fieldFromStream Γ (n + 2) (bomStringz b .utf8sig pad) ⟨pre ++ body ++ rest, pre.length⟩ ctx loaded =
      (.ok (.str t), ⟨pre ++ body ++ rest, pre.length + body.length⟩) := by
  apply fieldFromStream_plain (f := bomStringz b .utf8sig pad) hplain
  have hk := supported_lawful (Supported.utf8)
  have hr : (⟨pre ++ body ++ rest, pre.length⟩ : Stream).rest = body ++ rest := by
    simp [Stream.rest, List.append_assoc]
  have hfirst' : ∃ c cs code more, t ++ [0] = c :: cs ∧ utf8Codec.enc c = some code ∧ body = code ++ more := by
    cases ht : t ++ [0] with
    | nil => simp at ht
    | cons c cs =>
      rw [ht] at hbody
      simp only [CharCodec.encode] at hbody
      cases hz : utf8Codec.enc c with
      | none => simp [hz] at hbody
      | some z =>
        cases hcs : utf8Codec.encode cs with
        | error e => simp [hz, hcs] at hbody
        | ok more => simp [hz, hcs] at hbody; exact ⟨c, cs, z, more, rfl, hz, hbody.symm⟩
  obtain ⟨c, cs, code, more, hc, hcode, hsplit⟩ := hfirst'
  have hne : body ≠ [] := by
    have := hk.enc_ne hcode
    rw [hsplit]; simp [this]
  have hu : ¬ BomEncoding.mark .utf8sig <+: body ++ rest := by
    rintro ⟨r, hr⟩
    have h1 := hk.dec_enc hcode (more ++ rest)
    rw [show code ++ (more ++ rest) = body ++ rest by rw [hsplit]; simp, ← hr] at h1
    have h2 : utf8Codec.dec (BomEncoding.mark .utf8sig ++ r) = .char 0xFEFF 3 := rfl
    rw [h2] at h1
    injection h1 with h3 h4
    cases t with
    | nil => simp at hc; rw [← hc.1] at h3; exact absurd h3 (by decide)
    | cons c' t => simp at hc; exact hmark (by simp [hc.1, h3])
  simp only [bomStringz, fieldDoLoad, leafLoad, bomStringzOps, bomStringzLoad, bomStringzExpectedSize_undefined hsize hdef hfirst]
  have hz := stringzLoop_reads hk (name := b.name) (max := none) body (body ++ rest).length 0 [] [] ⟨pre ++ body ++ rest, pre.length⟩ t rest
    (Or.inl rfl) hnul (by simpa using hbody) hr (by simp) hne (by simp)
  rw [hr, bomLoop_utf8 _ _ _ _ _ (by rw [hr]; simpa using hu) hz]
  simp [R.map, Except.map]

/-- **C100** But in UTF-16 and UTF-32 a `StringZ` refuses text without a mark, always, though a `String` takes it. -/
theorem C100_stringz_needs_mark (Γ : Classes) (n : Nat) (b : FieldBase) (enc : BomEncoding) (pad : Option UInt8) (s : Stream) (ctx : Value)
    (loaded : Dict) (henc : enc ≠ .utf8sig) (hmark : Unmarked enc s.rest) (hpresent : b.present loaded.view ctx (some s) = .ok true)
    (hnull : b.nullValue = .undefined) :
    ∃ e, (fieldFromStream Γ n (bomStringz b enc pad) s ctx loaded).1 = .error e := by
  cases n with
  | zero => exact ⟨_, rfl⟩
  | succ n =>
    unfold bomStringz
    rw [fieldFromStream, fromStreamWith_plain (b := (Field.leaf b (.custom (bomStringzOps b enc pad))).base) hpresent
      (Or.inl (allowNull_false hnull))]
    have hload : ∃ e, (fieldDoLoad Γ n (.leaf b (.custom (bomStringzOps b enc pad))) s ctx loaded).1 = .error e := by
      cases n with
      | zero => exact ⟨_, rfl⟩
      | succ n =>
        simp only [fieldDoLoad, leafLoad, bomStringzOps, bomStringzLoad]
        have key : ∀ max, ∃ e, (R.map (bomLoop b.name enc max s.rest.length 0 none [] [] s) Value.str).1 = .error e := by
          intro max
          obtain ⟨e, he⟩ := bomLoop_unmarked henc (name := b.name) (max := max) s.rest.length 0 [] [] s (by simpa using hmark)
          exact ⟨e, by simp [R.map, he, Except.map]⟩
        split
        · exact key _
        · exact key _
        · exact ⟨_, rfl⟩
    obtain ⟨e, he⟩ := hload
    unfold loadAndFinish
    rcases hl : fieldDoLoad Γ n (.leaf b (.custom (bomStringzOps b enc pad))) s ctx loaded with ⟨r, s'⟩
    rw [hl] at he
    simp only at he
    subst he
    simp only [hl]
    exact ⟨_, rfl⟩

/-- "a", NUL in UTF-16 without a mark. -/
theorem C100_same_text_refuted : ∃ (data : Bytes) (e : Err),
    fieldFromStream Sample.noClasses 2 (bomString { name := "s", size := .fixed 4 } (.utf16 .little) none) ⟨data, 0⟩ .none [] =
      (.ok (.str [0x61, 0]), ⟨data, 4⟩) ∧
    (fieldFromStream Sample.noClasses 2 (bomStringz { name := "s" } (.utf16 .little) none) ⟨data, 0⟩ .none []).1 = .error e :=
  ⟨[0x61, 0, 0, 0], .unicodeErr, by decide, by decide⟩

/-- **C100** Dumping what was loaded need not give the same bytes: text comes back in the byte order of the machine, and in `utf-8-sig` with a
mark it may not have had. -/
theorem C100_resave_refuted :
    (∃ data, fieldFromStream Sample.noClasses 2 (bomStringz { name := "s" } (.utf16 .little) none) ⟨data, 0⟩ .none [] =
        (.ok (.str [0x61]), ⟨data, 6⟩) ∧ data.length = 6 ∧
      (fieldToStream Sample.noClasses 1 (bomStringz { name := "s" } (.utf16 .little) none) (.str [0x61]) .none []).1 ≠ data) ∧
    (∃ data, fieldFromStream Sample.noClasses 2 (bomStringz { name := "s" } .utf8sig none) ⟨data, 0⟩ .none [] =
        (.ok (.str [0x61]), ⟨data, 2⟩) ∧ data.length = 2 ∧
      (fieldToStream Sample.noClasses 1 (bomStringz { name := "s" } .utf8sig none) (.str [0x61]) .none []).1.length = 5) :=
  ⟨⟨[0xFE, 0xFF, 0, 0x61, 0, 0], by decide, by decide, by decide⟩, ⟨[0x61, 0], by decide, by decide, by decide⟩⟩

-- stringlike_test.py:237-254
example : fieldToStream Sample.noClasses 1 (bomStringz { name := "s" } (.utf16 .little) none) (.str [0x41, 0x62]) .none [] =
      ([0xFF, 0xFE, 0x41, 0, 0x62, 0, 0, 0], .ok ()) ∧
    fieldFromStream Sample.noClasses 2 (bomStringz { name := "s" } (.utf16 .little) none) ⟨[7, 0xFE, 0xFF, 0, 0x41, 0, 0x62, 0, 0, 9], 1⟩ .none [] =
      (.ok (.str [0x41, 0x62]), ⟨[7, 0xFE, 0xFF, 0, 0x41, 0, 0x62, 0, 0, 9], 9⟩) := by decide +kernel
-- cut off inside the mark, and inside the text
example : (fieldFromStream Sample.noClasses 2 (bomStringz { name := "s" } .utf8sig none) ⟨[0xEF, 0xBB], 0⟩ .none []).1 =
      .error (.deser (some "s")) ∧
    (fieldFromStream Sample.noClasses 2 (bomStringz { name := "s" } (.utf16 .big) none) ⟨[0xFF, 0xFE, 0x41], 0⟩ .none []).1 =
      .error .unicodeErr := by decide +kernel

/-! ## Sizes -/

/-- **C100** Without a declared size, the size of a field is that of the mark, the text and, for a `StringZ`, the terminator. -/
theorem C100_size (b : FieldBase) (enc : BomEncoding) (pad : Option UInt8) (t : List Nat) (code : Bytes) (values : Dict)
    (hsize : b.size = .none) (hv : Dict.get? values b.name = some (.str t)) (hcode : enc.encode t = .ok code) :
    leafExpectedSize b (.custom (bomStringOps b enc pad)) values = .ok code.length ∧
      ∃ term, enc.base.encode [0] = .ok term ∧
        leafExpectedSize b (.custom (bomStringzOps b enc pad)) values = .ok (code.length + term.length : Nat) := by
  obtain ⟨body, term, rfl, h1, h2, h3⟩ := bom_terminated hcode
  refine ⟨?_, term, h1, ?_⟩
  · simp [leafExpectedSize, FieldBase.expectedSizeWith, hsize, FieldBase.sizingValue, hv, leafSizeForValue, bomStringOps, bomStringSizeFor,
      hcode, Except.map]
  · simp [leafExpectedSize, FieldBase.expectedSizeWith, hsize, FieldBase.sizingValue, hv, leafSizeForValue, bomStringzOps, bomStringzSizeFor,
      h3, Except.map]
    omega

/-- **C100** A constant sets the size of the field, the mark included. -/
theorem C100_const_size (enc : BomEncoding) (t : List Nat) (code : Bytes) (hcode : enc.encode t = .ok code) :
    (∃ f, mkBomString enc none { const := .str t } = .ok f ∧ f.base.size = .fixed code.length) ∧
      ∃ f term, mkBomStringZ enc none { const := .str t } = .ok f ∧ enc.base.encode [0] = .ok term ∧
        f.base.size = .fixed (code.length + term.length : Nat) := by
  obtain ⟨body, term, rfl, h1, h2, h3⟩ := bom_terminated hcode
  constructor
  · simp [mkBomString, fieldInit, constSize, bomStringOps, bomStringSizeFor, hcode, Except.map, Field.base]
  · have h4 : ∃ f, mkBomStringZ enc none { const := .str t } = .ok f ∧
        f.base.size = .fixed ((enc.mark ++ body).length + term.length : Nat) := by
      simp [mkBomStringZ, fieldInit, constSize, bomStringzOps, bomStringzSizeFor, h3, Except.map, Field.base]
      omega
    obtain ⟨f, h5, h6⟩ := h4
    exact ⟨f, term, h5, h1, h6⟩

/-- **C100** A padding byte is exactly one byte, or the field is rejected. -/
theorem C100_pad_byte (enc : BomEncoding) (pad : Bytes) (a : FieldArgs) (h : pad.length ≠ 1) :
    mkBomString enc (some pad) a = .error .configuration ∧ mkBomStringZ enc (some pad) a = .error .configuration := by
  unfold mkBomString mkBomStringZ
  match pad, h with
  | [], _ => exact ⟨rfl, rfl⟩
  | [p], h => simp at h
  | p :: q :: r, _ => exact ⟨rfl, rfl⟩

example : mkBomStringZ .utf8sig (some [32, 32]) { size := .fixed 8 } = .error .configuration :=
  (C100_pad_byte .utf8sig [32, 32] _ (by decide)).2

/-! ## Inside structs -/

/-- **C100** So a `StringZ` with such an encoding is one of the fields that C26 allows in a struct: without a size, or with one that is known when
it is loaded. -/
theorem C100_stringz_lossless (ctx : Value) (earlier : List String) (all : Dict) (b : FieldBase) (enc : BomEncoding) (t : List Nat)
    (hnul : 0 ∉ t) (hsize : b.size = .none) (hdef : b.default = .ok .undefined) (hname : b.name ∉ earlier) :
    Lossless ctx earlier all b (.custom (bomStringzOps b enc none)) (.str t) := by
  refine .custom (by simp) (by simp) (by simp) (by simp) (by constructor) rfl fun bs hd loaded pre rest hc => ?_
  have hfirst : Dict.get? loaded b.name = none := by
    have := hc.1 b.name
    simp only [hname, iff_false, ne_eq, Decidable.not_not] at this
    exact this
  have hd := W.ofExcept_ok (r := enc.encode (t ++ [0])) hd
  unfold BomEncoding.encode at hd
  cases hb : enc.base.encode (t ++ [0]) with
  | error e => simp [hb, Except.map] at hd
  | ok body =>
    simp [hb, Except.map] at hd
    subst hd
    have hr : (⟨pre ++ (enc.mark ++ body) ++ rest, pre.length⟩ : Stream).rest = (enc.mark ++ body) ++ rest := by
      simp [Stream.rest, List.append_assoc]
    simp only [bomStringzOps, bomStringzLoad, bomStringzExpectedSize_undefined hsize hdef hfirst]
    rw [bomLoop_reads (announces_own enc) hnul hb hr (by simp)]
    simp [R.map, Except.map]

/-- **C100** The same for a `String` whose size is known when it is loaded. -/
theorem C100_string_lossless (ctx : Value) (earlier : List String) (all : Dict) (b : FieldBase) (enc : BomEncoding) (t : List Nat)
    (hsize : SizeKnown earlier b) : Lossless ctx earlier all b (.custom (bomStringOps b enc none)) (.str t) := by
  refine .custom (by simp) (by simp) (by simp) (by simp) (by constructor) rfl fun bs hd loaded pre rest hc => ?_
  have hd := W.ofExcept_ok (r := bomEncodeAndResize b.name enc none t (bomStringExpectedSize b enc none all)) hd
  unfold bomEncodeAndResize at hd
  cases hcode : enc.encode t with
  | error e => simp [hcode] at hd
  | ok code =>
    cases he : bomStringExpectedSize b enc none all with
    | error e => simp [hcode, he] at hd
    | ok n =>
      simp only [hcode, he] at hd
      have hn : (code.length : Int) = n ∧ bs = code := by
        split at hd
        · simp at hd
        · split at hd
          · simp at hd
          · simp at hd; exact ⟨by omega, hd.symm⟩
      obtain ⟨hn, rfl⟩ := hn
      subst hn
      have hl : bomStringExpectedSize b enc none loaded = .ok bs.length := by
        rcases hsize with ⟨m, hs⟩ | ⟨r, hr, hs⟩
        · rw [bomStringExpectedSize_declared (pad := none) (Or.inl hs)] at he
          cases he
          exact bomStringExpectedSize_declared (Or.inl hs)
        · simp only [bomStringExpectedSize, FieldBase.expectedSizeWith, hs, sizeFromRef] at he
          cases hg : Dict.get? all r with
          | none => simp [hg] at he
          | some w =>
            cases w <;> simp only [hg] at he <;> try (simp at he; done)
            rename_i i
            obtain ⟨v, hv, hst⟩ := hc.get hr hg
            have := hst.scalar (by simp) (by simp)
            subst this
            simp at he; subst he
            exact bomStringExpectedSize_declared (Or.inr ⟨r, hs, hv⟩)
      simp only [bomStringOps, hl, readExactSize_here, R.andThen, Except.bind, (C100_codec_round_trip enc enc t bs hcode (Or.inl rfl)).1,
        Except.map]

/-- ```
class Track(Struct):
    number = UInt8()
    title = StringZ(encoding="utf-16")
    rating = UInt8()
```
-/
def Sample.track : StructDesc :=
  { name := "Track", components := [Sample.u8 "number", bomStringz { name := "title", typeName := "StringZ" } (.utf16 .little) none, Sample.u8 "rating"],
    fieldValidators := [("number", []), ("title", []), ("rating", [])], numOwnFields := 3 }

-- 3, "hé", 5
example : ∃ m r,
    (∀ f ∈ Sample.track.components, f.base.discard = false → ∀ w,
      Dict.get? [("number", .int 3), ("title", .str [0x68, 0xE9]), ("rating", .int 5)] f.name = some w →
        ∃ v, Dict.get? r f.name = some v ∧ Stands v w) ∧
    ∀ pre rest, structFromStream Sample.noClasses m Sample.track
        ⟨pre ++ [3, 0xFF, 0xFE, 0x68, 0, 0xE9, 0, 0, 0, 5] ++ rest, pre.length⟩ .none [] =
      (.ok r, ⟨pre ++ [3, 0xFF, 0xFE, 0x68, 0, 0xE9, 0, 0, 0, 5] ++ rest, pre.length + 10⟩) := by
  refine C26_round_trip_partial Sample.noClasses 3 Sample.track
    [("number", .int 3), ("title", .str [0x68, 0xE9]), ("rating", .int 5)] _ .none [3, 0xFF, 0xFE, 0x68, 0, 0xE9, 0, 0, 0, 5]
    (show (names Sample.track).Nodup by decide) (by decide +kernel) ?_ (by decide +kernel)
  constructor
  · exact fun r hr _ => unchecked_valid (by decide) (by simp [Sample.track, Sample.u8, bomStringz, Field.base]) rfl hr
      (show (names Sample.track).Nodup by decide)
  · refine fields_of_index (Q := fun e f => Skipped f _ .none → Omitted .none e _ f) ?_
    intro i hi
    match i, hi with
    | 0, _ =>
      rintro ⟨v, h1, h2⟩
      have := Chosen.unique h1 (.explicit (v := .int 3) rfl rfl)
      subst this
      rcases h2 with h2 | h2 <;> cases h2
    | 1, _ =>
      rintro ⟨v, h1, h2⟩
      have := Chosen.unique h1 (.explicit (v := .str [0x68, 0xE9]) rfl rfl)
      subst this
      rcases h2 with h2 | h2 <;> cases h2
    | 2, _ =>
      rintro ⟨v, h1, h2⟩
      have := Chosen.unique h1 (.explicit (v := .int 5) rfl rfl)
      subst this
      rcases h2 with h2 | h2 <;> cases h2
  · refine fun pre f post w hd => fields_of_index (Q := fun e f => ∀ w, Dumped f _ .none w → Proper Sample.noClasses .none e _ f w)
      ?_ pre f post hd w
    intro i hi
    match i, hi with
    | 0, _ =>
      intro w hw
      have := Chosen.unique hw.1 (.explicit (v := .int 3) rfl rfl)
      subst this
      exact .leaf (fun _ _ _ => rfl) (.integer (n := 1) _ rfl (by decide)) (Or.inl rfl) (Or.inl rfl)
    | 1, _ =>
      intro w hw
      have := Chosen.unique hw.1 (.explicit (v := .str [0x68, 0xE9]) rfl rfl)
      subst this
      exact .leaf (fun _ _ _ => rfl) (C100_stringz_lossless _ _ _ _ _ _ (by decide) rfl rfl (by decide)) (Or.inl rfl) (Or.inl rfl)
    | 2, _ =>
      intro w hw
      have := Chosen.unique hw.1 (.explicit (v := .int 5) rfl rfl)
      subst this
      exact .leaf (fun _ _ _ => rfl) (.integer (n := 1) _ rfl (by decide)) (Or.inl rfl) (Or.inl rfl)

end Verif
