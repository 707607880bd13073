import Verif.Model.Bom

/-!
# Vocabulary for statements about byte order marks
-/

namespace Verif.Spec

/-- `Announces enc m k`: when data in the encoding `enc` begins with the bytes `m`, the text after them is in the character codec `k`.  Both byte
orders are recognized, whatever the machine's own is. -/
inductive Announces : BomEncoding → Bytes → CharCodec → Prop where
  | utf16le (native : Endian) : Announces (.utf16 native) [0xFF, 0xFE] (utf16Codec .little)
  | utf16be (native : Endian) : Announces (.utf16 native) [0xFE, 0xFF] (utf16Codec .big)
  | utf32le (native : Endian) : Announces (.utf32 native) [0xFF, 0xFE, 0x00, 0x00] (utf32Codec .little)
  | utf32be (native : Endian) : Announces (.utf32 native) [0x00, 0x00, 0xFE, 0xFF] (utf32Codec .big)
  | utf8 : Announces .utf8sig [0xEF, 0xBB, 0xBF] utf8Codec

/-- The data begins with no mark of the encoding. -/
def Unmarked (enc : BomEncoding) (data : Bytes) : Prop := ∀ m k, Announces enc m k → ¬ m <+: data

/-- A `String` field with one of these encodings. -/
def bomString (b : FieldBase) (enc : BomEncoding) (pad : Option UInt8) : Field := .leaf b (.custom (bomStringOps b enc pad))

/-- A `StringZ` field with one of these encodings. -/
def bomStringz (b : FieldBase) (enc : BomEncoding) (pad : Option UInt8) : Field := .leaf b (.custom (bomStringzOps b enc pad))

/-- Feed the bytes of `input` to the incremental decoder one at a time, from the state `st` with `buf` pending: all the text that comes out, and
what is pending at the end. -/
def bomFeed (enc : BomEncoding) (st : Option CharCodec) (buf : Bytes) : Bytes → Except Err (List Nat × Bytes)
  | [] => .ok ([], buf)
  | b :: bs =>
    match enc.step st (buf ++ [b]) with
    | .error e => .error e
    | .ok (st', out, buf') =>
      match bomFeed enc st' buf' bs with
      | .error e => .error e
      | .ok (more, rest) => .ok (out ++ more, rest)

end Verif.Spec
