import Verif.Model.Struct

/-!
# Vocabulary for statements about text
-/

namespace Verif.Spec

/-- The codecs of the model.  A code page must have no two bytes for one character, and one for NUL. -/
inductive Supported : CharCodec → Prop where
  | ascii : Supported asciiCodec
  | latin1 : Supported latin1Codec
  | charmap {table : UInt8 → Option Nat} : (∀ a b c, table a = some c → table b = some c → a = b) → (∃ a, table a = some 0) →
      Supported (charmapCodec table)
  | utf8 : Supported utf8Codec
  | utf16 (e : Endian) : Supported (utf16Codec e)
  | utf32 (e : Endian) : Supported (utf32Codec e)

/-- Laws of a strict, self-delimiting character codec. -/
structure Lawful (k : CharCodec) : Prop where
  /-- no character is encoded as nothing -/
  enc_ne : ∀ {c b}, k.enc c = some b → b ≠ []
  /-- an encoded character is recognized, whatever follows -/
  dec_enc : ∀ {c b}, k.enc c = some b → ∀ rest, k.dec (b ++ rest) = .char c b.length
  /-- a proper prefix of an encoded character is not mistaken for something else -/
  dec_prefix : ∀ {c b}, k.enc c = some b → ∀ p q, b = p ++ q → p ≠ [] → q ≠ [] → k.dec p = .more
  /-- only the canonical encoding of a character is accepted -/
  dec_canon : ∀ {b c n}, k.dec b = .char c n → n ≤ b.length ∧ k.enc c = some (b.take n)
  /-- NUL can be encoded -/
  enc_nul : (k.enc 0).isSome

/-- `A`-`Z` to `a`-`z`, as `str.lower` on ASCII text. -/
def asciiLower (c : UInt8) : UInt8 := if 65 ≤ c.toNat ∧ c.toNat ≤ 90 then c + 32 else c

/-- Feed the bytes of `input` to an incremental decoder one at a time, starting with `buf` pending: all the text that comes out, and what
is pending at the end. -/
def feedBytes (k : CharCodec) (buf : Bytes) : Bytes → Except Err (List Nat × Bytes)
  | [] => .ok ([], buf)
  | b :: bs =>
    match k.feed (buf ++ [b]) with
    | .error e => .error e
    | .ok (out, buf') =>
      match feedBytes k buf' bs with
      | .error e => .error e
      | .ok (more, rest) => .ok (out ++ more, rest)

end Verif.Spec
