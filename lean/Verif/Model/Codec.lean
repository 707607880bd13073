import Verif.Py.Basic

/-!
# Text codecs

`String` and `StringZ` (`/repo/binobj/fields/stringlike.py:52-189`) use `str.encode`, `bytes.decode` and
`codecs.iterdecode` with an arbitrary encoding name.  The model covers *character-wise, stateless* codecs: each code
point is encoded on its own.  That includes ASCII, ISO 8859-1 (the default), the single-byte code pages, UTF-8, UTF-16-LE/BE and
UTF-32-LE/BE, defined below; it excludes codecs with shift
states; those with a byte-order mark are in `Model/Bom.lean`.

A Python `str` is a list of code points.
-/

namespace Verif

/-- One step of a decoder on a non-empty buffer. -/
inductive DecStep where
  | more                        -- the buffer is a proper prefix of an encoded character
  | bad                         -- UnicodeDecodeError
  | char (c n : Nat)            -- code point `c`, taking `n` bytes
  deriving DecidableEq, Repr

/-- A character-wise codec: `enc c = none` means `UnicodeEncodeError`. -/
structure CharCodec where
  enc : Nat → Option Bytes
  dec : Bytes → DecStep

namespace CharCodec

/-- `str.encode(encoding)` with `errors="strict"`. -/
def encode (k : CharCodec) : List Nat → Except Err Bytes
  | [] => .ok []
  | c :: cs =>
    match k.enc c with
    | none => .error .unicodeErr
    | some b =>
      match k.encode cs with
      | .error e => .error e
      | .ok bs => .ok (b ++ bs)

/-- Decode as many complete characters as possible; returns them and the undecoded rest (a proper prefix of a character,
or empty).  This is `_buffer_decode(data, "strict", final=False)` of CPython's `BufferedIncrementalDecoder`.  The fuel is
the length of the buffer. -/
def decodeSome (k : CharCodec) : Nat → Bytes → Except Err (List Nat × Bytes)
  | _, [] => .ok ([], [])
  | 0, b => .ok ([], b)
  | fuel + 1, b =>
    match k.dec b with
    | .bad => .error .unicodeErr
    | .more => .ok ([], b)
    | .char c n =>
      match k.decodeSome fuel (b.drop n) with
      | .error e => .error e
      | .ok (cs, r) => .ok (c :: cs, r)

/-- One call `decoder.decode(input, final=False)` with `buffer ++ input = b`. -/
def feed (k : CharCodec) (b : Bytes) : Except Err (List Nat × Bytes) := k.decodeSome b.length b

/-- `bytes.decode(encoding)`: everything must be decoded. -/
def decode (k : CharCodec) (b : Bytes) : Except Err (List Nat) :=
  match k.feed b with
  | .error e => .error e
  | .ok (cs, []) => .ok cs
  | .ok (_, _ :: _) => .error .unicodeErr

end CharCodec

/-- ASCII. -/
def asciiCodec : CharCodec where
  enc c := if c < 128 then some [UInt8.ofNat c] else none
  dec
    | [] => .more
    | b :: _ => if b.toNat < 128 then .char b.toNat 1 else .bad

/-- ISO 8859-1, the default encoding (`/repo/binobj/fields/stringlike.py:83`). -/
def latin1Codec : CharCodec where
  enc c := if c < 256 then some [UInt8.ofNat c] else none
  dec
    | [] => .more
    | b :: _ => .char b.toNat 1

/-- A single-byte code page (cp1252, ISO 8859-15, KOI8-R, EBCDIC, …), given by its decoding table, which has `none` for the bytes it leaves
undefined: `codecs.charmap_decode` and `codecs.charmap_encode`.  The encoding table is made from the decoding table; if several bytes stand
for one character, the last of them is used. -/
def charmapCodec (table : UInt8 → Option Nat) : CharCodec where
  enc c := (((List.range 256).map UInt8.ofNat).reverse.find? fun b => decide (table b = some c)).map fun b => [b]
  dec
    | [] => .more
    | b :: _ =>
      match table b with
      | some c => .char c 1
      | none => .bad

/-- Surrogate code points, which the UTF codecs refuse to encode. -/
def isSurrogate (c : Nat) : Bool := 0xD800 ≤ c && c < 0xE000

def isCont (b : UInt8) : Bool := 0x80 ≤ b.toNat && b.toNat < 0xC0

/-- UTF-8. -/
def utf8Codec : CharCodec where
  enc c :=
    if c < 0x80 then some [UInt8.ofNat c]
    else if c < 0x800 then some [UInt8.ofNat (0xC0 + c / 64), UInt8.ofNat (0x80 + c % 64)]
    else if isSurrogate c then none
    else if c < 0x10000 then
      some [UInt8.ofNat (0xE0 + c / 4096), UInt8.ofNat (0x80 + c / 64 % 64), UInt8.ofNat (0x80 + c % 64)]
    else if c < 0x110000 then
      some [UInt8.ofNat (0xF0 + c / 262144), UInt8.ofNat (0x80 + c / 4096 % 64),
            UInt8.ofNat (0x80 + c / 64 % 64), UInt8.ofNat (0x80 + c % 64)]
    else none
  dec
    | [] => .more
    | b0 :: r0 =>
      let x := b0.toNat
      if x < 0x80 then .char x 1
      else if x < 0xC2 then .bad
      else if x < 0xE0 then
        match r0 with
        | [] => .more
        | b1 :: _ => if isCont b1 then .char ((x - 0xC0) * 64 + (b1.toNat - 0x80)) 2 else .bad
      else if x < 0xF0 then
        match r0 with
        | [] => .more
        | b1 :: r1 =>
          if isCont b1 && (x != 0xE0 || 0xA0 ≤ b1.toNat) then
            match r1 with
            | [] => .more      -- CPython waits for the third byte even if `ED Ax` announces a surrogate
            | b2 :: _ =>
              if isCont b2 && (x != 0xED || b1.toNat < 0xA0) then
                .char ((x - 0xE0) * 4096 + (b1.toNat - 0x80) * 64 + (b2.toNat - 0x80)) 3
              else .bad
          else .bad
      else if x < 0xF5 then
        match r0 with
        | [] => .more
        | b1 :: r1 =>
          if isCont b1 && (x != 0xF0 || 0x90 ≤ b1.toNat) && (x != 0xF4 || b1.toNat < 0x90) then
            match r1 with
            | [] => .more
            | b2 :: r2 =>
              if isCont b2 then
                match r2 with
                | [] => .more
                | b3 :: _ =>
                  if isCont b3 then
                    .char ((x - 0xF0) * 262144 + (b1.toNat - 0x80) * 4096 + (b2.toNat - 0x80) * 64 +
                      (b3.toNat - 0x80)) 4
                  else .bad
              else .bad
          else .bad
      else .bad

/-- The two bytes of a 16-bit unit. -/
def unit16 (e : Endian) (u : Nat) : Bytes := e.arrange [UInt8.ofNat (u % 256), UInt8.ofNat (u / 256)]

/-- Value of two bytes as a 16-bit unit. -/
def unit16Val (e : Endian) (a b : UInt8) : Nat :=
  match e with
  | .little => a.toNat + 256 * b.toNat
  | .big => b.toNat + 256 * a.toNat

/-- UTF-16-LE / UTF-16-BE (no byte order mark). -/
def utf16Codec (e : Endian) : CharCodec where
  enc c :=
    if isSurrogate c then none
    else if c < 0x10000 then some (unit16 e c)
    else if c < 0x110000 then
      some (unit16 e (0xD800 + (c - 0x10000) / 1024) ++ unit16 e (0xDC00 + (c - 0x10000) % 1024))
    else none
  dec
    | a :: b :: r =>
      let u := unit16Val e a b
      if isSurrogate u then
        if u < 0xDC00 then
          match r with
          | a' :: b' :: _ =>
            let v := unit16Val e a' b'
            if isSurrogate v && 0xDC00 ≤ v then .char (0x10000 + (u - 0xD800) * 1024 + (v - 0xDC00)) 4 else .bad
          | _ => .more
        else .bad
      else .char u 2
    | _ => .more

/-- UTF-32-LE / UTF-32-BE (no byte order mark). -/
def utf32Codec (e : Endian) : CharCodec where
  enc c := if isSurrogate c || 0x110000 ≤ c then none else some (e.arrange (natToLE 4 c))
  dec
    | a :: b :: c :: d :: _ =>
      let u := natOfLE (e.arrange [a, b, c, d])
      if isSurrogate u || 0x110000 ≤ u then .bad else .char u 4
    | _ => .more

end Verif
