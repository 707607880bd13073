import Verif.Model.Init

/-!
# Encodings with a byte order mark

`String` and `StringZ` with `encoding` `utf-16`, `utf-32` or `utf-8-sig` (`/repo/binobj/fields/stringlike.py:52-189`; see also the
note in the class documentation, lines 70-74).  These encodings are not character-wise: encoding puts a mark in front of the text, and
decoding looks for it.  The definitions follow CPython: `Modules/_codecsmodule.c` (`utf_16_encode`, `utf_16_ex_decode`),
`Lib/encodings/utf_16.py`, `utf_32.py`, `utf_8_sig.py`.

The fields are leaves with their own `_do_dump`, `_do_load`, `_size_for_value` and `_add_padding` (`CustomOps`), which repeat the bodies of the
methods in `stringlike.py` with these codecs.  They hold the attributes `b` of the field (`self`), so a field has to be made with the attributes it
has in the end, its name included; the class creation of `Model/Class.lean`, which sets names later, is not used with them.
-/

namespace Verif

/-- The encodings with a mark; `native` is `sys.byteorder`. -/
inductive BomEncoding where
  | utf16 (native : Endian)
  | utf32 (native : Endian)
  | utf8sig
  deriving DecidableEq, Repr

/-- What a decoder finds at the beginning of the data. -/
inductive Sniff where
  | more                                 -- too short to tell
  | absent                               -- no mark
  | found (k : CharCodec) (n : Nat)      -- a mark of `n` bytes; the text is in `k`

namespace BomEncoding

/-- The character codec of text without a mark, which is also the one used for encoding. -/
def base : BomEncoding → CharCodec
  | utf16 native => utf16Codec native
  | utf32 native => utf32Codec native
  | utf8sig => utf8Codec

/-- The mark that encoding puts in front: U+FEFF. -/
def mark : BomEncoding → Bytes
  | utf16 .little => [0xFF, 0xFE]
  | utf16 .big => [0xFE, 0xFF]
  | utf32 .little => [0xFF, 0xFE, 0, 0]
  | utf32 .big => [0, 0, 0xFE, 0xFF]
  | utf8sig => [0xEF, 0xBB, 0xBF]

/-- Look for a mark: `PyUnicode_DecodeUTF16Stateful` and `PyUnicode_DecodeUTF32Stateful` with `byteorder = 0`, and
`utf_8_sig.py`. -/
def sniff : BomEncoding → Bytes → Sniff
  | utf16 _, a :: b :: _ =>
    if a = 0xFF ∧ b = 0xFE then .found (utf16Codec .little) 2
    else if a = 0xFE ∧ b = 0xFF then .found (utf16Codec .big) 2
    else .absent
  | utf16 _, _ => .more
  | utf32 _, a :: b :: c :: d :: _ =>
    if a = 0xFF ∧ b = 0xFE ∧ c = 0 ∧ d = 0 then .found (utf32Codec .little) 4
    else if a = 0 ∧ b = 0 ∧ c = 0xFE ∧ d = 0xFF then .found (utf32Codec .big) 4
    else .absent
  | utf32 _, _ => .more
  | utf8sig, a :: b :: c :: _ => if a = 0xEF ∧ b = 0xBB ∧ c = 0xBF then .found utf8Codec 3 else .absent
  | utf8sig, [a, b] => if a = 0xEF ∧ b = 0xBB then .more else .absent
  | utf8sig, [a] => if a = 0xEF then .more else .absent
  | utf8sig, [] => .more

/-- `str.encode(encoding)`. -/
def encode (enc : BomEncoding) (s : List Nat) : Except Err Bytes := (enc.base.encode s).map (enc.mark ++ ·)

/-- `bytes.decode(encoding)`. -/
def decode (enc : BomEncoding) (b : Bytes) : Except Err (List Nat) :=
  match enc.sniff b with
  | .found k n => k.decode (b.drop n)
  | .absent | .more => enc.base.decode b

/-- `IncrementalDecoder._buffer_decode(b, "strict", False)`: `st` is the decoder chosen when the mark was read (`self.decoder` in `utf_16.py`
and `utf_32.py`, `not self.first` in `utf_8_sig.py`), `b` the buffer and the new input.  Gives the new `st`, the text and the new buffer.  The
decoders of `utf_16.py` and `utf_32.py` raise `UnicodeError` when text comes before a mark. -/
def step (enc : BomEncoding) (st : Option CharCodec) (b : Bytes) : Except Err (Option CharCodec × List Nat × Bytes) :=
  match st with
  | some k => (k.feed b).map fun o => (some k, o)
  | none =>
    match enc.sniff b with
    | .more => .ok (none, [], b)
    | .found k n => (k.feed (b.drop n)).map fun o => (some k, o)
    | .absent =>
      match enc with
      | utf8sig => (utf8Codec.feed b).map fun o => (some utf8Codec, o)
      | _ =>
        match enc.base.feed b with
        | .error e => .error e
        | .ok (out, rest) => if rest.length < b.length then .error .unicodeErr else .ok (none, out, rest)

/-- `decoder.decode(b"", final=True)` when the input is exhausted, then the `raise` at `/repo/binobj/fields/stringlike.py:178`.  What is left
in the buffer is an error, except that the decoder of `utf_8_sig.py` says nothing about the beginning of a mark. -/
def atEnd (enc : BomEncoding) (name : String) (st : Option CharCodec) (buf : Bytes) : Err :=
  if buf = [] then .deser (some name)
  else
    match enc, st with
    | utf8sig, none => .deser (some name)
    | _, _ => .unicodeErr

end BomEncoding

/-- `String._encode_and_resize`, `/repo/binobj/fields/stringlike.py:116-141`. -/
def bomEncodeAndResize (name : String) (enc : BomEncoding) (pad : Option UInt8) (s : List Nat) (expSize : Except Err Int) :
    Except Err Bytes :=
  match enc.encode s with
  | .error e => .error e
  | .ok toDump =>
    match expSize with
    | .error e => .error e
    | .ok writeSize =>
      let sizeDiff := (toDump.length : Int) - writeSize
      if sizeDiff > 0 then .error (.valueSize name)
      else if sizeDiff < 0 then
        match pad with
        | none => .error (.valueSize name)
        | some p => .ok (toDump ++ List.replicate (-sizeDiff).toNat p)
      else .ok toDump

/-- `String._add_padding`, `/repo/binobj/fields/stringlike.py:143-146`.  Without a `pad_byte` it is the base class's, which raises
`ValueSizeError` as well. -/
def bomAddPadding (pad : Option UInt8) : Option (Bytes → Int → Except Err Bytes) :=
  pad.map fun p serialized toSize => .ok (serialized ++ List.replicate (toSize - serialized.length).toNat p)

/-- `String._do_dump`, `/repo/binobj/fields/stringlike.py:109-114`. -/
def bomStringDump (b : FieldBase) (enc : BomEncoding) (pad : Option UInt8) (expSize : Except Err Int) (v : Value) : W :=
  match v with
  | .str s => W.ofExcept (bomEncodeAndResize b.name enc pad s expSize)
  | _ => W.fail .attributeErr

/-- `String._size_for_value`, `/repo/binobj/fields/stringlike.py:148-149`. -/
def bomStringSizeFor (enc : BomEncoding) (v : Value) : Except Err (Option Int) :=
  match v with
  | .str s => (enc.encode s).map fun bs => some (bs.length : Int)
  | _ => .error .attributeErr

/-- `get_expected_size` of a `String`, `/repo/binobj/fields/base.py:578-656` (see `leafExpectedSize`). -/
def bomStringExpectedSize (b : FieldBase) (enc : BomEncoding) (pad : Option UInt8) (values : Dict) : Except Err Int :=
  let buggy : Except Err Int := .error (.buggyField b.name)
  b.expectedSizeWith (bomStringSizeFor enc) (b.nullReprWith (fun v => bomStringDump b enc pad buggy v) buggy) values

/-- A `String` with one of these encodings, `/repo/binobj/fields/stringlike.py:52-149`. -/
def bomStringOps (b : FieldBase) (enc : BomEncoding) (pad : Option UInt8) : CustomOps where
  dump v _ all := bomStringDump b enc pad (bomStringExpectedSize b enc pad all) v
  load s _ loaded := R.andThen (readExactSize b.name (bomStringExpectedSize b enc pad loaded) s) fun data => (enc.decode data).map .str
  sizeFor := some (bomStringSizeFor enc)
  pad := bomAddPadding pad

/-- `StringZ._do_dump`, `/repo/binobj/fields/stringlike.py:182-186`. -/
def bomStringzDump (enc : BomEncoding) (v : Value) : W :=
  match v with
  | .str s => W.ofExcept (enc.encode (s ++ [0]))
  | _ => W.fail .typeErr

/-- `StringZ._size_for_value`, `/repo/binobj/fields/stringlike.py:188-189`. -/
def bomStringzSizeFor (enc : BomEncoding) (v : Value) : Except Err (Option Int) :=
  match v with
  | .str s => (enc.encode (s ++ [0])).map fun bs => some (bs.length : Int)
  | _ => .error .typeErr

/-- `get_expected_size` of a `StringZ`, `/repo/binobj/fields/base.py:578-656` (see `leafExpectedSize`). -/
def bomStringzExpectedSize (b : FieldBase) (enc : BomEncoding) (values : Dict) : Except Err Int :=
  b.expectedSizeWith (bomStringzSizeFor enc) (b.nullReprWith (fun v => bomStringzDump enc v) (.error (.buggyField b.name))) values

/-- The loop of `StringZ._do_load`, `/repo/binobj/fields/stringlike.py:168-180`, as `stringzLoop`, with a decoder that has a state. -/
def bomLoop (name : String) (enc : BomEncoding) (maxBytes : Option Int) :
    Nat → (nRead : Nat) → (st : Option CharCodec) → (buf : Bytes) → (acc : List Nat) → Stream → Except Err (List Nat) × Stream
  | fuel, nRead, st, buf, acc, s =>
    let stop : Bool := match maxBytes with
      | some m => decide ((nRead : Int) ≥ m)
      | none => false
    if stop then (.error (enc.atEnd name st buf), s)
    else
      match s.read 1 with
      | ([], s) => (.error (enc.atEnd name st buf), s)
      | (b :: _, s) =>
        match enc.step st (buf ++ [b]) with
        | .error e => (.error e, s)
        | .ok (st', out, buf') =>
          if out = [0] then (.ok acc, s)
          else
            match fuel with
            | 0 => (.error .outOfFuel, s)
            | fuel + 1 => bomLoop name enc maxBytes fuel (nRead + 1) st' buf' (acc ++ out) s

/-- `StringZ._do_load`, `/repo/binobj/fields/stringlike.py:158-180`. -/
def bomStringzLoad (b : FieldBase) (enc : BomEncoding) (expSize : Except Err Int) (s : Stream) : R Value :=
  match expSize with
  | .ok n => R.map (bomLoop b.name enc (some n) s.rest.length 0 none [] [] s) .str
  | .error (.undefinedSize _) => R.map (bomLoop b.name enc none s.rest.length 0 none [] [] s) .str
  | .error e => (.error e, s)

/-- A `StringZ` with one of these encodings, `/repo/binobj/fields/stringlike.py:152-189`. -/
def bomStringzOps (b : FieldBase) (enc : BomEncoding) (pad : Option UInt8) : CustomOps where
  dump v _ _ := bomStringzDump enc v
  load s _ loaded := bomStringzLoad b enc (bomStringzExpectedSize b enc loaded) s
  sizeFor := some (bomStringzSizeFor enc)
  pad := bomAddPadding pad

/-- `String(encoding=…)`, `/repo/binobj/fields/stringlike.py:80-99`. -/
def mkBomString (enc : BomEncoding) (pad : Option Bytes) (a : FieldArgs) : Except Err Field :=
  let make (pad : Option UInt8) : Except Err Field :=
    (fieldInit "String" (constSize (.custom (bomStringOps {} enc pad))) a).map fun b => .leaf b (.custom (bomStringOps b enc pad))
  match pad with
  | none => make none
  | some [p] => make (some p)
  | some _ => .error .configuration

/-- `StringZ(encoding=…)`, `/repo/binobj/fields/stringlike.py:80-99, 152-189`. -/
def mkBomStringZ (enc : BomEncoding) (pad : Option Bytes) (a : FieldArgs) : Except Err Field :=
  let make (pad : Option UInt8) : Except Err Field :=
    (fieldInit "StringZ" (constSize (.custom (bomStringzOps {} enc pad))) a).map fun b => .leaf b (.custom (bomStringzOps b enc pad))
  match pad with
  | none => make none
  | some [p] => make (some p)
  | some _ => .error .configuration

end Verif
