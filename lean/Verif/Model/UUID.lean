import Verif.Py.Basic

/-!
# UUIDs

CPython's `uuid.UUID` as used by `UUID4`, `/repo/binobj/fields/stringlike.py:220-274`.  A UUID is its 128-bit integer.
-/

namespace Verif

/-- `UUIDFormat`, `/repo/binobj/fields/stringlike.py:192-217`. -/
inductive UUIDFormat where
  | binaryVariant1 | binaryVariant2 | canonicalString | hexString
  deriving DecidableEq, Repr, Inhabited

/-- The field size chosen by `UUID4.__init__`, `/repo/binobj/fields/stringlike.py:232-243`. -/
def UUIDFormat.size : UUIDFormat → Int
  | .binaryVariant1 | .binaryVariant2 => 16
  | .canonicalString => 36
  | .hexString => 32

/-- `UUID.bytes`: the integer, 16 bytes, big-endian. -/
def uuidBytes (n : Nat) : Bytes := Endian.big.arrange (natToLE 16 n)

/-- `bytes[3::-1] + bytes[5:3:-1] + bytes[7:5:-1] + bytes[8:]`, used for `UUID.bytes_le` and for `UUID(bytes_le=…)`. -/
def uuidSwap (b : Bytes) : Bytes :=
  (b.take 4).reverse ++ ((b.drop 4).take 2).reverse ++ ((b.drop 6).take 2).reverse ++ b.drop 8

/-- ASCII code of a lower-case hexadecimal digit. -/
def hexDigit (d : Nat) : UInt8 := if d < 10 then UInt8.ofNat (48 + d) else UInt8.ofNat (87 + d)

/-- `'%0kx' % n` restricted to the `k` low digits. -/
def hexDigits : Nat → Nat → Bytes
  | 0, _ => []
  | k + 1, n => hexDigits k (n / 16) ++ [hexDigit (n % 16)]

/-- `UUID.hex`, encoded as ASCII. -/
def uuidHex (n : Nat) : Bytes := hexDigits 32 n

/-- `str(UUID)`, encoded as ASCII: the digits with dashes after 8, 12, 16 and 20. -/
def uuidStr (n : Nat) : Bytes :=
  let h := uuidHex n
  h.take 8 ++ [45] ++ (h.drop 8).take 4 ++ [45] ++ (h.drop 12).take 4 ++ [45] ++ (h.drop 16).take 4 ++ [45] ++ h.drop 20

/-- Value of a hexadecimal digit. -/
def hexVal (c : UInt8) : Option Nat :=
  let x := c.toNat
  if 48 ≤ x ∧ x ≤ 57 then some (x - 48)
  else if 97 ≤ x ∧ x ≤ 102 then some (x - 87)
  else if 65 ≤ x ∧ x ≤ 70 then some (x - 55)
  else none

/-- `s.replace(pat, "")` for a non-empty `pat` (fuel: length of `s`). -/
def removeAll (pat : Bytes) : Nat → Bytes → Bytes
  | 0, s => s
  | _, [] => []
  | fuel + 1, c :: s =>
    if pat.isPrefixOf (c :: s) then removeAll pat fuel ((c :: s).drop pat.length)
    else c :: removeAll pat fuel s

/-- `s.strip(chars)` -/
def stripBytes (p : UInt8 → Bool) (s : Bytes) : Bytes :=
  ((s.dropWhile p).reverse.dropWhile p).reverse

/-- Digits of `int(s, 16)` after sign and prefix: single underscores may separate digits (they may also precede the first
one iff a `0x` prefix was given, which the caller encodes in `prevUnderscoreOk`). -/
def parseHexDigits : Bool → Nat → Bytes → Option Nat
  | sepOk, acc, [] => if sepOk then some acc else none
  | sepOk, acc, c :: s =>
    if c = 95 then
      if sepOk && s != [] then
        match s with
        | d :: s' => (hexVal d).bind fun v => parseHexDigits true (16 * acc + v) s'
        | [] => none
      else none
    else (hexVal c).bind fun v => parseHexDigits true (16 * acc + v) s

/-- The sign of a number (`true` for `-`), and the rest of it. -/
def splitSign (s : Bytes) : Bool × Bytes :=
  match s with
  | 43 :: r => (false, r)
  | 45 :: r => (true, r)
  | _ => (false, s)

/-- The magnitude of a hexadecimal number, optionally prefixed with `0x`. -/
def hexMagnitude (s : Bytes) : Option Nat :=
  match s with
  | 48 :: 120 :: r => if r = [] then none else parseHexDigits true 0 r
  | 48 :: 88 :: r => if r = [] then none else parseHexDigits true 0 r
  | [] => none
  | _ => parseHexDigits false 0 s

/-- `int(s, 16)` on an ASCII string; `none` is `ValueError`. -/
def parseHexInt (s : Bytes) : Option Int :=
  let isSpace := fun c : UInt8 => c = 32 || (9 ≤ c.toNat && c.toNat ≤ 13)
  let s := splitSign (stripBytes isSpace s)
  (hexMagnitude s.2).map fun (m : Nat) => if s.1 then -(m : Int) else (m : Int)

/-- `uuid.UUID(hex=s)` for an ASCII string `s`; `none` is `ValueError`. -/
def uuidOfHex (s : Bytes) : Option Nat :=
  let s := removeAll [117, 114, 110, 58] s.length s                      -- "urn:"
  let s := removeAll [117, 117, 105, 100, 58] s.length s                 -- "uuid:"
  let s := stripBytes (fun c => c = 123 || c = 125) s                    -- "{}"
  let s := removeAll [45] s.length s                                     -- "-"
  if s.length ≠ 32 then none
  else
    match parseHexInt s with
    | none => none
    | some i => if 0 ≤ i ∧ i < 2 ^ 128 then some i.toNat else none

/-- What `UUID4._do_dump` writes, `/repo/binobj/fields/stringlike.py:261-274`. -/
def uuidDump (f : UUIDFormat) (n : Nat) : Bytes :=
  match f with
  | .binaryVariant1 => uuidBytes n
  | .binaryVariant2 => uuidSwap (uuidBytes n)
  | .canonicalString => uuidStr n
  | .hexString => uuidHex n

/-- What `UUID4._do_load` returns for the bytes read, `/repo/binobj/fields/stringlike.py:255-259`
(`raw_data.decode("ascii")` raises on bytes ≥ 128). -/
def uuidParse (f : UUIDFormat) (raw : Bytes) : Except Err Nat :=
  match f with
  | .binaryVariant1 => .ok (natOfLE (Endian.big.arrange raw))
  | .binaryVariant2 => .ok (natOfLE (Endian.big.arrange (uuidSwap raw)))
  | .canonicalString | .hexString =>
    if raw.all (·.toNat < 128) then
      match uuidOfHex raw with
      | some n => .ok n
      | none => .error .valueErr
    else .error .unicodeErr

end Verif
