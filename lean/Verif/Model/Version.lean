import Verif.Py.Basic

/-!
# Version numbers

`VersionInfo` of `/repo/binobj/__init__.py:15-36`, which parses the version of the installed package when the library is imported (lines 39-40).
Text is a list of characters.
-/

namespace Verif

/-- What Python knows about characters that are not ASCII: which ones are decimal digits, with their values, and which ones are white space. -/
structure CharTable where
  digit : Char → Option Nat
  space : Char → Bool

/-- For ASCII this is fixed: `0` to `9`; and tab, line feed, vertical tab, form feed, carriage return and space (the characters that `int()` skips). -/
structure CharTable.Standard (U : CharTable) : Prop where
  digit : ∀ c : Char, c.toNat < 128 → U.digit c = if c.isDigit then some (c.toNat - '0'.toNat) else none
  space : ∀ c : Char, c.toNat < 128 → (U.space c = true ↔ c = ' ' ∨ (9 ≤ c.toNat ∧ c.toNat ≤ 13))

/-- Digits, with single underscores allowed between them; `after` says whether the character before was a digit. -/
def intDigits (U : CharTable) : Bool → Nat → List Char → Option Nat
  | after, acc, [] => if after then some acc else none
  | after, acc, c :: cs =>
    if c = '_' then (if after then intDigits U false acc cs else none)
    else
      match U.digit c with
      | some d => intDigits U true (acc * 10 + d) cs
      | none => none

/-- `text.strip()`, of white space. -/
def stripSpace (U : CharTable) (s : List Char) : List Char :=
  ((s.dropWhile U.space).reverse.dropWhile U.space).reverse

/-- Python's `int(text)`.  (Simplified: newer versions of Python also refuse more than 4300 digits.) -/
def pyInt (U : CharTable) (s : List Char) : Except Err Int :=
  let digits (sign : Int) (cs : List Char) : Except Err Int :=
    match intDigits U false 0 cs with
    | some n => .ok (sign * n)
    | none => .error .valueErr
  match stripSpace U s with
  | '+' :: cs => digits 1 cs
  | '-' :: cs => digits (-1) cs
  | cs => digits 1 cs

/-- `text.partition(sep)`, without the middle part. -/
def partitionAt (sep : Char) : List Char → List Char × List Char
  | [] => ([], [])
  | c :: cs => if c = sep then ([], cs) else (c :: (partitionAt sep cs).1, (partitionAt sep cs).2)

/-- `text.split(sep)`. -/
def splitAt (sep : Char) : List Char → List (List Char)
  | [] => [[]]
  | c :: cs =>
    if c = sep then [] :: splitAt sep cs
    else
      match splitAt sep cs with
      | [] => [[c]]
      | p :: ps => (c :: p) :: ps

/-- The named tuple, `/repo/binobj/__init__.py:15-21`. -/
structure VersionInfo where
  major : Int
  minor : Int
  patch : Int
  suffix : Option (List Char)
  deriving DecidableEq

/-- `VersionInfo.from_string`, `/repo/binobj/__init__.py:23-29`.  A text with fewer than two components cannot be unpacked: a `ValueError`, like
that of `int()`. -/
def VersionInfo.fromString (U : CharTable) (version : List Char) : Except Err VersionInfo :=
  let (base, suffix) := partitionAt '-' version
  match splitAt '.' base with
  | major :: minor :: possiblyPatch =>
    let patch := possiblyPatch.head?.getD ['0']
    match pyInt U major with
    | .error e => .error e
    | .ok x =>
      match pyInt U minor with
      | .error e => .error e
      | .ok y =>
        match pyInt U patch with
        | .error e => .error e
        | .ok z => .ok ⟨x, y, z, if suffix = [] then none else some suffix⟩
  | _ => .error .valueErr

/-- `str(n)` of an integer. -/
def pyStr (n : Int) : List Char := if n < 0 then '-' :: Nat.toDigits 10 n.natAbs else Nat.toDigits 10 n.natAbs

/-- `VersionInfo.__str__`, `/repo/binobj/__init__.py:31-36`: a suffix that is `None` or empty is left out. -/
def VersionInfo.toText (v : VersionInfo) : List Char :=
  let numbers := pyStr v.major ++ '.' :: pyStr v.minor ++ '.' :: pyStr v.patch
  match v.suffix with
  | some (c :: cs) => numbers ++ '-' :: c :: cs
  | _ => numbers

/-- `a < b` of two strings: by code points. -/
def textLess : List Char → List Char → Bool
  | _, [] => false
  | [], _ :: _ => true
  | a :: as, b :: bs => if a = b then textLess as bs else decide (a.toNat < b.toNat)

/-- `v < w`: named tuples are compared as tuples, that is, by the first component that differs; `None` and a string cannot be compared. -/
def VersionInfo.less (v w : VersionInfo) : Except Err Bool :=
  if v.major ≠ w.major then .ok (decide (v.major < w.major))
  else if v.minor ≠ w.minor then .ok (decide (v.minor < w.minor))
  else if v.patch ≠ w.patch then .ok (decide (v.patch < w.patch))
  else
    match v.suffix, w.suffix with
    | none, none => .ok false
    | some a, some b => .ok (textLess a b)
    | _, _ => .error .typeErr

end Verif
