import Verif.Conformance.Util

/-! `/repo/tests/varints_test.py`, `/repo/tests/helpers_test.py` and `/repo/tests/decorators_test.py` on the model. -/

namespace Verif.Conformance

/-! ### varints_test.py -/

-- test_encode_vlq_basic
example : encodeVlq 0 = .ok b!"\x00" := by decide +kernel
example : encodeVlq 127 = .ok b!"\x7f" := by decide +kernel
example : encodeVlq 128 = .ok b!"\x81\x00" := by decide +kernel
example : encodeVlq 65535 = .ok b!"\x83\xff\x7f" := by decide +kernel

-- test_encode_vlq_negative_crashes
example : encodeVlq (-1) = .error .valueErr := by decide +kernel

-- test_decode_vlq_basic
example : decodeVlq ⟨b!"\x00", 0⟩ = (.ok 0, ⟨b!"\x00", 1⟩) := by decide +kernel
example : decodeVlq ⟨b!"\x7f", 0⟩ = (.ok 127, ⟨b!"\x7f", 1⟩) := by decide +kernel
example : decodeVlq ⟨b!"\x81\x00", 0⟩ = (.ok 128, ⟨b!"\x81\x00", 2⟩) := by decide +kernel
example : decodeVlq ⟨b!"\x83\xff\x7f", 0⟩ = (.ok 65535, ⟨b!"\x83\xff\x7f", 3⟩) := by decide +kernel

-- test_encode_compact
example : encodeCompact 0 = .ok b!"\x00" := by decide +kernel
example : encodeCompact 1 = .ok b!"\x01" := by decide +kernel
example : encodeCompact (-32767) = .ok b!"\xc1\xff\x7f" := by decide +kernel
example : encodeCompact 895484 = .ok b!"\xb6\xd3\x7c" := by decide +kernel

-- test_decode_compact
example : decodeCompact ⟨b!"\x00", 0⟩ = (.ok 0, ⟨b!"\x00", 1⟩) := by decide +kernel
example : decodeCompact ⟨b!"\x01", 0⟩ = (.ok 1, ⟨b!"\x01", 1⟩) := by decide +kernel
example : decodeCompact ⟨b!"\x41", 0⟩ = (.ok (-1), ⟨b!"\x41", 1⟩) := by decide +kernel
example : decodeCompact ⟨b!"\xc1\xff\x7f", 0⟩ = (.ok (-32767), ⟨b!"\xc1\xff\x7f", 3⟩) := by decide +kernel
example : decodeCompact ⟨b!"\xb6\xd3\x7c", 0⟩ = (.ok 895484, ⟨b!"\xb6\xd3\x7c", 3⟩) := by decide +kernel

-- test_encode_uleb128
example : encodeUleb128 0 = .ok b!"\x00" := by decide +kernel
example : encodeUleb128 127 = .ok b!"\x7f" := by decide +kernel
example : encodeUleb128 128 = .ok b!"\x80\x01" := by decide +kernel
example : encodeUleb128 7345004 = .ok b!"\xec\xa6\xc0\x03" := by decide +kernel
example : encodeUleb128 0xB1ACC0FFEE2BAD = .ok b!"\xad\xd7\xb8\xff\x8f\x98\xeb\x58" := by decide +kernel

-- test_encode_uleb128__negative_crashes
example : encodeUleb128 (-1) = .error .valueErr := by decide +kernel

-- test_decode_uleb128
example : decodeUleb128 ⟨b!"\x00", 0⟩ = (.ok 0, ⟨b!"\x00", 1⟩) := by decide +kernel
example : decodeUleb128 ⟨b!"\x7f", 0⟩ = (.ok 127, ⟨b!"\x7f", 1⟩) := by decide +kernel
example : decodeUleb128 ⟨b!"\xd2\x85\xd8\xcc\x04", 0⟩ = (.ok 1234567890, ⟨b!"\xd2\x85\xd8\xcc\x04", 5⟩) := by decide +kernel
example : decodeUleb128 ⟨b!"\xad\xd7\xb8\xff\x8f\x98\xeb\x58", 0⟩ =
    (.ok 0xB1ACC0FFEE2BAD, ⟨b!"\xad\xd7\xb8\xff\x8f\x98\xeb\x58", 8⟩) := by decide +kernel

/-- `SIGNED_LEB_VALUES` -/
def signedLebValues : List (Int × Bytes) := [
  (0, b!"\x00"), (63, b!"\x3f"), (64, b!"\xc0\x00"), (126, b!"\xfe\x00"), (127, b!"\xff\x00"), (128, b!"\x80\x01"),
  (-126, b!"\x82\x7f"), (-127, b!"\x81\x7f"), (-128, b!"\x80\x7f"),
  (0xB1ACC0FFEE2BAD, b!"\xad\xd7\xb8\xff\x8f\x98\xeb\xd8\x00"), (-0xB1ACC0FFEE2BAD, b!"\xd3\xa8\xc7\x80\xf0\xe7\x94\xa7\x7f")]

-- test_encode_signed_leb128
example : ∀ p ∈ signedLebValues, encodeLeb128 p.1 = .ok p.2 := by decide +kernel

-- test_decode_signed_leb128
example : ∀ p ∈ signedLebValues, decodeLeb128 ⟨p.2, 0⟩ = (.ok p.1, ⟨p.2, p.2.length⟩) := by decide +kernel

/-! ### helpers_test.py

`iter_bytes` is part of the model of `StringZ._do_load`; `sys.byteorder` is a parameter of the constructors. -/

-- test_write_int__endianness_default
example : writeInt 65432 2 false .big = .ok b!"\xff\x98" := by decide +kernel
example : writeInt 65432 2 false .little = .ok b!"\x98\xff" := by decide +kernel

-- test_peek_bytes__basic
example : peekBytes ⟨b!"qwertyuiop{}|", 0⟩ 7 = (.ok b!"qwertyu", ⟨b!"qwertyuiop{}|", 0⟩) := by decide +kernel
example : peekBytes ⟨b!"qwertyuiop{}|", 9⟩ 3 = (.ok b!"p{}", ⟨b!"qwertyuiop{}|", 9⟩) := by decide +kernel

-- test_peek_bytes__short_read_okay_is_default
example : peekBytes ⟨b!"qwertyuiop{}|", 13⟩ 2 = (.ok [], ⟨b!"qwertyuiop{}|", 13⟩) := by decide +kernel
example : peekBytes ⟨b!"qwertyuiop{}|", 10⟩ 5 = (.ok b!"{}|", ⟨b!"qwertyuiop{}|", 10⟩) := by decide +kernel

-- test_peek_bytes__short_read_crashes
example : peekBytes ⟨b!"qwertyuiop{}|", 13⟩ 9 false = (.error .eofErr, ⟨b!"qwertyuiop{}|", 13⟩) := by decide +kernel
example : peekBytes ⟨b!"qwertyuiop{}|", 10⟩ 5 false = (.error .eofErr, ⟨b!"qwertyuiop{}|", 10⟩) := by decide +kernel

/-! ### decorators_test.py -/

/-- `len(all_fields[name])` -/
def lengthOf (name : String) (v : View) : Except Err Value :=
  (v.get name).bind fun x => match x with
    | .list l => .ok (.int l.length)
    | .bytes b => .ok (.int b.length)
    | .str s => .ok (.int s.length)
    | _ => .error .typeErr

def uint16le : Except Err Field := mkInteger .little "UInt16" (.fixed 2) false (some .little) { explicit := ["endian"] }

/-- An array of `comp`. -/
def arrayOf (comp : Except Err Field) (count : Count := .none) (a : FieldArgs := {}) : Except Err Field :=
  comp.bind fun c => mkArray c count none a

def computesBasic : Except Err Classes := program [{
  name := "Class"
  body := [("n_items", computed uint16le (lengthOf "items")), ("items", .of (arrayOf uint16le (.ref "n_items")))] }]

-- test_computes__basic
example : dump computesBasic "Class" [("items", .list [.int 10, .int 3, .int 255, .int 3])] =
    .ok b!"\x04\x00\x0a\x00\x03\x00\xff\x00\x03\x00" := by decide +kernel

-- test_computes__rebind_fails
example : raised ((uint16le.bind fun f => fieldComputes f (lengthOf "items")).bind fun f => fieldComputes f (lengthOf "items")) =
    some .configuration := by decide +kernel

-- test_computes__const_field_fails
example : raised ((mkInteger .little "UInt16" (.fixed 2) false none { const := .int 1234 }).bind fun f =>
    fieldComputes f fun _ => .ok (.int 5678)) = some .configuration := by decide +kernel

end Verif.Conformance
