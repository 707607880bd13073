import Verif.Conformance.Base

/-!
`/repo/tests/fields/numeric_test.py` on the model.

Not replayed: invalid constructor arguments of the wrong type (the types of the model rule them out), mocked `struct` functions,
conversions between time zones.  Tests that use the current time are replayed at one moment.
-/

namespace Verif.Conformance

-- test_integer_overflow
example : raised (toBytes (int 16 false) (.int 65536)) = some (.unserializable "") := by decide +kernel

-- test_integer_neg_with_positive
example : raised (toBytes (int 32 false) (.int (-1))) = some (.unserializable "") := by decide +kernel

-- test_integer_no_specified_size
example : raised (fromBytes (mkInteger .little "Integer" .none true none {}) b!"abc") = some (.undefinedSize "") := by decide +kernel
example : raised (toBytes (mkInteger .little "Integer" .none true none {}) (.int 123)) = some (.undefinedSize "") := by
  decide +kernel

-- test_const_set_size__varint
example : size (mkVarInt .vlq none { const := .int 987654321 }) = .ok (.fixed 5) := by decide +kernel

-- test_varint__underflow
example : raised (toBytes (mkVarInt .vlq none {}) (.int (-1))) = some (.unserializable "") := by decide +kernel

-- test_varint__basic_dump
example : toBytes (mkVarInt .vlq none {}) (.int 127) = .ok b!"\x7f" := by decide +kernel
example : toBytes (mkVarInt .vlq none {}) (.int 0x1234567890) = .ok b!"\x82\xa3\xa2\xd9\xf1\x10" := by decide +kernel

-- test_varint__basic_load
example : fromBytes (mkVarInt .vlq none {}) b!"\x3f" = .ok (.int 0x3F) := by decide +kernel

-- test_varint__max_bytes
example : raised (toBytes (mkVarInt .vlq (some 2) {}) (.int 100000)) = some (.valueSize "") := by decide +kernel

-- test_varint__dump_null_value
example : toBytes (mkVarInt .leb128 (some 2) { nullValue := .int (-1) }) .none = .ok b!"\x7f" := by decide +kernel
example : toBytes (mkVarInt .leb128 (some 2) { nullValue := .bytes b!"\x7f\xff" }) .none = .ok b!"\x7f\xff" := by decide +kernel

-- test_varint__load_null_value
example : fromBytes (mkVarInt .leb128 (some 2) { nullValue := .int (-1) }) b!"\x7f" = .ok .none := by decide +kernel
example : fromBytes (mkVarInt .leb128 (some 2) { nullValue := .bytes b!"\x7f\xff" }) b!"\x7f\xff" = .ok .none := by decide +kernel

-- test_varint__dump_default_null
example : toBytes (mkVarInt .uleb128 (some 2) { nullValue := .int 0x7F, dflt := .none }) .none = .ok b!"\x7f" := by decide +kernel

-- test_varint__dump_factory_null
example : toBytes (mkVarInt .uleb128 (some 2) { nullValue := .int 0x7F, factory := some (.ok .none) }) .none = .ok b!"\x7f" := by
  decide +kernel

-- test_varint__load_null_value_default_warns
example : raised (fromBytes (mkVarInt .leb128 (some 2) { nullValue := .dflt }) b!"\x1f") = some (.cannotDetermineNull "") := by
  decide +kernel

-- test_varint__dump_null_value_default_crashes
example : raised (toBytes (mkVarInt .leb128 (some 2) { nullValue := .dflt }) .none) = some (.unserializable "") := by decide +kernel

def float32 (e : Endian) : Except Err Field := mkFloat .little "Float32" binary32 (some e) {}
def float64 (e : Endian) : Except Err Field := mkFloat .little "Float64" binary64 (some e) {}

-- test_float__dumps: π, ∞, -∞ and NaN (the expected bytes are those of CPython's `struct.pack`)
example : toBytes (float32 .big) (.float 0x400921fb54442d18) = .ok b!"\x40\x49\x0f\xdb" := by decide +kernel
example : toBytes (float32 .little) (.float 0x400921fb54442d18) = .ok b!"\xdb\x0f\x49\x40" := by decide +kernel
example : toBytes (float64 .big) (.float 0x400921fb54442d18) = .ok b!"\x40\x09\x21\xfb\x54\x44\x2d\x18" := by decide +kernel
example : toBytes (float64 .little) (.float 0x400921fb54442d18) = .ok b!"\x18\x2d\x44\x54\xfb\x21\x09\x40" := by decide +kernel
example : toBytes (float32 .big) (.float 0x7ff0000000000000) = .ok b!"\x7f\x80\x00\x00" := by decide +kernel
example : toBytes (float32 .big) (.float 0xfff0000000000000) = .ok b!"\xff\x80\x00\x00" := by decide +kernel
example : toBytes (float32 .big) (.float 0x7ff8000000000000) = .ok b!"\x7f\xc0\x00\x00" := by decide +kernel
example : toBytes (float64 .big) (.float 0x7ff0000000000000) = .ok b!"\x7f\xf0\x00\x00\x00\x00\x00\x00" := by decide +kernel
example : toBytes (float64 .big) (.float 0xfff0000000000000) = .ok b!"\xff\xf0\x00\x00\x00\x00\x00\x00" := by decide +kernel
example : toBytes (float64 .big) (.float 0x7ff8000000000000) = .ok b!"\x7f\xf8\x00\x00\x00\x00\x00\x00" := by decide +kernel

-- test_float__loads
example : fromBytes (float32 .big) b!"\x40\x49\x0f\xdb" = .ok (.float 0x400921fb60000000) := by decide +kernel
example : fromBytes (float32 .little) b!"\xdb\x0f\x49\x40" = .ok (.float 0x400921fb60000000) := by decide +kernel
example : fromBytes (float64 .big) b!"\x40\x09\x21\xfb\x54\x44\x2d\x18" = .ok (.float 0x400921fb54442d18) := by decide +kernel
example : fromBytes (float64 .little) b!"\x18\x2d\x44\x54\xfb\x21\x09\x40" = .ok (.float 0x400921fb54442d18) := by decide +kernel
example : fromBytes (float32 .big) b!"\x7f\x80\x00\x00" = .ok (.float 0x7ff0000000000000) := by decide +kernel
example : fromBytes (float32 .big) b!"\xff\x80\x00\x00" = .ok (.float 0xfff0000000000000) := by decide +kernel

-- test_float16__loads
example : fromBytes (mkFloat .little "Float16" binary16 (some .little) {}) b!"\x70\x41" = .ok (.float 0x4005c00000000000) := by
  decide +kernel

-- test_float16__dumps
example : toBytes (mkFloat .little "Float16" binary16 (some .big) {}) (.int 65504) = .ok b!"\x7b\xff" := by decide +kernel

def timestamp (bits : Nat) (endian : Option Endian := none) (res : Resolution := .s) (tzAware : Bool := false) : Except Err Field :=
  mkTimestamp .little ("Timestamp" ++ toString bits) (.fixed (bits / 8)) res tzAware true endian {}

-- test_timestamp__loads__naive
example : fromBytes (timestamp 32 (some .little) .s true) b!"\x00\x00\x00\x80" = .ok (.datetime (-2147483648000000) true) := by
  decide +kernel
example : fromBytes (timestamp 32 (some .little) .s true) b!"\xff\xff\xff\x7f" = .ok (.datetime 2147483647000000 true) := by
  decide +kernel

-- test_timestamp__loads__aware
example : fromBytes (timestamp 32 (some .little) .s true) b!"\x01\x23\x45\x67" = .ok (.datetime 1732584193000000 true) := by
  decide +kernel

-- test_timestamp__loads__microseconds
example : fromBytes (timestamp 64 (some .big) .us true) b!"\x00\x05\x81\x85\x84\x32\xc1\xad" = .ok (.datetime 1549785332105645 true) := by
  decide +kernel

-- test_timestamp__roundtrip
example : (toBytes (timestamp 96 none .us true) (.datetime 1732584193654321 true)).bind (fromBytes (timestamp 96 none .us true)) =
    .ok (.datetime 1732584193654321 true) := by decide +kernel

-- test_timestamp__naive_assumes_local (where local time is UTC)
example : toBytes (timestamp 64 (some .little) .us true) (.datetime 1732584193654321 true) =
    toBytes (timestamp 64 (some .little) .us true) (.datetime 1732584193654321 false) := by decide +kernel

-- test_timestamp__naive_round_trip_truncated, test_timestamp__aware_round_trip_truncated
example : (toBytes (timestamp 64 (some .little)) (.datetime 1732584193654321 false)).bind (fromBytes (timestamp 64 (some .little))) =
    .ok (.datetime 1732584193000000 false) := by decide +kernel
example : (toBytes (timestamp 64 (some .little) .s true) (.datetime 1732584193654321 true)).bind
    (fromBytes (timestamp 64 (some .little) .s true)) = .ok (.datetime 1732584193000000 true) := by decide +kernel

-- test_2038_problem_caught__dumping
example : raised (toBytes (timestamp 32 none .s true) (.datetime 2147558400000000 true)) = some (.unserializable "") := by
  decide +kernel
example : raised (toBytes (timestamp 32) (.datetime 2147558400000000 false)) = some (.unserializable "") := by decide +kernel

end Verif.Conformance
