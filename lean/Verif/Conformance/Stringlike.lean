import Verif.Conformance.Base

/-!
`/repo/tests/fields/stringlike_test.py` on the model.

Not replayed: a padding of the wrong type.  The round trip of a random UUID is replayed with one UUID.
-/

namespace Verif.Conformance

-- test_bytes__dump_too_short
example : raised (toBytes (mkBytes { size := .fixed 4 }) (.bytes b!"")) = some (.valueSize "") := by decide +kernel

-- test_bytes__dump_too_long
example : raised (toBytes (mkBytes { size := .fixed 4 }) (.bytes b!"!!!!!!!!!!!")) = some (.valueSize "") := by decide +kernel

-- test_bytes__null
example : toBytes (mkBytes { size := .fixed 7, nullValue := .dflt }) .none = .ok b!"\x00\x00\x00\x00\x00\x00\x00" := by decide +kernel

-- test_bytes__dump_null_default
example : toBytes (string { nullValue := .bytes b!"trash", dflt := .none }) .none = .ok b!"trash" := by decide +kernel

-- test_bytes__dump_null_factory
example : toBytes (mkBytes { nullValue := .bytes b!"NULL", factory := some (.ok .none), size := .fixed 4 }) .none = .ok b!"NULL" := by
  decide +kernel

-- test_string__load_basic
example : fromBytes (string { size := .fixed 13 }) b!"\xc2\xaf\\_(\xe3\x83\x84)_/\xc2\xaf" = .ok (.str u!"¯\\_(ツ)_/¯") := by decide +kernel

-- test_string__dump_basic
example : toBytes (string { size := .fixed 13 }) (.str u!"¯\\_(ツ)_/¯") = .ok b!"\xc2\xaf\\_(\xe3\x83\x84)_/\xc2\xaf" := by decide +kernel

-- test_string__dump_no_size
example : raised (toBytes string (.str u!"asdf")) = some (.undefinedSize "") := by decide +kernel

-- test_string__dump_null_default
example : toBytes (string { nullValue := .str u!"NULL", dflt := .none, size := .fixed 4 }) .none = .ok b!"NULL" := by decide +kernel
example : toBytes (string { nullValue := .bytes b!"NULL", dflt := .none, size := .fixed 4 }) .none = .ok b!"NULL" := by decide +kernel

-- test_string__dump_null_factory
example : toBytes (string { nullValue := .str u!"NULL", factory := some (.ok .none), size := .fixed 4 }) .none = .ok b!"NULL" := by
  decide +kernel
example : toBytes (string { nullValue := .bytes b!"NULL", factory := some (.ok .none), size := .fixed 4 }) .none = .ok b!"NULL" := by
  decide +kernel

-- test_string__dump_variable_size
example : toBytes (string { size := .ref "size" }) (.str u!"asdf") [("size", .int 4)] = .ok b!"asdf" := by decide +kernel

-- test_string__dump_too_long_before_encoding
example : raised (toBytes (string { size := .fixed 5 }) (.str u!"abcdefg")) = some (.valueSize "") := by decide +kernel

-- test_string__dump_too_long_after_encoding
example : raised (toBytes (string { size := .fixed 4 }) (.str u!"très")) = some (.valueSize "") := by decide +kernel

-- test_string__dump_too_short_before_encoding
example : raised (toBytes (string { size := .fixed 5 }) (.str u!"a")) = some (.valueSize "") := by decide +kernel

-- test_string__dump_too_short_before_encoding__pad
example : toBytes (string { size := .fixed 5 } (some b!" ")) (.str u!"a") = .ok b!"a    " := by decide +kernel

-- test_string__dump_too_short_after_encoding__pad
example : toBytes (mkString (utf32Codec .big) (some b!"\x00") { size := .fixed 8 }) (.str u!"a") =
    .ok b!"\x00\x00\x00a\x00\x00\x00\x00" := by decide +kernel

-- test_string__dump_too_long_before_encoding__pad
example : raised (toBytes (string { size := .fixed 5 } (some b!"?")) (.str u!"abcdefgh")) = some (.valueSize "") := by decide +kernel

-- test_string__dump_too_long_after_encoding__pad
example : raised (toBytes (mkString (utf16Codec .little) (some b!"?") { size := .fixed 3 }) (.str u!"ab")) = some (.valueSize "") := by
  decide +kernel

-- test_stringz__dump_null_default
example : toBytes (stringZ { size := .fixed 7, nullValue := .dflt }) .none = .ok b!"\x00\x00\x00\x00\x00\x00\x00" := by decide +kernel

-- test_stringz__unsized_dump_null_default
example : toBytes (stringZ { nullValue := .str u!"NULL", dflt := .none }) .none = .ok b!"NULL\x00" := by decide +kernel
example : toBytes (stringZ { nullValue := .bytes b!"NULL\x00", dflt := .none }) .none = .ok b!"NULL\x00" := by decide +kernel
example : toBytes (stringZ { nullValue := .str u!"NULL", factory := some (.ok .none) }) .none = .ok b!"NULL\x00" := by decide +kernel
example : toBytes (stringZ { nullValue := .bytes b!"NULL\x00", factory := some (.ok .none) }) .none = .ok b!"NULL\x00" := by
  decide +kernel

-- test_stringz__dump_too_long
example : raised (toBytes (stringZ { size := .fixed 5 }) (.str u!"asdfqwerty")) = some (.valueSize "") := by decide +kernel

-- test_stringz__dump_too_short
example : raised (toBytes (stringZ { size := .fixed 5 }) (.str u!"a")) = some (.valueSize "") := by decide +kernel

def stringZStringStruct : Except Err Classes := program [{
  name := "StringZStringStruct"
  body := [("size_field", .of (int 32 true)), ("data_field", .of (stringZ { size := .ref "size_field" }))] }]

-- test_stringz__dump_too_long__size_field
example : raised (dump stringZStringStruct "StringZStringStruct" [("size_field", .int 4), ("data_field", .str u!"asdfqwerty")]) =
    some (.valueSize "data_field") := by decide +kernel

-- test_stringz__dump_too_short__size_field
example : raised (dump stringZStringStruct "StringZStringStruct" [("size_field", .int 4), ("data_field", .str u!"a")]) =
    some (.valueSize "data_field") := by decide +kernel

-- test_string__load_null_default
example : fromBytes (string { size := .fixed 7, nullValue := .dflt }) b!"\x00\x00\x00\x00\x00\x00\x00" = .ok .none := by decide +kernel

-- test_string__null_value
example : fromBytes (mkString (utf16Codec .little) none { size := .fixed 8, nullValue := .bytes b!"N\x00U\x00L\x00L\x00" })
    b!"N\x00U\x00L\x00L\x00" = .ok .none := by decide +kernel
example : fromBytes (mkString (utf16Codec .little) none { size := .fixed 8, nullValue := .str u!"NULL" })
    b!"N\x00U\x00L\x00L\x00" = .ok .none := by decide +kernel

-- test_string__pad_byte_too_long
example : raised (string { size := .fixed 4 } (some b!"0123")) = some .configuration := by decide +kernel

-- test_string__pad_default
example : toBytes (string { size := .fixed 4, dflt := .str u!"?" } (some b!" ")) = .ok b!"?   " := by decide +kernel

-- test_stringz__pad
example : toBytes (stringZ { size := .fixed 4 } (some b!" ")) (.str u!"a") = .ok b!"a\x00  " := by decide +kernel

-- test_stringz__load_basic
example : fromBytes stringZ b!"\xc2\xaf\\_(\xe3\x83\x84)_/\xc2\xaf\x00" = .ok (.str u!"¯\\_(ツ)_/¯") := by decide +kernel

-- test_stringz__load_eof_before_null
example : (raised (fromBytes stringZ b!"\xc2\xaf\\_(\xe3\x83\x84)_/\xc2\xaf")).any Err.isDeserialization = true := by decide +kernel

-- test_stringz__dump_basic
example : toBytes stringZ (.str u!"¯\\_(ツ)_/¯") = .ok b!"\xc2\xaf\\_(\xe3\x83\x84)_/\xc2\xaf\x00" := by decide +kernel

-- test_stringz__dump_multibyte
example : toBytes (mkStringZ (utf32Codec .little) none {}) (.str u!"AbC") =
    .ok b!"A\x00\x00\x00b\x00\x00\x00C\x00\x00\x00\x00\x00\x00\x00" := by decide +kernel

-- test_stringz__load_null_value
example : fromBytes (stringZ { nullValue := .bytes b!"NULL\x00" }) b!"NULL\x00" = .ok .none := by decide +kernel
example : fromBytes (stringZ { nullValue := .str u!"NULL" }) b!"NULL\x00" = .ok .none := by decide +kernel

-- test_stringz__load_default_null_crashes
example : raised (fromBytes (stringZ { nullValue := .dflt }) b!"\x00") = some (.cannotDetermineNull "") := by decide +kernel

-- test_stringz__dump_default_null_crashes
example : raised (toBytes (stringZ { nullValue := .dflt }) .none) = some (.unserializable "") := by decide +kernel

-- test_stringz__load_with_default
example : fromBytes (stringZ { dflt := .str u!"abc123" }) b!"qwerty\x00" = .ok (.str u!"qwerty") := by decide +kernel

-- test_uuid_round_trip, with f81d4fae-7dec-41d0-a765-00a0c91e6bf6
example : toBytes (mkUUID .binaryVariant1 {}) (.uuid 0xf81d4fae7dec41d0a76500a0c91e6bf6) =
    .ok b!"\xf8\x1d\x4f\xae\x7d\xec\x41\xd0\xa7\x65\x00\xa0\xc9\x1e\x6b\xf6" := by decide +kernel
example : toBytes (mkUUID .binaryVariant2 {}) (.uuid 0xf81d4fae7dec41d0a76500a0c91e6bf6) =
    .ok b!"\xae\x4f\x1d\xf8\xec\x7d\xd0\x41\xa7\x65\x00\xa0\xc9\x1e\x6b\xf6" := by decide +kernel
example : toBytes (mkUUID .canonicalString {}) (.uuid 0xf81d4fae7dec41d0a76500a0c91e6bf6) =
    .ok b!"f81d4fae-7dec-41d0-a765-00a0c91e6bf6" := by decide +kernel
example : toBytes (mkUUID .hexString {}) (.uuid 0xf81d4fae7dec41d0a76500a0c91e6bf6) =
    .ok b!"f81d4fae7dec41d0a76500a0c91e6bf6" := by decide +kernel
example : ∀ fmt ∈ [UUIDFormat.binaryVariant1, .binaryVariant2, .canonicalString, .hexString],
    (toBytes (mkUUID fmt {}) (.uuid 0xf81d4fae7dec41d0a76500a0c91e6bf6)).bind (fromBytes (mkUUID fmt {})) =
      .ok (.uuid 0xf81d4fae7dec41d0a76500a0c91e6bf6) := by decide +kernel

-- test_uuid_short_read
example : (raised (fromBytes (mkUUID .canonicalString {}) b!"asdf")).any Err.isEOF = true := by decide +kernel

-- test_stringz__dump_multibyte_with_bom
example : toBytes (mkBomStringZ (.utf16 .little) none {}) (.str u!"AbCd") = .ok b!"\xff\xfeA\x00b\x00C\x00d\x00\x00\x00" := by decide +kernel
example : toBytes (mkBomStringZ (.utf16 .big) none {}) (.str u!"AbCd") = .ok b!"\xfe\xff\x00A\x00b\x00C\x00d\x00\x00" := by decide +kernel

-- test_stringz_load_multibyte
example : fromBytes (mkBomStringZ (.utf16 .little) none {}) b!"\xff\xfeA\x00b\x00C\x00d\x00\x00\x00" = .ok (.str u!"AbCd") := by decide +kernel
example : fromBytes (mkBomStringZ (.utf16 .little) none {}) b!"\xfe\xff\x00A\x00b\x00C\x00d\x00\x00" = .ok (.str u!"AbCd") := by decide +kernel

end Verif.Conformance
