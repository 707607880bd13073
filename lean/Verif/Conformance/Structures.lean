import Verif.Conformance.Base

/-!
`/repo/tests/structures_test.py`, `/repo/tests/serialization_test.py` and `/repo/tests/validators_test.py` on the model.

Not replayed: structs with an `__init__` of their own, copying of sentinels, the tests marked `xfail`.
-/

namespace Verif.Conformance

/-! ### structures_test.py -/

def uint24 : Except Err Field :=
  mkInteger .little "UnsignedInteger" (.fixed 3) false (some .little) { explicit := ["size", "endian"] }

def basic : List (String × Item) :=
  [("string", .of (string { size := .fixed 7 })), ("int64", .of (int 64 true (some .big))), ("uint24", .of uint24)]

def basicStruct : Except Err Classes := program [{ name := "BasicStruct", body := basic }]

-- test_getitem__basic
example : getItem basicStruct "BasicStruct" [("string", .str u!"string!"), ("int64", .int (-1)), ("uint24", .int 123456)] "int64" =
    .ok (.int (-1)) := by decide +kernel

-- test_getitem__no_such_field
example : raised (getItem basicStruct "BasicStruct" [] "asdfasdfasfsda") = some (.keyErr "asdfasdfasfsda") := by decide +kernel

-- test_eq_undefined
example : eq basicStruct "BasicStruct" [] .undefined = .ok true := by decide +kernel
example : eq basicStruct "BasicStruct" [("int64", .int 123)] .undefined = .ok false := by decide +kernel

-- test_eq_not_struct_or_mapping
example : eq basicStruct "BasicStruct" [] (.str u!"asduh48q3oth") = .ok false := by decide +kernel
example : eq basicStruct "BasicStruct" [("int64", .int 123)] (.int 123) = .ok false := by decide +kernel
example : eq basicStruct "BasicStruct" [("string", .str u!"abcdefg"), ("int64", .int 0), ("uint24", .int 0xC0FFEE)]
    (.bytes b!"abcdefg\x00\x00\x00\x00\x00\x00\x00\x00\xee\xff\xc0") = .ok false := by decide +kernel

-- test_eq_struct_with_struct
example : eq basicStruct "BasicStruct" [] (.struct "BasicStruct" []) = .ok true := by decide +kernel
example : eq basicStruct "BasicStruct" [("int64", .int 123)] (.struct "BasicStruct" [("int64", .int 123)]) = .ok true := by
  decide +kernel
example : eq basicStruct "BasicStruct" [("string", .str u!"1234")] (.struct "BasicStruct" []) = .ok false := by decide +kernel
example : eq basicStruct "BasicStruct" [("int64", .int 123), ("string", .str u!"")] (.struct "BasicStruct" [("int64", .int 123)]) =
    .ok false := by decide +kernel
example : eq basicStruct "BasicStruct" [("string", .str u!"1234")] (.struct "BasicStruct" [("string", .str u!"0987")]) =
    .ok false := by decide +kernel

-- test_iter_skips_undefined_keys
example : definedKeys [] = [] := by decide +kernel
example : definedKeys [("string", .str u!"1234567")] = ["string"] := by decide +kernel

-- test_basic__fields_loaded
example : (getClass basicStruct "BasicStruct").map
    (fun (_, d) => d.components.map fun f => (f.name, f.base.index, f.base.offset)) =
      .ok [("string", 0, some 0), ("int64", 1, some 7), ("uint24", 2, some 15)] := by decide +kernel

-- test_load__basic
example : loadStream basicStruct "BasicStruct" b!"abcdefg\x00\xba\xdc\x0f\xfe\xe1\x5b\xad\x01\x02\x03" =
    .ok ([("string", .str u!"abcdefg"), ("int64", .int 0x00BADC0FFEE15BAD), ("uint24", .int 0x030201)], 18) := by decide +kernel

-- test_load__short_read
example : raised (loadStream basicStruct "BasicStruct" b!"abcdefg\x00\xba\xdc\x0f\xfe\xe1\x5b\xad\x01") =
    some (.eof (some "uint24") 3 15) := by decide +kernel

-- test_loads__extra_bytes
example : raised (load basicStruct "BasicStruct" b!"abcdefghijklmnopqrstuwxyz") = some .extraneous := by decide +kernel

/-- `cls.partial_load(BytesIO(b), last)`: the values, and what `stream.tell()` and `stream.read()` return afterwards. -/
def partialLoad (p : Except Err Classes) (cls : String) (b : Bytes) (last : Option String := none) :
    Except Err (Dict × Nat × Bytes) :=
  (getClass p cls).bind fun (Γ, d) => match structPartialLoad Γ 20 d ⟨b, 0⟩ last .none with
    | (.ok vals, s) => .ok (vals, s.pos, b.drop s.pos)
    | (.error e, _) => .error e

-- test_partial_load__bad_column
example : raised (partialLoad basicStruct "BasicStruct" b!"zyxwvut\x00\xba\xdc\x0f\xfe\xe1\x5b\xad\x01" (some "lol")) =
    some .valueErr := by decide +kernel

-- test_partial_load__short_read
example : partialLoad basicStruct "BasicStruct" b!"zyxwvut\x00\xba\xdc\x0f\xfe\xe1\x5b\xad\x01" =
    .ok ([("string", .str u!"zyxwvut"), ("int64", .int 0x00BADC0FFEE15BAD)], 15, b!"\x01") := by decide +kernel

-- test_partial_load__stops
example : partialLoad basicStruct "BasicStruct" b!"zyxwvut\x00\xba\xdc\x0f\xfe\xe1\x5b\xad\x01\x02\x03extra data!" (some "int64") =
    .ok ([("string", .str u!"zyxwvut"), ("int64", .int 0x00BADC0FFEE15BAD)], 15, b!"\x01\x02\x03extra data!") := by decide +kernel

-- test_partial_load__short_read_of_required
example : (raised (partialLoad basicStruct "BasicStruct" b!"zyxwvut\x0b\xad" (some "int64"))).any Err.isEOF = true := by decide +kernel

/-- `cls.get_field(BytesIO(b), name)` and what `stream.tell()` returns afterwards. -/
def getField (p : Except Err Classes) (cls : String) (b : Bytes) (name : String) : Except Err (Value × Nat) :=
  (getClass p cls).bind fun (Γ, d) => match structGetField Γ 20 d ⟨b, 0⟩ name .none with
    | (.ok v, s) => .ok (v, s.pos)
    | (.error e, _) => .error e

-- test_get_field__basic
example : getField basicStruct "BasicStruct" b!"zyxwvut\x00\xba\xdc\x0f\xfe\xe1\x5b\xad" "int64" =
    .ok (.int 0x00BADC0FFEE15BAD, 0) := by decide +kernel
example : getField basicStruct "BasicStruct" b!"zyxwvut\x00\xba\xdc\x0f\xfe\xe1\x5b\xad" "string" = .ok (.str u!"zyxwvut", 0) := by
  decide +kernel

-- test_get_field__bad_name
example : raised (getField basicStruct "BasicStruct" b!"" ":)") = some .valueErr := by decide +kernel

-- test_dump__basic
example : dump basicStruct "BasicStruct" [("string", .str u!"AbCdEfG"), ("int64", .int (-100)), ("uint24", .int 65535)] =
    .ok b!"AbCdEfG\xff\xff\xff\xff\xff\xff\xff\x9c\xff\xff\x00" := by decide +kernel

-- test_dump__extra_fields
example : raised (new basicStruct "BasicStruct"
    [("string", .str u!"AbCdEfG"), ("int64", .int (-100)), ("uint24", .int 65535), ("one", .int 0)]) =
      some (.unexpectedValue ["one"]) := by decide +kernel
example : raised (new basicStruct "BasicStruct"
    [("string", .str u!"AbCdEfG"), ("int64", .int (-100)), ("uint24", .int 65535), ("one", .int 0), ("two", .int 0)]) =
      some (.unexpectedValue ["one", "two"]) := by decide +kernel

-- test_dump__missing_fields
example : raised (dump basicStruct "BasicStruct" [("string", .str u!"AbCdEfG"), ("uint24", .int 65535)]) =
    some (.missingRequired "int64") := by decide +kernel

def withDefaults : Except Err Classes := program [{
  name := "BasicStructWithDefaults"
  body := [("string", .of (string { size := .fixed 7 })), ("int64", .of (int 64 true (some .big) { dflt := .int 0 })),
    ("uint24", .of uint24)] }]

def sizes : Except Err Classes := program [
  { name := "VarlenStruct", body := [("n_items", .of (int 32 true)), ("items", .of (arrayOf (int 32 true) (.ref "n_items")))] },
  { name := "ConstArrayStruct", body := [("items", .of (arrayOf (int 32 true) (.fixed 10)))] },
  { name := "NestedConstArrayStruct"
    body := [("field_1", .of (string { size := .fixed 16 })),
      ("field_2", .field fun Γ => arrayOf (mkNested Γ 20 "ConstArrayStruct" {}) (.fixed 4))] }]

-- test_struct_size__basic
example : getSize basicStruct "BasicStruct" = .ok (some 18) := by decide +kernel

-- test_struct_size__varlen_returns_none
example : getSize sizes "VarlenStruct" = .ok none := by decide +kernel

-- test_struct_size__fixed_array_ok
example : getSize sizes "ConstArrayStruct" = .ok (some 40) := by decide +kernel

-- test_struct_size__nested_ok
example : getSize sizes "NestedConstArrayStruct" = .ok (some 176) := by decide +kernel

/-- `cls(**kwargs).partial_dump(stream, last)`: the bytes written. -/
def partialDump (p : Except Err Classes) (cls : String) (kwargs : Dict) (last : Option String := none) : Except Err Bytes :=
  (getClass p cls).bind fun (Γ, d) => (structInit d kwargs).bind fun vals =>
    (structPartialDump Γ 20 d vals last .none).toExcept

-- test_partial_dump__full
example : partialDump withDefaults "BasicStructWithDefaults" [("string", .str u!"AbCdEfG"), ("uint24", .int 65535)] =
    .ok b!"AbCdEfG\x00\x00\x00\x00\x00\x00\x00\x00\xff\xff\x00" := by decide +kernel

-- test_partial_dump__missing_last
example : partialDump withDefaults "BasicStructWithDefaults" [("string", .str u!"AbCdEfG")] =
    .ok b!"AbCdEfG\x00\x00\x00\x00\x00\x00\x00\x00" := by decide +kernel

-- test_partial_dump__include_trailing_default
example : partialDump withDefaults "BasicStructWithDefaults" [("string", .str u!"AbCdEfG"), ("uint24", .int 65535)] (some "int64") =
    .ok b!"AbCdEfG\x00\x00\x00\x00\x00\x00\x00\x00" := by decide +kernel

-- test_partial_dump__missing_values
example : raised (partialDump basicStruct "BasicStruct" [("string", .str u!"AbCdEfG"), ("uint24", .int 65535)] (some "uint24")) =
    some (.missingRequired "int64") := by decide +kernel

-- test_inheritance__basic_dump
example : dump (program [{ name := "BasicStruct", body := basic },
    { name := "InheritedStruct", bases := ["BasicStruct"]
      body := [("other_string", .of (mkStringZ (utf16Codec .little) none {}))] }]) "InheritedStruct"
    [("string", .str u!"       "), ("int64", .int 0xDEADBEEF), ("uint24", .int 0xFACE11), ("other_string", .str u!"AbCd!")] =
    .ok b!"       \x00\x00\x00\x00\xde\xad\xbe\xef\x11\xce\xfaA\x00b\x00C\x00d\x00!\x00\x00\x00" := by decide +kernel

-- test_inheritance__multiple_struct_inheritance_crashes
example : raised (program [{ name := "BasicStruct", body := basic }, { name := "BasicStructWithDefaults", body := basic },
    { name := "_Crash", bases := ["BasicStruct", "BasicStructWithDefaults"], body := [] }]) = some .multipleInheritance := by
  decide +kernel

-- test_inheritance__field_redefinition_crashes
example : raised (program [{ name := "BasicStruct", body := basic },
    { name := "_Crash", bases := ["BasicStruct"], body := [("string", .of (string { size := .fixed 7 }))] }]) =
      some (.fieldRedefined "string") := by decide +kernel

def discarding : Except Err Classes := program [{
  name := "_Dumb"
  body := [("first", .of (string { size := .fixed 2 })), ("reserved", .of (mkBytes { const := .bytes b!"\x00\x00", discard := true })),
    ("last", .of (string { size := .fixed 2 }))] }]

-- test_load__discarded_fields_not_present
example : (load discarding "_Dumb" b!"AB\x00\x00CD").bind (toDict discarding "_Dumb") =
    .ok [("first", .str u!"AB"), ("last", .str u!"CD")] := by decide +kernel

/-! ### serialization_test.py -/

-- test_dump__unserializable
example : raised (toBytes (int 32 true none { name := "field" }) (.int (2 ^ 32))) = some (.unserializable "field") := by decide +kernel

-- test_dump__use_default_value
example : toBytes (int 32 false (some .big) { name := "field", dflt := .int 0xDEADBEEF }) = .ok b!"\xde\xad\xbe\xef" := by decide +kernel

-- test_loads__extraneous_data_crashes
example : raised (fromBytes (mkBytes { name := "field", size := .fixed 3 }) b!"\xc0\xff\xee!") = some .extraneous := by decide +kernel

-- test_loads__no_size_crashes
example : raised (fromBytes string b!"123") = some (.undefinedSize "") := by decide +kernel

def overrides : Except Err Classes := program [{
  name := "StructWithFieldOverrides"
  body := [("one", .of (int 32 false (some .big))), ("two", .of (int 32 true (some .little)))] }]

-- test_accessor__getitem
example : structContains [("one", .int 1)] "one" = true := by decide +kernel
example : getItem overrides "StructWithFieldOverrides" [("one", .int 1)] "one" = .ok (.int 1) := by decide +kernel

-- test_accessor__getitem__no_such_field, test_accessor__setitem__no_such_field
example : raised (setItem overrides "StructWithFieldOverrides" [] "asdf" (.int 1)) = some (.keyErr "asdf") := by decide +kernel

/-- `str(all_fields["int_value"])` for natural numbers. -/
def intText (v : View) : Except Err Value :=
  (v.get "int_value").bind fun x => match x with
    | .int i => .ok (.str ((Nat.toDigits 10 i.toNat).map Char.toNat))
    | _ => .error .typeErr

-- test_computable_field_length
example : len (program [{
    name := "ComputedLengthStruct"
    body := [("int_value", .of (int 32 false)), ("value", computed stringZ intText)] }]) "ComputedLengthStruct"
    [("int_value", .int 1234)] = .ok 9 := by decide +kernel

-- test_accessor__setitem
example : (setItem overrides "StructWithFieldOverrides" [("one", .int 1)] "two" (.int 2)).bind
    (fun vals => getItem overrides "StructWithFieldOverrides" vals "two") = .ok (.int 2) := by decide +kernel

-- test_accessor__delitem
example : (delItem overrides "StructWithFieldOverrides" [("one", .int 1)] "one").map (structContains · "one") = .ok false := by
  decide +kernel

-- test_accessor__delitem__no_such_field
example : raised (delItem overrides "StructWithFieldOverrides" [("one", .int 1)] "basdfdasf") = some (.keyErr "basdfdasf") := by
  decide +kernel

-- test_len__basic
example : len overrides "StructWithFieldOverrides" [] = .ok 8 := by decide +kernel
example : len overrides "StructWithFieldOverrides" [("one", .int 1)] = .ok 8 := by decide +kernel
example : len overrides "StructWithFieldOverrides" [("one", .int 1), ("two", .int 2)] = .ok 8 := by decide +kernel

def stringZTest : Except Err Classes := program [{
  name := "StringZTestStruct"
  body := [("header", .of (int 32 false)), ("string", .of stringZ), ("trailer", .of (int 16 false))] }]

-- test_len__variable__assigned
example : len stringZTest "StringZTestStruct" [("header", .int 10), ("string", .str u!"abc"), ("trailer", .int 11)] = .ok 10 := by
  decide +kernel

-- test_len__variable__missing_some
example : len stringZTest "StringZTestStruct" [("string", .str u!"abc")] = .ok 10 := by decide +kernel

-- test_len__variable__missing_varlen
example : raised (len stringZTest "StringZTestStruct" []) = some (.missingRequired "string") := by decide +kernel

-- test_to_dict__all_defined
example : toDict overrides "StructWithFieldOverrides" [("one", .int 1), ("two", .int 2)] =
    .ok [("one", .int 1), ("two", .int 2)] := by decide +kernel

-- test_to_dict__crash_on_undefined
example : raised (toDict overrides "StructWithFieldOverrides" [("two", .int 2)]) = some (.missingRequired "one") := by decide +kernel

-- test_vli_write_size__dumps
example : dump (program [{
    name := "VLenBytes"
    body := [("length", computed (mkVarInt .vlq none {}) (lengthOf "data")), ("data", .of (mkBytes {}))] }]) "VLenBytes"
    [("data", .bytes b!"asdfghjkl;")] = .ok b!"\x0aasdfghjkl;" := by decide +kernel

/-! ### validators_test.py -/

/-- `alnum_validator`, on ASCII text. -/
def alnum : Value → Except Err Unit
  | .str s => if s ≠ [] ∧ s.all (fun c => (Char.ofNat c).isAlphanum) then .ok () else .error (.validation "alnum")
  | _ => .error .attributeErr

/-- A validator that wants an even length. -/
def even : Value → Except Err Unit
  | .str s => if s.length % 2 = 0 then .ok () else .error (.validation "length")
  | _ => .error .typeErr

-- test_field_validator__load_fails__one_func_passed
example : raised (fromBytes (string { size := .fixed 5, validate := [alnum] }) b!"ab!de") = some (.validation "alnum") := by
  decide +kernel

-- test_field_validator__dump_fails__one_func_passed
example : raised (toBytes (string { size := .fixed 5, validate := [alnum] }) (.str u!"ab!de")) = some (.validation "alnum") := by
  decide +kernel

def alnumStruct : Except Err Classes := program [{ name := "Class", body := [("text", .of (stringZ { validate := [alnum] }))] }]

-- test_field_validator__set_invalid_value_crashes
example : raised (setItem alnumStruct "Class" [] "text" (.str u!"!")) = some (.validation "alnum") := by decide +kernel

-- test_field_validator__init_invalid_value_doesnt_crash
example : raised (new alnumStruct "Class" [("text", .str u!"!")]) = none := by decide +kernel
example : raised (dump alnumStruct "Class" [("text", .str u!"!")]) = some (.validation "alnum") := by decide +kernel

def methodStruct : Except Err Classes := program [{
  name := "Class", body := [("text", .of stringZ), ("validate_text", .validates ["text"] fun _ v => alnum v)] }]

-- test_field_validator_method__dump_crashes
example : raised (dump methodStruct "Class" [("text", .str u!"!")]) = some (.validation "alnum") := by decide +kernel

-- test_field_validator_method__load_crashes
example : raised (load methodStruct "Class" b!"!\x00") = some (.validation "alnum") := by decide +kernel

def bothStruct : Except Err Classes := program [{
  name := "Class"
  body := [("text", .of (stringZ { validate := [alnum] })), ("validate_text", .validates ["text"] fun _ v => even v)] }]

-- test_field_validator_method__both_invoked
example : raised (dump bothStruct "Class" [("text", .str u!"??")]) = some (.validation "alnum") := by decide +kernel
example : raised (dump bothStruct "Class" [("text", .str u!"asd")]) = some (.validation "length") := by decide +kernel
example : (raised (dump bothStruct "Class" [("text", .str u!"crash?")])).isSome = true := by decide +kernel

/-- `dct["string"] != str(dct["integer"])` raises. -/
def stringsEqual (v : View) : Except Err Unit :=
  (v.get "string").bind fun s => (v.get "integer").bind fun i => match s, i with
    | .str s, .int i => if s = (Nat.toDigits 10 i.toNat).map Char.toNat then .ok () else .error (.validation "integer")
    | _, _ => .error .typeErr

def structValidated : Except Err Classes := program [
  { name := "Class", body := [("string", .of stringZ), ("integer", .of (int 8 true)), ("validator", .validatesStruct stringsEqual)] },
  { name := "Subclass", bases := ["Class"], body := [("const", .of (mkBytes { const := .bytes b!"asdf" }))] }]

-- test_struct_validator__basic
example : raised (dump structValidated "Class" [("string", .str u!"123"), ("integer", .int 456)]) =
    some (.validation "integer") := by decide +kernel

-- test_struct_validator__inheriting
example : raised (dump structValidated "Subclass" [("string", .str u!"123"), ("integer", .int 456)]) =
    some (.validation "integer") := by decide +kernel

/-- A validator that wants at most 126. -/
def notHigh : Value → Except Err Unit
  | .int i => if i > 126 then .error (.validation "high") else .ok ()
  | _ => .error .typeErr

def childValidators : Except Err Classes := program [
  { name := "Class"
    body := [("string", .of stringZ), ("integer", .of (int 8 true)), ("validator", .validates ["integer"] fun _ v => notHigh v)] },
  { name := "Subclass", bases := ["Class"]
    body := [("const", .of (mkBytes { const := .bytes b!"asdf" })), ("validator_2", .validates ["string"] fun _ v => even v)] }]

-- test_field_validator__child_doesnt_affect_parent
example : raised (dump childValidators "Subclass" [("string", .str u!"123"), ("integer", .int 123)]) =
    some (.validation "length") := by decide +kernel
example : raised (dump childValidators "Subclass" [("string", .str u!"1234"), ("integer", .int 4567)]) =
    some (.validation "high") := by decide +kernel
example : dump childValidators "Class" [("string", .str u!"123"), ("integer", .int 123)] = .ok b!"123\x00\x7b" := by decide +kernel

end Verif.Conformance
