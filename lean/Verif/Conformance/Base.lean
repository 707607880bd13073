import Verif.Conformance.Varints
import Verif.Model.Bom

/-!
`/repo/tests/fields/base_test.py` on the model.

Not replayed: texts of exceptions and warnings, class attribute access, identity of objects, field
classes that call abstract methods.
-/

namespace Verif.Conformance

/-- `fields.String(encoding="utf-8", …)` -/
def string (a : FieldArgs := {}) (pad : Option Bytes := none) : Except Err Field := mkString utf8Codec pad a

/-- `fields.StringZ(encoding="utf-8", …)` -/
def stringZ (a : FieldArgs := {}) (pad : Option Bytes := none) : Except Err Field := mkStringZ utf8Codec pad a

/-- Integers of fixed size, on a little-endian machine unless told otherwise. -/
def int (bits : Nat) (signed : Bool) (endian : Option Endian := none) (a : FieldArgs := {}) : Except Err Field :=
  mkInteger .little ((if signed then "Int" else "UInt") ++ toString bits) (.fixed (bits / 8)) signed endian
    { a with explicit := if endian.isSome then ["endian"] else [] }

def allowNull (f : Except Err Field) : Except Err Bool := f.map fun f => f.base.allowNull

-- test_load__null_with_null_value_basic
example : allowNull (mkBytes { name := "field", size := .fixed 4, nullValue := .bytes b!" :( " }) = .ok true := by decide +kernel
example : fromBytes (mkBytes { name := "field", size := .fixed 4, nullValue := .bytes b!" :( " }) b!" :( " = .ok .none := by
  decide +kernel

-- test_load__null_with_default_null_value
example : fromBytes (mkBytes { name := "field", size := .fixed 4, nullValue := .dflt }) b!"\x00\x00\x00\x00" = .ok .none := by
  decide +kernel

-- test_loads__field_insufficient_data
example : (raised (fromBytes (string { size := .fixed 17 }) b!"abc")).any Err.isEOF = true := by decide +kernel

-- test_dump_default
example : toBytes (mkBytes { dflt := .bytes b!"\x00\x00" }) = .ok b!"\x00\x00" := by decide +kernel

-- test_const_sets_size__bytes
example : size (mkBytes { const := .bytes b!"abcdef" }) = .ok (.fixed 6) := by decide +kernel

-- test_default_doesnt_set_size__bytes
example : size (mkBytes { dflt := .bytes b!"asdfghjk" }) = .ok .none := by decide +kernel

-- test_const_set_size__string_ascii
example : size (string { const := .str u!"asdfghjkl" }) = .ok (.fixed 9) := by decide +kernel

-- test_const_set_size__string_utf16
example : size (mkString (utf16Codec .little) none { const := .str u!"asdf" }) = .ok (.fixed 8) := by decide +kernel

-- test_const_set_size__sized_int_works
example : size (int 64 true none { const := .int 1234567890 }) = .ok (.fixed 8) := by decide +kernel

-- test_const_set_size__stringz
example : size (stringZ { const := .str u!"asdf" }) = .ok (.fixed 5) := by decide +kernel

-- test_const_set_size__stringz_utf16
example : size (mkBomStringZ (.utf16 .little) none { const := .str u!"wxyz" }) = .ok (.fixed 12) := by decide +kernel

-- test_dump__null_with_null_value
example : toBytes (mkBytes { name := "field", size := .fixed 4, nullValue := .bytes b!" :( " }) .none = .ok b!" :( " := by
  decide +kernel

-- test_dump__null_with_default_null
example : toBytes (mkBytes { name := "field", size := .fixed 4, nullValue := .dflt }) .none = .ok b!"\x00\x00\x00\x00" := by
  decide +kernel

-- test_dump__null_with_default_and_varlen
example : raised (toBytes (stringZ { name := "field", nullValue := .dflt }) .none) = some (.unserializable "field") := by
  decide +kernel

-- test_dump__null_with_default_and_field_ref
example : toBytes (string { name := "string", size := .ref "size", nullValue := .dflt }) .none [("size", .int 5)] =
    .ok b!"\x00\x00\x00\x00\x00" := by decide +kernel

-- test_dump__no_null_value_crashes
example : raised (toBytes (mkBytes { name := "field", size := .fixed 4 }) .none) = some (.unserializable "field") := by
  decide +kernel

-- test_dump__allow_null_correctly_set
example : allowNull (mkBytes { name := "field", size := .fixed 4, nullValue := .bytes b!" :) " }) = .ok true := by decide +kernel
example : allowNull (mkBytes { name := "field", size := .fixed 4 }) = .ok false := by decide +kernel

-- test_dump__field_only__no_value_no_default
example : raised (toBytes (mkBytes { name := "field", size := .fixed 4 })) = some (.missingRequired "field") := by decide +kernel

def basicStructWithArray : Except Err Classes := program [{
  name := "BasicStructWithArray"
  body := [("header", .of (mkBytes { const := .bytes b!"ABC" })), ("numbers", .of (arrayOf (int 16 false (some .big)) (.fixed 2))),
    ("trailer", .of (mkBytes { const := .bytes b!"XYZ" }))] }]

-- test_set_const_crashes__setattr, test_set_const_crashes__setitem
example : raised (setItem basicStructWithArray "BasicStructWithArray" [] "header" (.bytes b!"ABC")) =
    some (.immutableField "header") := by decide +kernel

-- test_load__invalid_const
example : raised (load basicStructWithArray "BasicStructWithArray" b!"ASDFGHJXYZ") = some (.validation "header") := by decide +kernel

def circular : Except Err Classes := program [{
  name := "CircularReferenceComputedSize"
  body := [("count", computed (int 16 false (some .big)) (lengthOf "stuff")), ("stuff", .of (arrayOf stringZ (.ref "count")))] }]

-- test_set_computed_field__setattr, test_set_computed_field__setitem
example : raised (setItem circular "CircularReferenceComputedSize" [] "count" (.int 123)) = some (.immutableField "count") := by
  decide +kernel

-- test_circular_reference__load
example : load circular "CircularReferenceComputedSize" b!"\x00\x03abc\x00\x00defg\x00" =
    .ok [("count", .int 3), ("stuff", .list [.str u!"abc", .str u!"", .str u!"defg"])] := by decide +kernel

-- test_circular_reference__dump
example : getItem circular "CircularReferenceComputedSize" [("stuff", .list [.str u!"a", .str u!"bc", .str u!"def", .str u!""])]
    "count" = .ok (.int 4) := by decide +kernel
example : dump circular "CircularReferenceComputedSize" [("stuff", .list [.str u!"a", .str u!"bc", .str u!"def", .str u!""])] =
    .ok b!"\x00\x04a\x00bc\x00def\x00\x00" := by decide +kernel

-- test_circular_reference__updates__getattr, test_circular_reference__updates__getitem
example : (setItem circular "CircularReferenceComputedSize"
    [("stuff", .list [.str u!"a", .str u!"bc", .str u!"def", .str u!""])] "stuff" (.list [.str u!"qwerty", .str u!"uiop"])).bind
    (fun vals => getItem circular "CircularReferenceComputedSize" vals "count") = .ok (.int 2) := by decide +kernel

-- test_descriptor_get
example : getItem basicStructWithArray "BasicStructWithArray" [("header", .bytes b!"abc")] "header" = .ok (.bytes b!"abc") := by
  decide +kernel

-- test_descriptor_set
example : setItem basicStructWithArray "BasicStructWithArray" [] "numbers" (.list [.int 1, .int 2]) =
    .ok [("numbers", .list [.int 1, .int 2])] := by decide +kernel

/-- `f["flags"] & 0x8000` -/
def flagSet (v : View) : Except Err Bool :=
  (v.get "flags").bind fun x => match x with
    | .int i => .ok (i.toNat &&& 0x8000 ≠ 0)
    | _ => .error .typeErr

/-- `_flags` -/
def computeFlags (v : View) : Except Err Value :=
  let existing : Except Err Nat := match v.get "flags" with
    | .ok (.int i) => .ok i.toNat
    | .ok _ => .error .typeErr
    | .error (.keyErr _) => .ok 0
    | .error e => .error e
  existing.map fun e => .int ((if v.contains "thing" then e ||| 0x8000 else e : Nat) : Int)

def basicPresentStruct : Except Err Classes := program [{
  name := "BasicPresentStruct"
  body := [("flags", computed (int 16 false (some .little)) computeFlags),
    ("thing", .of (stringZ { present := fun f _ _ => flagSet f })),
    ("other_thing", .of (int 16 false (some .little) { const := .int 0x1234 }))] }]

-- test_present__load__not_present
example : load basicPresentStruct "BasicPresentStruct" b!"\xff\x7f\x34\x12" =
    .ok [("flags", .int 0x7FFF), ("thing", .notPresent), ("other_thing", .int 0x1234)] := by decide +kernel
example : (load basicPresentStruct "BasicPresentStruct" b!"\xff\x7f\x34\x12").bind (fun vals =>
    eq basicPresentStruct "BasicPresentStruct" vals
      (.dict [("flags", .int 0x7FFF), ("thing", .notPresent), ("other_thing", .int 0x1234)])) = .ok true := by decide +kernel

-- test_present__load__present
example : (load basicPresentStruct "BasicPresentStruct" b!"\xff\xffhello!\x00\x34\x12").bind (fun vals =>
    eq basicPresentStruct "BasicPresentStruct" vals
      (.dict [("flags", .int 0xFFFF), ("thing", .str u!"hello!"), ("other_thing", .int 0x1234)])) = .ok true := by decide +kernel

-- test_present__dump__not_present_not_given
example : dump basicPresentStruct "BasicPresentStruct" [("flags", .int 1), ("other_thing", .int 0x1337)] =
    .ok b!"\x01\x00\x37\x13" := by decide +kernel

-- test_present__dump_not_present_given_something
example : dump basicPresentStruct "BasicPresentStruct"
    [("flags", .int 1), ("thing", .undefined), ("other_thing", .int 0x1337)] = .ok b!"\x01\x00\x37\x13" := by decide +kernel
example : dump basicPresentStruct "BasicPresentStruct"
    [("flags", .int 1), ("thing", .notPresent), ("other_thing", .int 0x1337)] = .ok b!"\x01\x00\x37\x13" := by decide +kernel

/-- The byte orders of the integer fields of a class. -/
def endians (p : Except Err Classes) (cls : String) : Except Err (List Endian) :=
  (getClass p cls).map fun (_, d) => d.components.filterMap fun f => match f with
    | .leaf _ (.integer _ e) => some e
    | _ => none

-- test_binding_defaults_applied__basic
example : endians (program [{
    name := "Test", metaOpts := some [("endian", .big)]
    body := [("opposite", .of (int 32 true)), ("unaffected", .of (int 32 true (some .little)))] }]) "Test" =
    .ok [.big, .little] := by decide +kernel

-- test_binding_defaults_applied__class_name_prefix
example : endians (program [{
    name := "Test", metaOpts := some [("Int16__endian", .big)]
    body := [("opposite", .of (int 16 true)), ("same_16", .of (int 16 true (some .little))),
      ("unaffected", .of (int 32 true (some .little)))] }]) "Test" = .ok [.big, .little, .little] := by decide +kernel

-- test_default_and_factory_triggers_error
example : raised (int 8 true none { name := "asdf", dflt := .int 123, factory := some (.ok (.int 123)) }) =
    some .configuration := by decide +kernel

-- test_explicit_name_mismatch_triggers_error
example : raised (program [{ name := "Broken", body := [("asdf", .of (mkBytes { name := "qwerty", size := .fixed 10 }))] }]) =
    some .configuration := by decide +kernel

-- test_explicit_name_matches_no_error
example : raised (program [{ name := "ThisIsFine", body := [("asdf", .of (mkBytes { name := "asdf", size := .fixed 10 }))] }]) =
    none := by decide +kernel

-- test_noninteger_size_field_crashes
example : raised (fromBytes (string { name := "foo", size := .ref "bar" }) b!"sometext" [("bar", .str u!"8")]) = some .typeErr := by
  decide +kernel

-- test_get_expected_size_null_repr
example : (string { name := "foo", nullValue := .bytes b!"NULL" }).bind
    (fun f => fieldExpectedSize (fun _ => none) 20 f [("foo", .none)]) = .ok 4 := by decide +kernel

-- test_unserializable_null
example : raised (fromBytes (stringZ { nullValue := .dflt }) b!"string\x00") = some (.cannotDetermineNull "") := by decide +kernel

end Verif.Conformance
