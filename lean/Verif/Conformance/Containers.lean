import Verif.Conformance.Base

/-!
`/repo/tests/fields/containers_test.py` on the model.

Not replayed: a `count` or a choice of the wrong type, the test marked `xfail`.
A field passed as `count` before it has a name is a reference to the name `""`, which the model raises the same exception for.
-/

namespace Verif.Conformance

def nestedField (cls : String) (a : FieldArgs := {}) : Item := .field fun Γ => mkNested Γ 20 cls a

def mainStruct : Except Err Classes := program [
  { name := "SubStruct", body := [("first", .of (int 64 false (some .big))), ("second", .of (string { size := .fixed 7 }))] },
  { name := "MainStruct"
    body := [("before", .of (int 16 true (some .big))), ("nested", nestedField "SubStruct"), ("after", .of (int 8 true))] }]

-- test_nested__load_basic
example : load mainStruct "MainStruct" b!"\x01\x02\x76\x54\x32\x10\xfe\xdc\xba\x98String!\x7f" =
    .ok [("before", .int 0x0102),
      ("nested", .struct "SubStruct" [("first", .int 0x76543210FEDCBA98), ("second", .str u!"String!")]),
      ("after", .int 0x7F)] := by decide +kernel

-- test_nested__dump_basic
example : (setItem mainStruct "MainStruct" [("before", .int 0x0BAD), ("after", .int 0x7F)] "nested"
      (.struct "SubStruct" [("first", .int 0x0FAD), ("second", .str u!"HllWrld")])).bind (dump mainStruct "MainStruct") =
    .ok b!"\x0b\xad\x00\x00\x00\x00\x00\x00\x0f\xadHllWrld\x7f" := by decide +kernel

-- test_nested__dump_basic_dict_or_instance
example : dump mainStruct "MainStruct" [("before", .int 0x0BAD), ("after", .int 0x7F),
      ("nested", .dict [("first", .int 0x0FAD), ("second", .str u!"HllWrld")])] =
    .ok b!"\x0b\xad\x00\x00\x00\x00\x00\x00\x0f\xadHllWrld\x7f" := by decide +kernel
example : dump mainStruct "MainStruct" [("before", .int 0x0BAD), ("after", .int 0x7F),
      ("nested", .struct "SubStruct" [("first", .int 0x0FAD), ("second", .str u!"HllWrld")])] =
    .ok b!"\x0b\xad\x00\x00\x00\x00\x00\x00\x0f\xadHllWrld\x7f" := by decide +kernel

-- test_array__basic
example : fromBytes (arrayOf (int 8 false)) b!"\xde\xad\xbe\xef" = .ok (.list [.int 0xDE, .int 0xAD, .int 0xBE, .int 0xEF]) := by
  decide +kernel

-- test_array__sized__read
example : fromBytes (arrayOf (int 8 false) (.fixed 3)) b!"\xde\xad\xbe" = .ok (.list [.int 0xDE, .int 0xAD, .int 0xBE]) := by
  decide +kernel

-- test_array__sentinel
example : fromBytes ((int 16 false (some .little)).bind fun c =>
      mkArray c .none (some fun _ values _ _ => .ok (values.getLast? == some (.int 0xDEAD), values)) {})
      b!"\x00\x00\xff\x00\xad\xde\xff\xff" (exact := false) = .ok (.list [.int 0, .int 0xFF, .int 0xDEAD]) := by decide +kernel

/-- `fields.Array(fields.Nested(SubStruct), count=2)` -/
def arrayOfNested : Except Err Field :=
  mainStruct.bind fun Γ => (mkNested Γ 20 "SubStruct" {}).bind fun c => mkArray c (.fixed 2) none {}

-- test_array__load_nested
example : fromBytes arrayOfNested
      b!"\xc0\xff\xee\xde\xad\xbe\xef\x00ABCDEFG\xfa\xde\xdb\xed\xa5\x51\xed\x00HIJKLMN" (p := mainStruct) =
    .ok (.list [.struct "SubStruct" [("first", .int 0xC0FFEEDEADBEEF00), ("second", .str u!"ABCDEFG")],
      .struct "SubStruct" [("first", .int 0xFADEDBEDA551ED00), ("second", .str u!"HIJKLMN")]]) := by decide +kernel
example : mainStruct.bind (fun Γ => pyEq Γ 20
      (.list [.struct "SubStruct" [("first", .int 0xC0FFEEDEADBEEF00), ("second", .str u!"ABCDEFG")]])
      (.list [.dict [("first", .int 0xC0FFEEDEADBEEF00), ("second", .str u!"ABCDEFG")]])) = .ok true := by decide +kernel

-- test_array__dump_nested
example : toBytes arrayOfNested
      (.list [.dict [("first", .int 0xC0FFEEDEADBEEF00), ("second", .str u!"ABCDEFG")],
        .dict [("first", .int 0xFADEDBEDA551ED00), ("second", .str u!"HIJKLMN")]]) (p := mainStruct) =
    .ok b!"\xc0\xff\xee\xde\xad\xbe\xef\x00ABCDEFG\xfa\xde\xdb\xed\xa5\x51\xed\x00HIJKLMN" := by decide +kernel

def fixedArrayStruct : Except Err Classes := program [{
  name := "BasicStructWithArray"
  body := [("header", .of (string { const := .str u!"ABC" })), ("numbers", .of (arrayOf (int 16 false (some .big)) (.fixed 2))),
    ("trailer", .of (string { const := .str u!"XYZ" }))] }]

-- test_array__fixed_in_struct
example : loadStream fixedArrayStruct "BasicStructWithArray" b!"ABC\xde\xad\xbe\xefXYZ" =
    .ok ([("header", .str u!"ABC"), ("numbers", .list [.int 0xDEAD, .int 0xBEEF]), ("trailer", .str u!"XYZ")], 10) := by
  decide +kernel

/-- `bswsa_should_halt`: stops at a zero and takes it off the list. -/
def dropZero (values : List Value) : Except Err (Bool × List Value) :=
  if values.getLast? = some (.int 0) then .ok (true, values.dropLast) else .ok (false, values)

def sentinelArray : Except Err Classes := program [{
  name := "BasicStructWithSentinelArray"
  body := [("numbers", .of ((int 8 false).bind fun c => mkArray c .none (some fun _ values _ _ => dropZero values) {})),
    ("eof", .of (string { const := .str u!"ABC" }))] }]

-- test_array__variable_length_sentinel_in_struct
example : loadStream sentinelArray "BasicStructWithSentinelArray" b!"\x01\x02\x7f\x00ABC" =
    .ok ([("numbers", .list [.int 1, .int 2, .int 0x7F]), ("eof", .str u!"ABC")], 7) := by decide +kernel

def sizeFieldStruct : Except Err Classes := program [{
  name := "BasicStructWithArraySizeField"
  body := [("n_numbers", .of (int 8 false)), ("numbers", .of (arrayOf (int 8 false) (.ref "n_numbers"))),
    ("eof", .of (string { const := .str u!"ABC" }))] }]

-- test_array__variable_length_size_in_struct
example : loadStream sizeFieldStruct "BasicStructWithArraySizeField" b!"\x03\x01\x02\x7fABC" =
    .ok ([("n_numbers", .int 3), ("numbers", .list [.int 1, .int 2, .int 0x7F]), ("eof", .str u!"ABC")], 7) := by decide +kernel

-- test_array__variable_length_forward_reference_crashes
example : raised (load (program [{
    name := "_Crash"
    body := [("n_numbers", .of (int 8 false)), ("numbers", .of (arrayOf (int 8 false) (.ref "eof"))),
      ("eof", .of (string { const := .str u!"ABC" }))] }]) "_Crash" b!"\x00\x00ABC") = some (.fieldReference "eof") := by decide +kernel

-- test_array__dump_basic
example : dump sentinelArray "BasicStructWithSentinelArray"
      [("numbers", .list [.int 1, .int 2, .int 3, .int 0])] = .ok b!"\x01\x02\x03\x00ABC" := by decide +kernel

-- test_array__sized_dump_ok
example : toBytes (arrayOf stringZ (.fixed 2)) (.list [.str u!"abc", .str u!"123456"]) = .ok b!"abc\x00123456\x00" := by
  decide +kernel
example : toBytes (arrayOf stringZ (.fixed 2)) (.iter [.str u!"abc", .str u!"123456"]) = .ok b!"abc\x00123456\x00" := by
  decide +kernel

-- test_array__unsized_dump_ok
example : toBytes (arrayOf stringZ) (.list [.str u!"abc", .str u!"123456"]) = .ok b!"abc\x00123456\x00" := by decide +kernel

-- test_array__sized_dump_too_big__unsized_iterable
example : raised (toBytes (arrayOf (int 8 true) (.fixed 2)) (.iter ((List.range 10).map fun i : Nat => .int i))) =
    some (.arraySize "" 2 3) := by decide +kernel

-- test_array__sized_dump_too_big__sized_iterable
example : raised (toBytes (arrayOf (int 8 true) (.fixed 2)) (.list [.int 4, .int 8, .int 15, .int 16, .int 23, .int 42])) =
    some (.arraySize "" 2 6) := by decide +kernel

-- test_array__sized_dump_too_small__sized_iterable
example : raised (toBytes (arrayOf (int 32 true) (.fixed 100)) (.list [.int 4, .int 8, .int 15, .int 16, .int 23, .int 42])) =
    some (.arraySize "" 100 6) := by decide +kernel

-- test_array__sized_dump_too_small__unsized_iterable
example : raised (toBytes (arrayOf (int 32 true) (.fixed 100)) (.iter ((List.range 6).map fun i : Nat => .int i))) =
    some (.arraySize "" 100 6) := by decide +kernel

/-- `all_fields["half_size"] * 2` -/
def twiceHalf (v : View) : Except Err Value :=
  (v.get "half_size").bind fun x => match x with
    | .int i => .ok (.int (i * 2))
    | _ => .error .typeErr

def computedSizeArray : Except Err Classes := program [{
  name := "StructWithComputedSizeArray"
  body := [("half_size", .of (int 8 false)), ("size", computed (int 8 false) twiceHalf),
    ("stuff", .of (arrayOf (int 8 false) (.ref "size")))] }]

def fibonacci : Value := .list [.int 1, .int 1, .int 2, .int 3, .int 5, .int 8]

-- test_array__computed_size
example : getItem computedSizeArray "StructWithComputedSizeArray" [("half_size", .int 3), ("stuff", fibonacci)] "size" =
    .ok (.int 6) := by decide +kernel
example : dump computedSizeArray "StructWithComputedSizeArray" [("half_size", .int 3), ("stuff", fibonacci)] =
    .ok b!"\x03\x06\x01\x01\x02\x03\x05\x08" := by decide +kernel

/-- `choices[fields["data_type"]]` -/
def byDataType (fields : Dict) : Except Err Nat :=
  match fields.get? "data_type" with
  | some (.int i) => .ok i.toNat
  | some _ => .error .typeErr
  | none => .error (.keyErr "data_type")

def unionContainer : Except Err Classes := program [
  { name := "UnionItemA", body := [("_id", .of (int 8 false none { const := .int 0xFF })), ("value", .of stringZ)] },
  { name := "UnionItemB"
    body := [("_id", .of (int 8 false none { const := .int 0x7F })), ("other", .of (int 16 false (some .little)))] },
  { name := "UnionContainer"
    body := [("data_type", .of (int 8 false)),
      ("item", .of (mkUnion [.inr "UnionItemA", .inr "UnionItemB"] (fun _ _ loaded => byDataType loaded)
        (fun _ _ all => byDataType all) {}))] }]

-- test_union__structs__dump_basic__dict, test_union__structs__dump_basic
example : dump unionContainer "UnionContainer" [("data_type", .int 0), ("item", .dict [("value", .str u!"asdf")])] =
    .ok b!"\x00\xffasdf\x00" := by decide +kernel
example : dump unionContainer "UnionContainer" [("data_type", .int 1), ("item", .dict [("other", .int 0xAA55)])] =
    .ok b!"\x01\x7f\x55\xaa" := by decide +kernel
example : dump unionContainer "UnionContainer" [("data_type", .int 0), ("item", .struct "UnionItemA" [("value", .str u!"asdf")])] =
    .ok b!"\x00\xffasdf\x00" := by decide +kernel
example : dump unionContainer "UnionContainer" [("data_type", .int 1), ("item", .struct "UnionItemB" [("other", .int 0xAA55)])] =
    .ok b!"\x01\x7f\x55\xaa" := by decide +kernel

-- test_union__structs__load_basic
example : (load unionContainer "UnionContainer" b!"\x00\xffasdf\x00").bind (toDict unionContainer "UnionContainer") =
    .ok [("data_type", .int 0), ("item", .dict [("_id", .int 0xFF), ("value", .str u!"asdf")])] := by decide +kernel
example : (load unionContainer "UnionContainer" b!"\x01\x7f\x55\xaa").bind (toDict unionContainer "UnionContainer") =
    .ok [("data_type", .int 1), ("item", .dict [("_id", .int 0x7F), ("other", .int 0xAA55)])] := by decide +kernel

/-- `fields_dump_decider` -/
def byItemType (fields : Dict) : Except Err Nat :=
  match fields.get? "item" with
  | some (.str _) => .ok 0
  | some _ => .ok 1
  | none => .error (.keyErr "item")

def fieldsUnionContainer : Except Err Classes := program [{
  name := "FieldsUnionContainer"
  body := [("data_type", .of (int 8 false)),
    ("item", .of (stringZ.bind fun a => (int 16 false (some .little)).bind fun b =>
      mkUnion [.inl a, .inl b] (fun _ _ loaded => byDataType loaded) (fun _ _ all => byItemType all) {}))] }]

-- test_union__fields__dump_basic
example : dump fieldsUnionContainer "FieldsUnionContainer" [("data_type", .int 0), ("item", .str u!"asdf")] =
    .ok b!"\x00asdf\x00" := by decide +kernel
example : dump fieldsUnionContainer "FieldsUnionContainer" [("data_type", .int 1), ("item", .int 0xAA55)] =
    .ok b!"\x01\x55\xaa" := by decide +kernel

-- test_union__fields__load_basic
example : (load fieldsUnionContainer "FieldsUnionContainer" b!"\x00asdf\x00").bind
    (toDict fieldsUnionContainer "FieldsUnionContainer") = .ok [("data_type", .int 0), ("item", .str u!"asdf")] := by decide +kernel
example : (load fieldsUnionContainer "FieldsUnionContainer" b!"\x01\x55\xaa").bind
    (toDict fieldsUnionContainer "FieldsUnionContainer") = .ok [("data_type", .int 1), ("item", .int 0xAA55)] := by decide +kernel

-- test_union__dump_non_mapping_for_struct
example : raised (toBytes (stringZ.bind fun s => mkUnion [.inr "UnionContainer", .inl s] (fun _ _ _ => .error .typeErr)
    (fun _ _ _ => .ok 0) {}) (.str u!"foo") (p := unionContainer)) = some .typeErr := by decide +kernel

end Verif.Conformance
