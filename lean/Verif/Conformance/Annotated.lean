import Verif.Conformance.Base

/-!
`/repo/tests/pep526_test.py` and `/repo/tests/pep526_no_future_test.py` (the same tests twice) on the model.

An annotation is given in the form `AnnotationInfo` reduces it to: `Annotated[int, UInt32]` is the list of its metadata.  The encoding
of the text fields is UTF-8 here.  Not replayed: class attributes, callable defaults and their warning.
-/

namespace Verif.Conformance

/-- `@dataclass class name(bases): body` with the given type hints, after the statements of `before`. -/
def dataclass (before : Except Err Classes) (s : Statement) (hints : List Hint) : Except Err Classes :=
  before.bind fun Γ => (evalBody Γ s.body).bind fun body => (fromClass Γ 20 ⟨s.name, s.bases, body, s.metaOpts⟩).bind fun d =>
    (pep526Dataclass (Γ.add d) 20 d hints).map Γ.add

def uint16Class : Annotation := .fieldClass (fun a => int 16 false none a) false
def uint32Class : Annotation := .fieldClass (fun a => int 32 false none a) false
def stringZClass : Annotation := .fieldClass (fun a => stringZ a) false

/-- `fields.String(size=16, …)` -/
def string16 : Except Err Annotation := (string { size := .fixed 16 }).map .fieldInstance

def basicHints (str : Annotation) : List Hint :=
  [⟨"some_value", .undefined, [uint16Class]⟩, ⟨"other_string", .str u!"Default Value", [stringZClass]⟩,
    ⟨"string", .undefined, [str]⟩]

def basicClass : Except Err Classes :=
  string16.bind fun s => dataclass (.ok fun _ => none) { name := "BasicClass", body := [] } (basicHints s)

/-- Name, index, offset and default of the fields of a class. -/
def described (p : Except Err Classes) (cls : String) : Except Err (List (String × Nat × Option Int × Value)) :=
  (getClass p cls).map fun (_, d) => d.components.map fun f => (f.name, f.base.index, f.base.offset, f.base.dflt)

-- test_field_extraction__basic, test_field_extraction__default_values
example : (getClass basicClass "BasicClass").map (fun (_, d) => d.numOwnFields) = .ok 3 := by decide +kernel
example : described basicClass "BasicClass" =
    .ok [("some_value", 0, some 0, .undefined), ("other_string", 1, some 2, .str u!"Default Value"), ("string", 2, none, .undefined)] := by
  decide +kernel

-- test_field_redefine_detected_crashes__same_type (the hints of the base come first)
example : raised (string16.bind fun s => dataclass basicClass { name := "_BrokenClass", bases := ["BasicClass"], body := [] }
    (basicHints s)) = some (.fieldRedefined "some_value") := by decide +kernel

-- test_field_redefine_detected_crashes__different_type
example : (raised (string16.bind fun s => dataclass basicClass { name := "_BrokenClass", bases := ["BasicClass"], body := [] }
    [⟨"some_value", .undefined, [uint16Class]⟩, ⟨"other_string", .undefined, [uint16Class]⟩, ⟨"string", .undefined, [s]⟩])).isSome =
      true := by decide +kernel

-- test_typing_union_breaks
example : raised (dataclass (.ok fun _ => none) { name := "_BrokenClass", body := [] } [⟨"some_value", .undefined, [.badUnion]⟩]) =
    some .invalidTypeAnnotation := by decide +kernel

-- test_optional_resolved_correctly
example : (getClass (dataclass (.ok fun _ => none) { name := "NullableFieldsStruct", body := [] }
      [⟨"nullable", .undefined, [.fieldClass (fun a => int 32 true none a) true]⟩, ⟨"not_nullable", .undefined, [stringZClass]⟩])
      "NullableFieldsStruct").map (fun (_, d) => d.components.map fun f => f.base.allowNull) = .ok [true, false] := by decide +kernel

-- test_unmarked_fields_ignored
example : described (dataclass (.ok fun _ => none) { name := "IgnoredFields", body := [] }
      [⟨"ignored", .int 1234, [.other]⟩, ⟨"unmarked_ignored", .undefined, [.other]⟩, ⟨"real_field", .undefined, [stringZClass]⟩])
      "IgnoredFields" = .ok [("real_field", 0, some 0, .undefined)] := by decide +kernel

-- test_mixed_declarations_crashes
example : raised (dataclass (.ok fun _ => none) { name := "_BrokenClass", body := [("normal_field", .of (int 16 false))] }
    [⟨"pep526_field", .undefined, [stringZClass]⟩]) = some .mixedDeclarations := by decide +kernel

-- test_decorator_with_only_assigned_fields_crashes
example : raised (dataclass (.ok fun _ => none) { name := "MyStruct", body := [("field", .of (mkBytes { size := .fixed 10 }))] } []) =
    some .mixedDeclarations := by decide +kernel

-- test_nested_works
example : (getClass (dataclass basicClass { name := "NestedFields", body := [] }
      [⟨"basic", .undefined, [.structClass "BasicClass" false]⟩,
        ⟨"other", .undefined, [.fieldClass (mkFloat .little "Float32" binary32 none) false]⟩]) "NestedFields").map
    (fun (_, d) => d.components.map fun f => match f with
      | .nested _ cls => cls
      | _ => "") = .ok ["BasicClass", ""] := by decide +kernel

-- test_pep593_annotated__basic, test_pep593_annotated__with_union, test_pep593_annotated__not_as_first
example : described (string16.bind fun s => dataclass (.ok fun _ => none) { name := "PEP593Class", body := [] }
      [⟨"foo", .int 123, [uint32Class]⟩, ⟨"bar", .undefined, [s]⟩, ⟨"ignore_me", .undefined, [.other]⟩,
        ⟨"ignore_as_well", .undefined, [.other]⟩]) "PEP593Class" =
    .ok [("foo", 0, some 0, .int 123), ("bar", 1, some 4, .undefined)] := by decide +kernel
example : described (string16.bind fun s => dataclass (.ok fun _ => none) { name := "PEP593Class", body := [] }
      [⟨"foo", .int 123, [.other, uint32Class, .other]⟩, ⟨"bar", .undefined, [.other, s]⟩, ⟨"ignore_me", .undefined, [.other]⟩,
        ⟨"ignore_as_well", .undefined, [.other]⟩]) "PEP593Class" =
    .ok [("foo", 0, some 0, .int 123), ("bar", 1, some 4, .undefined)] := by decide +kernel

-- test_pep593_annotated__multiple_fields_crash__same_type
example : raised (string16.bind fun s => dataclass (.ok fun _ => none) { name := "BrokenPEP593", body := [] }
    [⟨"okay", .undefined, [.other, uint32Class, .other]⟩, ⟨"broken", .undefined, [s, s]⟩]) = some .configuration := by decide +kernel

end Verif.Conformance
