import Verif.Model.Init

/-!
# Declaring struct classes

`StructMetadata.from_class` and helpers, `/repo/binobj/structures.py:104-276`; `Field.bind_to_container`,
`/repo/binobj/fields/base.py:341-398`; the PEP 526 decorator, `/repo/binobj/pep526.py`.
-/

namespace Verif

/-- Set the byte order of a field that has an overrideable `endian` attribute (`Integer` and its subclasses,
numeric.py:175).  `VariableLengthInteger` inherits the attribute but ignores it. -/
def Field.setEndian (f : Field) (e : Endian) : Field :=
  match f with
  | .leaf b (.integer signed _) => .leaf b (.integer signed e)
  | f => f

/-- The default that `bind_to_container` applies for the argument `arg`, `/repo/binobj/fields/base.py:367-398`. -/
def overridingDefault (b : FieldBase) (defaults : List (String × Endian)) (arg : String) : Option Endian :=
  if b.explicit.contains arg then none
  else
    match defaults.lookup (b.typeName ++ "__" ++ arg) with
    | some e => some e
    | none => defaults.lookup arg

/-- `bind_to_container`, `/repo/binobj/fields/base.py:341-398`. -/
def bindToContainer (defaults : List (String × Endian)) (f : Field) (name : String) (index : Nat)
    (offset : Option Int) : Except Err Field :=
  match maybeAssignName f name with
  | .error e => .error e
  | .ok f =>
    let f := f.withBase { f.base with index := index, offset := offset }
    match overridingDefault f.base defaults "endian" with
    | some e => .ok (f.setEndian e)
    | none => .ok f

/-- What a class body may contain that the code looks at: a field, a method decorated with `@validates(names…)`
(decorators.py:43-79), a method decorated with `@validates_struct` (decorators.py:82-107). -/
inductive ClassItem where
  | field (f : Field)
  | validator (names : List String) (fn : View → Value → Except Err Unit)
  | structValidator (fn : View → Except Err Unit)

/-- A `class` statement: its struct bases (other bases contribute nothing), its body in order, its own `Meta`
(`argument_defaults`) if it defines one. -/
structure ClassDecl where
  name : String
  bases : List String := []
  body : List (String × ClassItem)
  metaOpts : Option (List (String × Endian)) := none

/-- `byte_offset += item.size` or `None`, `/repo/binobj/structures.py:248-251`. -/
def nextOffset (offset : Option Int) (size : FSize) : Option Int :=
  match offset, size with
  | some o, .fixed n => some (o + n)
  | _, _ => none

/-- `collect_assigned_fields`, `/repo/binobj/structures.py:204-257`: the components after the loop, and the number of fields
found.  Every field is bound under the name it has in the class body, so names in `components` are unique. -/
def collectAssignedFields (defaults : List (String × Endian)) :
    List (String × ClassItem) → (components : List Field) → (offset : Option Int) → (found : Nat) →
      Except Err (List Field × Nat)
  | [], comps, _, found => .ok (comps, found)
  | (name, .field f) :: items, comps, offset, found =>
    if comps.any (fun g => g.name = name) then .error (.fieldRedefined name)
    else
      match bindToContainer defaults f name comps.length offset with
      | .error e => .error e
      | .ok f => collectAssignedFields defaults items (comps ++ [f]) (nextOffset offset f.base.size) (found + 1)
  | _ :: items, comps, offset, found => collectAssignedFields defaults items comps offset found

/-- `field_validators` of a class: those of the base, plus an empty list per own field
(`/repo/binobj/structures.py:139-161`). -/
def initialValidators (inherited : List (String × List (View → Value → Except Err Unit)))
    (body : List (String × ClassItem)) : List (String × List (View → Value → Except Err Unit)) :=
  body.foldl (fun acc item => match item with
    | (name, .field _) => acc.filter (fun p => decide (p.1 ≠ name)) ++ [(name, [])]
    | _ => acc) inherited

/-- `metadata.field_validators[name].append(fn)` for each name; `KeyError` for an unknown one. -/
def appendValidator (fn : View → Value → Except Err Unit) :
    List String → List (String × List (View → Value → Except Err Unit)) →
      Except Err (List (String × List (View → Value → Except Err Unit)))
  | [], fv => .ok fv
  | name :: names, fv =>
    if fv.any (fun p => p.1 = name) then
      appendValidator fn names (fv.map fun p => if p.1 = name then (p.1, p.2 ++ [fn]) else p)
    else .error (.keyErr name)

/-- `bind_validators_to_struct`, `/repo/binobj/structures.py:260-276`. -/
def bindValidators : List (String × ClassItem) →
    List (String × List (View → Value → Except Err Unit)) → List (View → Except Err Unit) →
      Except Err (List (String × List (View → Value → Except Err Unit)) × List (View → Except Err Unit))
  | [], fv, sv => .ok (fv, sv)
  | (_, .validator names fn) :: items, fv, sv =>
    match appendValidator fn names fv with
    | .error e => .error e
    | .ok fv => bindValidators items fv sv
  | (_, .structValidator fn) :: items, fv, sv => bindValidators items fv (sv ++ [fn])
  | _ :: items, fv, sv => bindValidators items fv sv

/-- The part of `from_class` that depends on the base class: components, validators, byte offset, inherited `Meta`. -/
def fromClassWith (decl : ClassDecl) (components : List Field)
    (fieldValidators : List (String × List (View → Value → Except Err Unit)))
    (structValidators : List (View → Except Err Unit)) (inheritedMeta : Option (List (String × Endian)))
    (offset : Option Int) : Except Err StructDesc :=
  let metaOpts := decl.metaOpts.or inheritedMeta
  let defaults := metaOpts.getD []
  match collectAssignedFields defaults decl.body components offset 0 with
  | .error e => .error e
  | .ok (comps, found) =>
    match bindValidators decl.body (initialValidators fieldValidators decl.body) structValidators with
    | .error e => .error e
    | .ok (fv, sv) =>
      .ok { name := decl.name, components := comps, fieldValidators := fv, structValidators := sv
            numOwnFields := found, argumentDefaults := defaults, metaOpts := metaOpts }

/-- `StructMetadata.from_class` (run by `Struct.__init_subclass__`), `/repo/binobj/structures.py:104-174, 807-815`.  `Meta` is
looked up on the class, so a subclass without one inherits it. -/
def fromClass (Γ : Classes) (n : Nat) (decl : ClassDecl) : Except Err StructDesc :=
  match decl.bases with
  | [] => fromClassWith decl [] [] [] none (some 0)
  | [base] =>
    match Γ base with
    | none => .error .attributeErr
    | some b =>
      match structGetSize Γ n b [] with
      | .error e => .error e
      | .ok size => fromClassWith decl b.components b.fieldValidators b.structValidators b.metaOpts size
  | _ => .error .multipleInheritance

/-- Add a class to the table. -/
def Classes.add (Γ : Classes) (d : StructDesc) : Classes := fun name => if name = d.name then some d else Γ name

/-! ### PEP 526 -/

/-- One annotation as `AnnotationInfo` sees it (pep526.py:106-175): a field class (given by its constructor), a field
instance, a struct class, a `typing.Union` of several types, a union written with `|` (whose origin is `types.UnionType`, not
`typing.Union`, in the supported versions of Python), or anything else. -/
inductive Annotation where
  | fieldClass (mk : FieldArgs → Except Err Field) (nullable : Bool)
  | fieldInstance (f : Field)
  | structClass (cls : String) (nullable : Bool)
  | badUnion
  | barUnion (members : List Annotation)
  | other

/-- A `Union` of two or more types: `from_annotation` raises `InvalidTypeAnnotationError`, `/repo/binobj/pep526.py:119-129`. -/
def Annotation.isBadUnion : Annotation → Bool
  | .badUnion => true
  | _ => false

/-- `AnnotationInfo.from_annotation` and `make_field_instance`, `/repo/binobj/pep526.py:106-175`, for annotations that the former accepts.  `default` is the class attribute
of the same name, `UNDEFINED` if there is none.  A default on a struct class or field instance is ignored, and so is that a struct class was
marked `Optional`. -/
def Annotation.makeField (Γ : Classes) (n : Nat) (name : String) (default : Value) : Annotation → Except Err (Option Field)
  | .fieldClass mk nullable =>
    (mk { name := name, dflt := default, nullValue := if nullable then .dflt else .undefined
          explicit := if nullable then ["name", "default", "null_value"] else ["name", "default"] }).map some
  | .fieldInstance f => .ok (some f)
  | .structClass cls _ => (mkNested Γ n cls {}).map some
  | .badUnion | .barUnion _ | .other => .ok none

/-- `[field for info in info_list if (field := info.make_field_instance()) is not None]`, `/repo/binobj/pep526.py:236-240`. -/
def makeFields (Γ : Classes) (n : Nat) (name : String) (default : Value) : List Annotation → Except Err (List Field)
  | [] => .ok []
  | a :: as =>
    match a.makeField Γ n name default with
    | .error e => .error e
    | .ok f =>
      match makeFields Γ n name default as with
      | .error e => .error e
      | .ok fs => .ok (f.toList ++ fs)

/-- The field instances derived from the annotations of one name, `/repo/binobj/pep526.py:230-240`: `from_annotation` is called on
all of them first. -/
def derivedFields (Γ : Classes) (n : Nat) (name : String) (default : Value) (as : List Annotation) : Except Err (List Field) :=
  if as.any Annotation.isBadUnion then .error .invalidTypeAnnotation else makeFields Γ n name default as

/-- One entry of `typing.get_type_hints(class_object)`: name, class attribute of that name, annotations. -/
structure Hint where
  name : String
  dflt : Value := .undefined
  annotations : List Annotation

/-- The loop of `dataclass`, `/repo/binobj/pep526.py:229-276`.  `index` counts from 0 even if there are inherited fields. -/
def collectAnnotated (Γ : Classes) (n : Nat) (defaults : List (String × Endian)) :
    List Hint → (components : List Field) → (index : Nat) → (offset : Option Int) →
      Except Err (List Field × Nat × Option Int)
  | [], comps, index, offset => .ok (comps, index, offset)
  | h :: hs, comps, index, offset =>
    match derivedFields Γ n h.name h.dflt h.annotations with
    | .error e => .error e
    | .ok [] => collectAnnotated Γ n defaults hs comps index offset
    | .ok [f] =>
      if comps.any (fun g => g.name = h.name) then .error (.fieldRedefined h.name)
      else
        match bindToContainer defaults f h.name index offset with
        | .error e => .error e
        | .ok f => collectAnnotated Γ n defaults hs (comps ++ [f]) (index + 1) (nextOffset offset f.base.size)
    | .ok _ => .error .configuration

/-- `binobj.dataclass`, `/repo/binobj/pep526.py:178-283`, applied to the class described by `d` with the given type hints
(those of its bases included, as `get_type_hints` does). -/
def pep526Dataclass (Γ : Classes) (n : Nat) (d : StructDesc) (hints : List Hint) : Except Err StructDesc :=
  if d.numOwnFields > 0 then .error .mixedDeclarations
  else
    match collectAnnotated Γ n d.argumentDefaults hints d.components 0 d.sizeBytes with
    | .error e => .error e
    | .ok (comps, found, offset) =>
      if found = 0 then .error .noDefinedFields
      else .ok { d with components := comps, numOwnFields := found, sizeBytes := offset }

end Verif
