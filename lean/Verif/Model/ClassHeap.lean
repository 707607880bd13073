import Verif.Model.Class

/-!
# Declaring struct classes, with object identity

`Verif.Model.Class` treats fields and validator lists as values.  In Python they are objects: a field is bound by mutating it, a
validator is attached by appending to a list, and a subclass refers to the very field objects of its base.  This file models
the same code (`/repo/binobj/structures.py:104-276`, `/repo/binobj/fields/base.py:341-398`) over a heap, so that one can
ask what a declaration does to the classes that were there before.
-/

namespace Verif

/-- A method decorated with `@validates`, and one decorated with `@validates_struct`. -/
abbrev FieldValidatorFn := View → Value → Except Err Unit
abbrev StructValidatorFn := View → Except Err Unit

/-- A `StructMetadata` object, `/repo/binobj/structures.py:48-102`: references to fields and to lists. -/
structure ClassObj where
  name : String
  components : List (String × Nat)
  fieldValidators : List (String × Nat)
  structValidators : Nat
  numOwnFields : Nat
  argumentDefaults : List (String × Endian)
  metaOpts : Option (List (String × Endian))

/-- The objects of a program: an object is referred to by its position. -/
structure Heap where
  fields : List Field := []
  lists : List (List FieldValidatorFn) := []
  structLists : List (List StructValidatorFn) := []
  classes : String → Option ClassObj := fun _ => none

/-- What a class body may contain: a reference to a field object, or a validator method. -/
inductive HeapItem where
  | field (i : Nat)
  | validator (names : List String) (fn : FieldValidatorFn)
  | structValidator (fn : StructValidatorFn)

/-- A `class` statement whose body refers to existing field objects. -/
structure HeapDecl where
  name : String
  bases : List String := []
  body : List (String × HeapItem)
  metaOpts : Option (List (String × Endian)) := none

/-- `collect_assigned_fields`, `/repo/binobj/structures.py:204-257`: the field objects afterwards, whatever happens, and the result.  A
reference to no object does not occur. -/
def Heap.collect (defaults : List (String × Endian)) :
    List (String × HeapItem) → (fields : List Field) → (components : List (String × Nat)) → (offset : Option Int) → (found : Nat) →
      List Field × Except Err (List (String × Nat) × Nat)
  | [], fs, comps, _, found => (fs, .ok (comps, found))
  | (name, .field i) :: items, fs, comps, offset, found =>
    if comps.any (fun p => p.1 = name) then (fs, .error (.fieldRedefined name))
    else
      match fs[i]? with
      | none => (fs, .error .attributeErr)
      | some f =>
        match bindToContainer defaults f name comps.length offset with
        | .error e => (fs, .error e)
        | .ok g => Heap.collect defaults items (fs.set i g) (comps ++ [(name, i)]) (nextOffset offset g.base.size) (found + 1)
  | _ :: items, fs, comps, offset, found => Heap.collect defaults items fs comps offset found

/-- `{f_name: list(v_list) for f_name, v_list in base.field_validators.items()}`, `/repo/binobj/structures.py:140-143` -/
def Heap.copyLists : List (String × Nat) → List (List FieldValidatorFn) → List (String × Nat) × List (List FieldValidatorFn)
  | [], ls => ([], ls)
  | (k, i) :: t, ls =>
    let r := Heap.copyLists t (ls ++ [(ls[i]?).getD []])
    ((k, ls.length) :: r.1, r.2)

/-- `metadata.field_validators.update({name: [] for ...})`, `/repo/binobj/structures.py:156-162` -/
def Heap.newLists : List (String × HeapItem) → List (String × Nat) → List (List FieldValidatorFn) →
    List (String × Nat) × List (List FieldValidatorFn)
  | [], t, ls => (t, ls)
  | (name, .field _) :: items, t, ls =>
    Heap.newLists items (t.filter (fun p => decide (p.1 ≠ name)) ++ [(name, ls.length)]) (ls ++ [[]])
  | _ :: items, t, ls => Heap.newLists items t ls

/-- `for field_name in item.field_names: metadata.field_validators[field_name].append(item)`,
`/repo/binobj/structures.py:270-272` -/
def Heap.append (fn : FieldValidatorFn) : List String → List (String × Nat) → List (List FieldValidatorFn) →
    List (List FieldValidatorFn) × Except Err Unit
  | [], _, ls => (ls, .ok ())
  | name :: names, t, ls =>
    match t.lookup name with
    | none => (ls, .error (.keyErr name))
    | some i => Heap.append fn names t (ls.set i ((ls[i]?).getD [] ++ [fn]))

/-- `bind_validators_to_struct`, `/repo/binobj/structures.py:260-276`; `sv` is the list of struct validators. -/
def Heap.bindValidators : List (String × HeapItem) → List (String × Nat) → (sv : Nat) → List (List FieldValidatorFn) →
    List (List StructValidatorFn) → List (List FieldValidatorFn) × List (List StructValidatorFn) × Except Err Unit
  | [], _, _, ls, sls => (ls, sls, .ok ())
  | (_, .validator names fn) :: items, t, sv, ls, sls =>
    match Heap.append fn names t ls with
    | (ls, .error e) => (ls, sls, .error e)
    | (ls, .ok ()) => Heap.bindValidators items t sv ls sls
  | (_, .structValidator fn) :: items, t, sv, ls, sls =>
    Heap.bindValidators items t sv ls (sls.set sv ((sls[sv]?).getD [] ++ [fn]))
  | _ :: items, t, sv, ls, sls => Heap.bindValidators items t sv ls sls

/-- The `StructDesc` that a `StructMetadata` object stands for at the moment. -/
def Heap.read (h : Heap) (c : ClassObj) : StructDesc :=
  { name := c.name
    components := c.components.filterMap fun p => h.fields[p.2]?
    fieldValidators := c.fieldValidators.map fun p => (p.1, (h.lists[p.2]?).getD [])
    structValidators := (h.structLists[c.structValidators]?).getD []
    numOwnFields := c.numOwnFields
    argumentDefaults := c.argumentDefaults
    metaOpts := c.metaOpts }

/-- The classes as they are at the moment. -/
def Heap.view (h : Heap) : Classes := fun c => (h.classes c).map h.read

/-- The part of `from_class` after the base has been looked up. -/
def Heap.declareWith (h : Heap) (decl : HeapDecl) (components fieldValidators : List (String × Nat))
    (structValidators : List StructValidatorFn) (inheritedMeta : Option (List (String × Endian))) (offset : Option Int) :
    Heap × Except Err Unit :=
  let metaOpts := decl.metaOpts.or inheritedMeta
  let defaults := metaOpts.getD []
  let copied := Heap.copyLists fieldValidators h.lists
  let sv := h.structLists.length
  let sls := h.structLists ++ [structValidators]
  let new := Heap.newLists decl.body copied.1 copied.2
  match Heap.collect defaults decl.body h.fields components offset 0 with
  | (fs, .error e) => ({ h with fields := fs, lists := new.2, structLists := sls }, .error e)
  | (fs, .ok (comps, found)) =>
    match Heap.bindValidators decl.body new.1 sv new.2 sls with
    | (ls, sls, .error e) => ({ h with fields := fs, lists := ls, structLists := sls }, .error e)
    | (ls, sls, .ok ()) =>
      let c : ClassObj :=
        { name := decl.name, components := comps, fieldValidators := new.1, structValidators := sv, numOwnFields := found
          argumentDefaults := defaults, metaOpts := metaOpts }
      ({ fields := fs, lists := ls, structLists := sls
         classes := fun name => if name = decl.name then some c else h.classes name }, .ok ())

/-- A `class` statement: `from_class`, `/repo/binobj/structures.py:104-174`, and binding the class to its name.  (`__objclass__`,
structures.py:811-813, is for introspection only and not modelled.) -/
def Heap.declare (h : Heap) (n : Nat) (decl : HeapDecl) : Heap × Except Err Unit :=
  match decl.bases with
  | [] => h.declareWith decl [] [] [] none (some 0)
  | [base] =>
    match h.classes base with
    | none => (h, .error .attributeErr)
    | some b =>
      match structGetSize h.view n (h.read b) [] with
      | .error e => (h, .error e)
      | .ok size =>
        h.declareWith decl b.components b.fieldValidators ((h.structLists[b.structValidators]?).getD []) b.metaOpts size
  | _ => (h, .error .multipleInheritance)

/-- Run the body of a class statement whose fields are all created in it. -/
def Heap.alloc : List (String × ClassItem) → List Field → List (String × HeapItem) × List Field
  | [], fs => ([], fs)
  | (name, .field f) :: items, fs =>
    let r := Heap.alloc items (fs ++ [f])
    ((name, .field fs.length) :: r.1, r.2)
  | (name, .validator names fn) :: items, fs =>
    let r := Heap.alloc items fs
    ((name, .validator names fn) :: r.1, r.2)
  | (name, .structValidator fn) :: items, fs =>
    let r := Heap.alloc items fs
    ((name, .structValidator fn) :: r.1, r.2)

/-- A `class` statement whose fields are all created in its body. -/
def Heap.run (h : Heap) (n : Nat) (decl : ClassDecl) : Heap × Except Err Unit :=
  let r := Heap.alloc decl.body h.fields
  { h with fields := r.2 }.declare n { name := decl.name, bases := decl.bases, body := r.1, metaOpts := decl.metaOpts }

end Verif
