import Verif.Model.Struct
import Verif.Model.Equality

/-!
# Struct instances, lists and dictionaries as objects

The other files treat what a field holds as a value.  In Python it is a reference to an object, which may be a list, a dictionary, a `bytearray`
or a struct instance that others refer to as well, and that can be changed.  This file models, over a store of such objects, the operations that
hand references around: attribute access, assignment, the constructor, `to_dict` and loading; and those that only look at what an instance contains:
dumping, `len`, `==` and validation.

Simplification: only classes without computed fields are described, and on the way out every field is `present`.
-/

namespace Verif

/-- A reference: to an immutable object, which is as good as its value, or to an object in the store. -/
inductive Ref where
  | imm (v : Value)
  | obj (l : Nat)
  deriving DecidableEq, Repr

/-- A mutable object.  (The `__values__` of an instance is a dictionary that nobody else refers to: `__init__` gets it fresh as `**values`,
`/repo/binobj/structures.py:335-340`.) -/
inductive Obj where
  | list (items : List Ref)
  | dict (items : List (String × Ref))
  | bytearray (b : Bytes)
  | inst (cls : String) (vals : List (String × Ref))
  deriving DecidableEq, Repr

/-- The mutable objects there are; a reference is a position.  Objects are never removed. -/
abbrev Store := List Obj

/-- A struct class: its description, and for each field the objects given as `default` (or `const`) and as `not_present_value`, of which there is
one each for all instances, `/repo/binobj/fields/base.py:281-311`. -/
structure ObjClass where
  desc : StructDesc
  defaults : String → Ref := fun _ => .imm .undefined
  notPresent : String → Ref := fun _ => .imm .notPresent

/-- Struct classes by name. -/
abbrev ObjClasses := String → Option ObjClass

/-- The classes as the other files describe them. -/
def ObjClasses.descs (C : ObjClasses) : Classes := fun cls => (C cls).map (·.desc)

/-- Create an object. -/
def Store.new (σ : Store) (o : Obj) : Store × Ref := (σ ++ [o], .obj σ.length)

/-- `d[k] = v` on a dictionary of references. -/
def refSet (d : List (String × Ref)) (k : String) (r : Ref) : List (String × Ref) :=
  match d with
  | [] => [(k, r)]
  | (k', r') :: t => if k' = k then (k, r) :: t else (k', r') :: refSet t k r

/-- `del d[k]` on a dictionary of references. -/
def refErase (d : List (String × Ref)) (k : String) : List (String × Ref) := d.filter fun p => decide (p.1 ≠ k)

/-- `Field.__get__`, `/repo/binobj/fields/base.py:1015-1020`, and `compute_value_for_dump`, `400-460`: what is stored, or else the default object itself. -/
def objGet (c : ObjClass) (vals : List (String × Ref)) (name : String) : Except Err Ref :=
  if !c.desc.has name then .error (.keyErr name)
  else
    match vals.lookup name with
    | some r => .ok r
    | none => if c.defaults name = .imm .undefined then .error (.missingRequired name) else .ok (c.defaults name)

/-- `Struct.__iter__`, `/repo/binobj/structures.py:756-759`, on which `name in struct` depends too. -/
def refDefined (vals : List (String × Ref)) : List (String × Ref) := vals.filter fun p => decide (p.2 ≠ .imm .undefined)

/-- The loop of `_to_dict_whatever_possible`, `/repo/binobj/structures.py:451-470`; a field without value is skipped. -/
def objWhatever (c : ObjClass) (vals : List (String × Ref)) : List Field → List (String × Ref) → List (String × Ref)
  | [], acc => acc
  | f :: fs, acc =>
    match (refDefined vals).lookup f.name with
    | some r => objWhatever c vals fs (refSet acc f.name r)
    | none =>
      if c.defaults f.name = .imm .undefined then objWhatever c vals fs acc
      else objWhatever c vals fs (refSet acc f.name (c.defaults f.name))

/-- `dict(ChainMap(dct, MutableStructMappingProxy(self)))`, `/repo/binobj/structures.py:472`. -/
def objChain (vals dct : List (String × Ref)) : List (String × Ref) :=
  let own := (refDefined vals).map fun p => (p.1, (dct.lookup p.1).getD p.2)
  own ++ dct.filter fun p => !(own.map (·.1)).contains p.1

/-- `to_dict` up to the conversion of nested values, `/repo/binobj/structures.py:428-440`. -/
def objShallow (c : ObjClass) (vals : List (String × Ref)) (keepDiscardable : Bool) : Except Err (List (String × Ref)) :=
  let dct := objChain vals (objWhatever c vals c.desc.components [])
  match c.desc.components.find? fun f => (dct.lookup f.name).isNone with
  | some f => .error (.missingRequired f.name)
  | none =>
    .ok (if keepDiscardable then dct else (c.desc.components.filter (·.base.discard)).foldl (fun dct f => refErase dct f.name) dct)

/-- Call a function on each of some references, from left to right. -/
def mapRefs (g : Store → Ref → Except Err (Store × Ref)) (σ : Store) : List Ref → Except Err (Store × List Ref)
  | [] => .ok (σ, [])
  | r :: rs =>
    match g σ r with
    | .error e => .error e
    | .ok (σ, r') =>
      match mapRefs g σ rs with
      | .error e => .error e
      | .ok (σ, rs') => .ok (σ, r' :: rs')

/-- `recursive_to_dicts`, `/repo/binobj/structures.py:291-305`: new dictionaries and lists; anything else, a `bytearray` in particular, is returned as
it is.  (Keys are strings.) -/
def objToDicts (C : ObjClasses) : Nat → Store → Ref → Except Err (Store × Ref)
  | 0, _, _ => .error .outOfFuel
  | n + 1, σ, r =>
    match r with
    | .imm v => .ok (σ, .imm v)
    | .obj l =>
      match σ[l]? with
      | none => .error .attributeErr
      | some (.bytearray _) => .ok (σ, .obj l)
      | some (.list items) =>
        match mapRefs (objToDicts C n) σ items with
        | .error e => .error e
        | .ok (σ, items) => .ok (σ.new (.list items))
      | some (.dict items) =>
        match mapRefs (objToDicts C n) σ (items.map (·.2)) with
        | .error e => .error e
        | .ok (σ, rs) => .ok (σ.new (.dict ((items.map (·.1)).zip rs)))
      | some (.inst cls vals) =>
        match C cls with
        | none => .error .attributeErr
        | some c =>
          match objShallow c vals false with
          | .error e => .error e
          | .ok dct =>
            match mapRefs (objToDicts C n) σ (dct.map (·.2)) with
            | .error e => .error e
            | .ok (σ, rs) => .ok (σ.new (.dict ((dct.map (·.1)).zip rs)))

/-- `Struct.to_dict`, `/repo/binobj/structures.py:401-442`. -/
def objToDict (C : ObjClasses) (n : Nat) (σ : Store) (c : ObjClass) (vals : List (String × Ref)) (keepDiscardable : Bool) : Except Err (Store × Ref) :=
  match objShallow c vals keepDiscardable with
  | .error e => .error e
  | .ok dct =>
    match mapRefs (objToDicts C n) σ (dct.map (·.2)) with
    | .error e => .error e
    | .ok (σ, rs) => .ok (σ.new (.dict ((dct.map (·.1)).zip rs)))

mutual
/-- Create the objects that make up a value: what `_do_load` of the containers builds, `/repo/binobj/fields/containers.py:265-291, 349-353`, and
`/repo/binobj/structures.py:474-517`. -/
def Store.build (σ : Store) : Value → Store × Ref
  | .list l => let p := Store.buildList σ l; p.1.new (.list p.2)
  | .dict d => let p := Store.buildDict σ d; p.1.new (.dict p.2)
  | .struct cls vals => let p := Store.buildDict σ vals; p.1.new (.inst cls p.2)
  | v => (σ, .imm v)
def Store.buildList (σ : Store) : List Value → Store × List Ref
  | [] => (σ, [])
  | v :: vs => let p := Store.build σ v; let q := Store.buildList p.1 vs; (q.1, p.2 :: q.2)
def Store.buildDict (σ : Store) : List (String × Value) → Store × List (String × Ref)
  | [] => (σ, [])
  | (k, v) :: vs => let p := Store.build σ v; let q := Store.buildDict p.1 vs; (q.1, (k, p.2) :: q.2)
end

/-- The loop of `from_stream`, `/repo/binobj/structures.py:505-508`, noting which fields got their `not_present_value`
(`/repo/binobj/fields/base.py:681-682`). -/
def objLoadFields (Γ : Classes) (n : Nat) (ctx : Value) : List Field → Dict → List String → Stream → R (Dict × List String)
  | [], results, absent, s => (.ok (results, absent), s)
  | f :: fs, results, absent, s =>
    match fieldFromStream Γ n f s ctx results with
    | (.error e, s) => (.error e, s)
    | (.ok v, s') =>
      let left := !results.contains f.name && decide ((f.base.present results.view ctx (some s)).toOption = some false)
      objLoadFields Γ n ctx fs (results.setDefault f.name v) (if left then f.name :: absent else absent) s'

/-- The values of the new instance: a field that was not present has the `not_present_value` object itself. -/
def Store.buildFields (c : ObjClass) (absent : List String) (σ : Store) : Dict → Store × List (String × Ref)
  | [] => (σ, [])
  | (k, v) :: vs =>
    if absent.contains k then
      let q := Store.buildFields c absent σ vs
      (q.1, (k, c.notPresent k) :: q.2)
    else
      let p := Store.build σ v
      let q := Store.buildFields c absent p.1 vs
      (q.1, (k, p.2) :: q.2)

/-- `Struct.from_stream`, `/repo/binobj/structures.py:474-517`.  `initKwargs` is deep-copied, so all that matters is its contents.  Simplification:
`not_present_value`s of the fields of nested structs are taken to be immutable. -/
def objFromStream (C : ObjClasses) (n : Nat) (σ : Store) (c : ObjClass) (s : Stream) (ctx : Value) (initKwargs : Dict) : Except Err (Store × Ref) :=
  match (objLoadFields C.descs n ctx c.desc.components initKwargs [] s).1 with
  | .error e => .error e
  | .ok (results, absent) =>
    match structInit c.desc results with
    | .error e => .error e
    | .ok vals =>
      match validateContents c.desc vals with
      | .error e => .error e
      | .ok _ =>
        let p := Store.buildFields c absent σ (dropDiscarded c.desc vals)
        .ok (p.1.new (.inst c.desc.name p.2))

/-- Contents of an object: the value it stands for, if it is not nested deeper than the fuel. -/
def contents (σ : Store) : Nat → Ref → Option Value
  | 0, _ => none
  | n + 1, r =>
    match r with
    | .imm v => some v
    | .obj l =>
      match σ[l]? with
      | none => none
      | some (.bytearray b) => some (.bytes b)
      | some (.list items) => (items.mapM (contents σ n)).map .list
      | some (.dict items) => ((items.map (·.2)).mapM (contents σ n)).map fun vs => .dict ((items.map (·.1)).zip vs)
      | some (.inst cls vals) => ((vals.map (·.2)).mapM (contents σ n)).map fun vs => .struct cls ((vals.map (·.1)).zip vs)

/-- What a program can do with the objects it has: Python's own operations on lists, dictionaries and byte arrays, and those of this library.  `x`, `y`
number the program's variables. -/
inductive Cmd where
  | const (v : Value)
  | newList (xs : List Nat)
  | newDict (kvs : List (String × Nat))
  | newBytearray (b : Bytes)
  | item (x i : Nat)                                   -- `x[i]` for a list
  | entry (x : Nat) (k : String)                       -- `x[k]` for a dictionary
  | append (x y : Nat)                                 -- `x.append(y)`
  | setItem (x i y : Nat)                              -- `x[i] = y` for a list
  | setEntry (x : Nat) (k : String) (y : Nat)          -- `x[k] = y` for a dictionary
  | setByte (x i : Nat) (b : UInt8)                    -- `x[i] = b` for a byte array
  | construct (cls : String) (kvs : List (String × Nat))
  | get (x : Nat) (name : String)                      -- `x.name`
  | set (x : Nat) (name : String) (y : Nat)            -- `x.name = y`
  | del (x : Nat) (name : String)                      -- `del x[name]`
  | toDict (x : Nat) (keepDiscardable : Bool)
  | load (cls : String) (s : Stream) (ctx : Value) (kvs : List (String × Nat))     -- `cls.from_stream(s, ctx, {k: y, …})`
  | toBytes (x : Nat) (ctx : Value)                    -- `x.to_bytes(ctx)`
  | len (x : Nat)                                      -- `len(x)`
  | equal (x y : Nat)                                  -- `x == y`
  | validate (x : Nat)                                 -- `x.validate_contents()`

/-- The values of some variables. -/
def variables (vars : List Ref) (xs : List Nat) : Except Err (List Ref) :=
  match xs.mapM (vars[·]?) with
  | some rs => .ok rs
  | none => .error (.user "NameError")

/-- The contents of some objects, as `copy.deepcopy` copies them. -/
def deepCopy (σ : Store) (n : Nat) (rs : List Ref) : Except Err (List Value) :=
  match rs.mapM (contents σ n) with
  | some vs => .ok vs
  | none => .error .outOfFuel

/-- The object a variable refers to. -/
def objectOf (σ : Store) (vars : List Ref) (x : Nat) : Except Err (Nat × Obj) :=
  match vars[x]? with
  | some (.obj l) =>
    match σ[l]? with
    | some o => .ok (l, o)
    | none => .error .attributeErr
  | _ => .error .attributeErr

/-- The struct instance a variable refers to. -/
def instanceOf (C : ObjClasses) (σ : Store) (vars : List Ref) (x : Nat) : Except Err (Nat × String × ObjClass × List (String × Ref)) :=
  match objectOf σ vars x with
  | .error e => .error e
  | .ok (l, .inst cls vals) =>
    match C cls with
    | none => .error .attributeErr
    | some c => .ok (l, cls, c, vals)
  | .ok _ => .error .attributeErr

/-- The struct instance a variable refers to, with the values that its fields hold. -/
def valuesOf (C : ObjClasses) (n : Nat) (σ : Store) (vars : List Ref) (x : Nat) : Except Err (String × ObjClass × Dict) :=
  match instanceOf C σ vars x with
  | .error e => .error e
  | .ok (l, cls, c, _) =>
    match contents σ n (.obj l) with
    | some (.struct _ vals) => .ok (cls, c, vals)
    | _ => .error .outOfFuel

/-- Execute a command: the objects afterwards, and the result. -/
def Cmd.run (C : ObjClasses) (n : Nat) (σ : Store) (vars : List Ref) : Cmd → Except Err (Store × Ref)
  | .const v => .ok (σ, .imm v)
  | .newList xs => do
    let rs ← variables vars xs
    pure (σ.new (.list rs))
  | .newDict kvs => do
    let rs ← variables vars (kvs.map (·.2))
    pure (σ.new (.dict ((kvs.map (·.1)).zip rs)))
  | .newBytearray b => .ok (σ.new (.bytearray b))
  | .item x i => do
    match ← objectOf σ vars x with
    | (_, .list items) =>
      match items[i]? with
      | some r => pure (σ, r)
      | none => throw (.user "IndexError")
    | _ => throw .typeErr
  | .entry x k => do
    match ← objectOf σ vars x with
    | (_, .dict items) =>
      match items.lookup k with
      | some r => pure (σ, r)
      | none => throw (.keyErr k)
    | _ => throw .typeErr
  | .append x y => do
    let rs ← variables vars [y]
    match ← objectOf σ vars x with
    | (l, .list items) => pure (σ.set l (.list (items ++ rs)), .imm .none)
    | _ => throw .attributeErr
  | .setItem x i y => do
    let rs ← variables vars [y]
    match ← objectOf σ vars x with
    | (l, .list items) => pure (σ.set l (.list (items.set i (rs.headD (.imm .none)))), .imm .none)
    | _ => throw .typeErr
  | .setEntry x k y => do
    let rs ← variables vars [y]
    match ← objectOf σ vars x with
    | (l, .dict items) => pure (σ.set l (.dict (refSet items k (rs.headD (.imm .none)))), .imm .none)
    | _ => throw .typeErr
  | .setByte x i b => do
    match ← objectOf σ vars x with
    | (l, .bytearray bs) => pure (σ.set l (.bytearray (bs.set i b)), .imm .none)
    | _ => throw .typeErr
  /- `Struct.__init__`, `/repo/binobj/structures.py:335-340` -/
  | .construct cls kvs => do
    let rs ← variables vars (kvs.map (·.2))
    match C cls with
    | none => throw .attributeErr
    | some c =>
      let extra := (kvs.map (·.1)).filter fun k => !c.desc.has k
      if extra ≠ [] then throw (.unexpectedValue extra)
      else pure (σ.new (.inst cls ((kvs.map (·.1)).zip rs)))
  | .get x name => do
    let (_, _, c, vals) ← instanceOf C σ vars x
    let r ← objGet c vals name
    pure (σ, r)
  /- `Field.__set__`, `/repo/binobj/fields/base.py:1022-1028` -/
  | .set x name y => do
    let rs ← variables vars [y]
    let (l, cls, c, vals) ← instanceOf C σ vars x
    let vs ← deepCopy σ n rs
    match c.desc.find? name with
    | none => throw (.keyErr name)
    | some f =>
      if f.base.computeFn.isSome ∨ f.base.const ≠ .undefined then throw (.immutableField name)
      else
        let _ ← runValidators f.base.validators (vs.headD .none)
        pure (σ.set l (.inst cls (refSet vals name (rs.headD (.imm .none)))), .imm .none)
  /- `Struct.__delitem__`, `/repo/binobj/structures.py:749-754` -/
  | .del x name => do
    let (l, cls, c, vals) ← instanceOf C σ vars x
    if !c.desc.has name then throw (.keyErr name)
    else pure (σ.set l (.inst cls (refErase vals name)), .imm .none)
  | .toDict x keep => do
    let (_, _, c, vals) ← instanceOf C σ vars x
    objToDict C n σ c vals keep
  | .load cls s ctx kvs => do
    let rs ← variables vars (kvs.map (·.2))
    let vs ← deepCopy σ n rs
    match C cls with
    | none => throw .attributeErr
    | some c => objFromStream C n σ c s ctx ((kvs.map (·.1)).zip vs)
  /- `Struct.to_bytes`, `/repo/binobj/structures.py:386-399`; what is dumped are the contents of the instance -/
  | .toBytes x ctx => do
    let (_, c, vals) ← valuesOf C n σ vars x
    let b ← structToBytes C.descs n c.desc vals ctx
    pure (σ, .imm (.bytes b))
  /- `Struct.__len__`, `/repo/binobj/structures.py:761-775` -/
  | .len x => do
    let (_, c, vals) ← valuesOf C n σ vars x
    let k ← structLen C.descs n c.desc vals
    pure (σ, .imm (.int k))
  /- `Struct.__eq__`, `/repo/binobj/structures.py:777-797`, and that of lists, dictionaries and so on -/
  | .equal x y => do
    let rs ← variables vars [x, y]
    let vs ← deepCopy σ n rs
    let b ← pyEq C.descs n (vs.headD .none) (vs.getD 1 .none)
    pure (σ, .imm (.int (if b then 1 else 0)))
  /- `Struct.validate_contents`, `/repo/binobj/structures.py:342-364` -/
  | .validate x => do
    let (_, c, vals) ← valuesOf C n σ vars x
    let _ ← validateContents c.desc vals
    pure (σ, .imm .none)

end Verif
