import Verif.Model.Struct

/-!
# One-shot iterators

An unsized `Array` accepts "any iterable", in particular a generator (`/repo/binobj/fields/containers.py:239-298`).  A
generator is used up by iterating over it.  The rest of the model hides this: there `Value.iter l` yields `l` every time.
Here the payload of `Value.iter` is only the *name* of an iterator object, and a separate state, threaded through every
operation that iterates, says which items each object has yet to yield.

The operations that never iterate over a field's value (`to_dict`, validation, reading a value) are those of the main
model, applied to the names: they copy references.  Simplifications: the items an iterator yields come from the state,
which user callables do not see, so validators, compute functions and deciders never consume an iterator; a `null_value`
or a default is not an iterator; an iterator never raises.
-/

namespace Verif

/-- What each iterator object of the program has yet to yield. -/
abbrev Its := List Value → List Value

/-- Iterator `k` has the items `l` left. -/
def Its.put (σ : Its) (k l : List Value) : Its := fun j => if j = k then l else σ j

/-- Outcome of an operation that writes: what it wrote and whether it raised, and the iterators afterwards. -/
abbrev WS := W × Its

/-- `a; b` -/
def WS.seq (a : WS) (b : Its → WS) : WS :=
  match a.1.2 with
  | .error _ => a
  | .ok _ => ((a.1.1 ++ (b a.2).1.1, (b a.2).1.2), (b a.2).2)

/-- `for value in data: self.component.to_stream(...)`, `/repo/binobj/fields/containers.py:269-270`. -/
def dumpAllS (toStream : Value → Its → WS) : List Value → Its → WS
  | [], σ => (W.ok [], σ)
  | v :: vs, σ => (toStream v σ).seq (dumpAllS toStream vs)

/-- `Array._dump_unsized`, `/repo/binobj/fields/containers.py:272-298`: each turn of the `for` loop takes the next item out of
the iterator, then compares the count, then dumps the item.  The fuel bounds the number of turns. -/
def drainS (name : String) (toStream : Value → Its → WS) (nElems : Option Int) (k : List Value) :
    (fuel : Nat) → (nWritten : Nat) → Its → WS
  | 0, _, σ => (W.fail .outOfFuel, σ)
  | fuel + 1, nWritten, σ =>
    match σ k with
    | [] =>
      match nElems with
      | some n => if (nWritten : Int) < n then (W.fail (.arraySize name n nWritten), σ) else (W.ok [], σ)
      | none => (W.ok [], σ)
    | v :: vs =>
      let σ := σ.put k vs
      if some (nWritten : Int) = nElems then (W.fail (.arraySize name nWritten (nWritten + 1)), σ)
      else (toStream v σ).seq (drainS name toStream nElems k fuel (nWritten + 1))

/-- `Array._do_dump`, `/repo/binobj/fields/containers.py:239-270`.  Dumping an item cannot put items back, so the number
of items left bounds the number of turns. -/
def arrayDumpS (name : String) (toStream : Value → Its → WS) (count : Count) (data : Value) (all : Dict) (σ : Its) : WS :=
  match finalElementCount count all with
  | .error e => (W.fail e, σ)
  | .ok nElems =>
    match data with
    | .iter k => drainS name toStream nElems k ((σ k).length + 1) 0 σ
    | data =>
      match arrayElements data with
      | none => (W.fail .typeErr, σ)
      | some (_, elems) =>
        match nElems with
        | some n =>
          if (elems.length : Int) ≠ n then (W.fail (.arraySize name n elems.length), σ) else dumpAllS toStream elems σ
        | none => dumpAllS toStream elems σ

/-- `Field.to_stream`, `/repo/binobj/fields/base.py:791-850`, given the field's `_do_dump`, `_get_null_repr`,
`get_expected_size` and `_add_padding`. -/
def toStreamWithS (b : FieldBase) (doDump : Value → Its → WS) (nullRepr : Except Err Bytes) (expSize : Except Err Int)
    (addPadding : Bytes → Int → Except Err Bytes) (data : Value) (σ : Its) : WS :=
  match (if data = .dflt then b.default else .ok data) with
  | .error e => (W.fail e, σ)
  | .ok data =>
    if data = .undefined ∨ data = .dflt then (W.fail (.missingRequired b.name), σ)
    else
      match runValidators b.validators data with
      | .error e => (W.fail e, σ)
      | .ok _ =>
        if data = .none then (W.ofExcept nullRepr, σ)
        else
          match (doDump data σ).1.toExcept with
          | .error e => (W.fail e, (doDump data σ).2)
          | .ok serialized => (finishDump b expSize addPadding serialized, (doDump data σ).2)

/-- The loop of `Struct.to_stream`, `/repo/binobj/structures.py:382-385`. -/
def dumpFieldsS (toStream : Field → Value → Its → WS) (all : Dict) (ctx : Value) : List Field → Its → WS
  | [], σ => (W.ok [], σ)
  | f :: fs, σ =>
    match f.base.computeValueForDump all.view ctx with
    | .error e => (W.fail e, σ)
    | .ok v =>
      if v = .notPresent then dumpFieldsS toStream all ctx fs σ
      else (toStream f v σ).seq (dumpFieldsS toStream all ctx fs)

/-- `Struct.to_stream`, `/repo/binobj/structures.py:366-385`, given `Field.to_stream`. -/
def structToStreamWithS (Γ : Classes) (n : Nat) (toStream : Field → Value → Dict → Its → WS) (d : StructDesc)
    (vals : Dict) (ctx : Value) (σ : Its) : WS :=
  match validateContents d vals with
  | .error e => (W.fail e, σ)
  | .ok _ =>
    match structToDict Γ n d vals with
    | .error e => (W.fail e, σ)
    | .ok all => dumpFieldsS (fun f v => toStream f v all) all ctx d.components σ

/-- `struct_class(**data).to_stream(stream, context)`, `/repo/binobj/fields/containers.py:364-365, 482`. -/
def dumpNewS (Γ : Classes) (structToStream : StructDesc → Dict → Value → Its → WS) (cls : String) (kwargs : Dict)
    (ctx : Value) (σ : Its) : WS :=
  match Γ cls with
  | none => (W.fail .attributeErr, σ)
  | some d =>
    match structInit d kwargs with
    | .error e => (W.fail e, σ)
    | .ok vals => structToStream d vals ctx σ

/-- `_do_dump` of the container fields: Array containers.py:239-298, Nested containers.py:353-365, Union
containers.py:470-487.  `toStream` and `structToStream` are the recursive calls. -/
def containerDumpS (Γ : Classes) (toStream : Field → Value → Value → Dict → Its → WS)
    (structToStream : StructDesc → Dict → Value → Its → WS) (f : Field) (data ctx : Value) (all : Dict) (σ : Its) : WS :=
  match f with
  | .leaf .. => (W.fail .typeErr, σ)          -- not used
  | .array b comp count _ => arrayDumpS b.name (fun v => toStream comp v ctx all) count data all σ
  | .nested _ cls =>
    match data with
    | .struct c vals =>
      match Γ c with
      | none => (W.fail .attributeErr, σ)
      | some d => structToStream d vals ctx σ
    | .dict kwargs => dumpNewS Γ structToStream cls kwargs ctx σ
    | _ => (W.fail .typeErr, σ)
  | .union _ choices _ decider =>
    match decider data ctx all with
    | .error e => (W.fail e, σ)
    | .ok i =>
      match choices[i]? with
      | none => (W.fail .typeErr, σ)
      | some (.inl g) => toStream g data ctx all σ
      | some (.inr cls) =>
        match data with
        | .dict kwargs => dumpNewS Γ structToStream cls kwargs ctx σ
        | _ => (W.fail .typeErr, σ)

mutual
/-- `Field.to_stream(data, context, all_fields)`, `/repo/binobj/fields/base.py:791-850`.  Fields without children iterate over
nothing. -/
def fieldToStreamS (Γ : Classes) : Nat → Field → Value → (ctx : Value) → Dict → Its → WS
  | 0, _, _, _, _, σ => (W.fail .outOfFuel, σ)
  | n + 1, f, data, ctx, all, σ =>
    match f with
    | .leaf b k => (fieldToStream Γ (n + 1) (.leaf b k) data ctx all, σ)
    | f =>
      let dump := containerDumpS Γ (fieldToStreamS Γ n) (structToStreamS Γ n) f
      toStreamWithS f.base (fun v => dump v ctx all) (fieldNullRepr Γ n f all) (fieldExpectedSize Γ n f all)
        (fun _ _ => .error (.valueSize f.name)) data σ
/-- `Struct.to_stream(stream, context)`, `/repo/binobj/structures.py:366-385`. -/
def structToStreamS (Γ : Classes) : Nat → StructDesc → Dict → (ctx : Value) → Its → WS
  | 0, _, _, _, σ => (W.fail .outOfFuel, σ)
  | n + 1, d, vals, ctx, σ =>
    structToStreamWithS Γ n (fun f v all => fieldToStreamS Γ n f v ctx all) d vals ctx σ
end

/-- The loop of `partial_dump`, `/repo/binobj/structures.py:702-716`. -/
def partialDumpLoopS (toStream : Field → Value → Its → WS) (vals : Dict) (lastField : Option String) :
    List Field → Its → WS
  | [], σ => (W.ok [], σ)
  | f :: fs, σ =>
    match f.base.default with
    | .error e => (W.fail e, σ)
    | .ok fallback =>
      let value := (vals.get? f.name).getD fallback
      let go : Unit → WS := fun _ =>
        (toStream f value σ).seq fun σ =>
          if some f.name = lastField then (W.ok [], σ) else partialDumpLoopS toStream vals lastField fs σ
      if value = .undefined then
        if lastField = none then (W.ok [], σ)
        else
          match f.base.required with
          | .error e => (W.fail e, σ)
          | .ok true => (W.fail (.missingRequired f.name), σ)
          | .ok false => go ()
      else go ()

/-- `Struct.partial_dump`, `/repo/binobj/structures.py:681-716`. -/
def structPartialDumpS (Γ : Classes) (n : Nat) (d : StructDesc) (vals : Dict) (lastField : Option String) (ctx : Value)
    (σ : Its) : WS :=
  partialDumpLoopS (fun f v => fieldToStreamS Γ n f v ctx []) vals lastField d.components σ

/-- One summand of `Struct.__len__`, `/repo/binobj/structures.py:766-773`: if the expected size is not known, the field is dumped to
see how long it gets. -/
def fieldLenS (Γ : Classes) (n : Nat) (current : Dict) (f : Field) (σ : Its) : Except Err Int × Its :=
  match f.base.size with
  | .fixed k => (.ok k, σ)
  | _ =>
    match fieldExpectedSize Γ n f current with
    | .ok k => (.ok k, σ)
    | .error e =>
      if e.isBinobj then
        match f.base.computeValueForDump current.view .none with
        | .error e => (.error e, σ)
        | .ok v =>
          let r := fieldToStreamS Γ n f v .none [] σ
          (r.1.toExcept.map fun b => (b.length : Int), r.2)
      else (.error e, σ)

/-- The `sum` in `Struct.__len__`, `/repo/binobj/structures.py:765-775`. -/
def sumSizesS (size : Field → Its → Except Err Int × Its) : List Field → Its → Except Err Int × Its
  | [], σ => (.ok 0, σ)
  | f :: fs, σ =>
    match size f σ with
    | (.error e, σ) => (.error e, σ)
    | (.ok k, σ) =>
      match sumSizesS size fs σ with
      | (.error e, σ) => (.error e, σ)
      | (.ok r, σ) => (.ok (k + r), σ)

/-- `Struct.__len__`, `/repo/binobj/structures.py:761-775`. -/
def structLenS (Γ : Classes) (n : Nat) (d : StructDesc) (vals : Dict) (σ : Its) : Except Err Int × Its :=
  match whateverPossible d vals with
  | .error e => (.error e, σ)
  | .ok current => sumSizesS (fieldLenS Γ n current) d.components σ

/-- `recursive_to_dicts({n: x[n] for n in list(x)})`, `/repo/binobj/structures.py:791, 796`; `list` asks for `len(x)` first. -/
def comparableDictS (Γ : Classes) (n : Nat) (cls : String) (vals : Dict) (σ : Its) : Except Err Value × Its :=
  match Γ cls with
  | none => (.error .attributeErr, σ)
  | some d =>
    let r := structLenS Γ n d vals σ
    match lenHint r.1 with
    | .error e => (.error e, r.2)
    | .ok _ =>
      match definedDict d vals with
      | .error e => (.error e, r.2)
      | .ok dct => (recursiveToDicts Γ n (.dict dct), r.2)

/-- What `Struct.__eq__` compares against, `/repo/binobj/structures.py:793-796`. -/
def comparableOtherS (Γ : Classes) (n : Nat) (other : Value) (σ : Its) : Except Err (Option Value) × Its :=
  match other with
  | .struct cls vals =>
    let r := comparableDictS Γ n cls vals σ
    (r.1.map some, r.2)
  | .dict dct => ((recursiveToDicts Γ n (.dict dct)).map some, σ)
  | _ => (.ok none, σ)

/-- `struct == other`, `/repo/binobj/structures.py:777-797`; what is compared at the end holds no structs any more, so comparing it
asks for no `len`. -/
def structEqS (Γ : Classes) : Nat → (cls : String) → (vals : Dict) → (other : Value) → Its → Except Err Bool × Its
  | 0, _, _, _, σ => (.error .outOfFuel, σ)
  | n + 1, cls, vals, other, σ =>
    if other = .undefined then (.ok (vals.all fun p => decide (p.2 = .undefined)), σ)
    else
      let r := comparableDictS Γ n cls vals σ
      match r.1 with
      | .error e => (.error e, r.2)
      | .ok self =>
        let r' := comparableOtherS Γ n other r.2
        match r'.1 with
        | .error e => (.error e, r'.2)
        | .ok none => (.ok false, r'.2)
        | .ok (some o) => (pyEq Γ n o self, r'.2)

/-- The public operations on an instance that are not meant to change it. -/
inductive Look where
  | dump (ctx : Value)                                     -- structures.py:366-399
  | partialDump (lastField : Option String) (ctx : Value)  -- structures.py:681-716
  | len                                                    -- structures.py:761-775
  | eq (other : Value)                                     -- structures.py:777-797
  | toDict (keepDiscardable : Bool)                        -- structures.py:401-442
  | validate                                               -- structures.py:342-364
  | get (name : String)                                    -- structures.py:735-740

/-- What the caller of such an operation sees. -/
inductive Sight where
  | wrote (w : W)
  | len (r : Except Err Int)
  | truth (r : Except Err Bool)
  | dict (r : Except Err Dict)
  | done (r : Except Err Unit)
  | value (r : Except Err Value)

/-- Perform one operation on the instance of class `cls` (described by `d`) with `__values__ = vals`. -/
def Look.runS (Γ : Classes) (n : Nat) (cls : String) (d : StructDesc) (vals : Dict) (σ : Its) : Look → Sight × Its
  | .dump ctx => ((.wrote (structToStreamS Γ n d vals ctx σ).1), (structToStreamS Γ n d vals ctx σ).2)
  | .partialDump last ctx =>
    (.wrote (structPartialDumpS Γ n d vals last ctx σ).1, (structPartialDumpS Γ n d vals last ctx σ).2)
  | .len => (.len (structLenS Γ n d vals σ).1, (structLenS Γ n d vals σ).2)
  | .eq other => (.truth (structEqS Γ n cls vals other σ).1, (structEqS Γ n cls vals other σ).2)
  | .toDict keep => (.dict (structToDict Γ n d vals keep), σ)
  | .validate => (.done (validateContents d vals), σ)
  | .get name => (.value (structGetItem d vals name), σ)

/-- Perform operations one after the other: what the caller sees of each, and the iterators at the end. -/
def runLooks (Γ : Classes) (n : Nat) (cls : String) (d : StructDesc) (vals : Dict) : List Look → Its → List Sight × Its
  | [], σ => ([], σ)
  | l :: ls, σ =>
    let r := l.runS Γ n cls d vals σ
    let rs := runLooks Γ n cls d vals ls r.2
    (r.1 :: rs.1, rs.2)

end Verif
