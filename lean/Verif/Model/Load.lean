import Verif.Model.Equality

/-!
# Loading

The loading half of `/repo/binobj/fields/base.py`, `/repo/binobj/fields/containers.py` and `/repo/binobj/structures.py`.
-/

namespace Verif

/-- `except DeserializationError as err: err.field = self; raise`, `/repo/binobj/fields/base.py:714-716`. -/
def setErrField (name : String) (e : Err) : Err :=
  match e with
  | .eof _ size offset => .eof (some name) size offset
  | .deser _ => .deser (some name)
  | e => e

/-- `Array.should_halt`, `/repo/binobj/fields/containers.py:170-237` (the stream pointer is restored). -/
def shouldHalt (name : String) (count : Count) (s : Stream) (values : List Value) (loaded : Dict) : Except Err Bool :=
  match count with
  | .none => .ok (decide ((s.read 1).1 = []))
  | count =>
    match finalElementCount count loaded with
    | .error e => .error e
    | .ok none => .error (.undefinedSize name)
    | .ok (some n) => .ok (decide (n ≤ values.length))

/-- The loop of `Array._do_load`, `/repo/binobj/fields/containers.py:317-324`.  One unit of fuel per iteration.  `halt` gets the list
itself and may change it. -/
def arrayLoop (halt : Stream → List Value → Except Err (Bool × List Value)) (load : Stream → R Value) :
    Nat → List Value → Stream → R (List Value)
  | fuel, acc, s =>
    match halt s acc with
    | .error e => (.error e, s)
    | .ok (true, acc) => (.ok acc, s)
    | .ok (false, acc) =>
      match load s with
      | (.error e, s) => (.error e, s)
      | (.ok v, s) =>
        match fuel with
        | 0 => (.error .outOfFuel, s)
        | fuel + 1 => arrayLoop halt load fuel (if v = .notPresent then acc else acc ++ [v]) s

/-- `self.halt_check`, `/repo/binobj/fields/containers.py:106`: the user's function or `should_halt`. -/
def haltCheck (name : String) (count : Count) (halt : Option (Stream → List Value → Value → Dict → Except Err (Bool × List Value)))
    (ctx : Value) (loaded : Dict) (s : Stream) (values : List Value) : Except Err (Bool × List Value) :=
  match halt with
  | none => (shouldHalt name count s values loaded).map fun stop => (stop, values)
  | some h => h s values ctx loaded

/-- `struct_class.from_stream(stream, context)`, `/repo/binobj/fields/containers.py:371, 497`. -/
def loadStruct (Γ : Classes) (structFromStream : StructDesc → Stream → Value → R Dict) (cls : String) (s : Stream)
    (ctx : Value) : R Value :=
  match Γ cls with
  | none => (.error .attributeErr, s)
  | some d => R.map (structFromStream d s ctx) fun vals => .struct cls vals

/-- `_do_load` of the container fields: Array containers.py:300-324, Nested containers.py:367-371, Union
containers.py:489-501.  `fuel` bounds the iterations of an array; `fromStream`, `doLoad` and `structFromStream` are the
recursive calls.  A union loads a field choice through its `_do_load`. -/
def containerLoad (Γ : Classes) (fuel : Nat) (fromStream : Field → Stream → Value → Dict → R Value)
    (doLoad : Field → Stream → Value → Dict → R Value) (structFromStream : StructDesc → Stream → Value → R Dict)
    (f : Field) (s : Stream) (ctx : Value) (loaded : Dict) : R Value :=
  match f with
  | .leaf .. => (.error .typeErr, s)          -- not used
  | .array b comp count halt =>
    R.map (arrayLoop (haltCheck b.name count halt ctx loaded) (fun s => fromStream comp s ctx loaded) fuel [] s) .list
  | .nested _ cls => loadStruct Γ structFromStream cls s ctx
  | .union _ choices decider _ =>
    match decider s ctx loaded with
    | .error e => (.error e, s)
    | .ok i =>
      match choices[i]? with
      | none => (.error .typeErr, s)
      | some (.inl g) => doLoad g s ctx loaded
      | some (.inr cls) => loadStruct Γ structFromStream cls s ctx

/-- The end of `Field.from_stream`: null value, const and validators, `/repo/binobj/fields/base.py:718-732`. -/
def finishLoad (b : FieldBase) (eq : Value → Value → Except Err Bool) (v : Value) : Except Err Value :=
  match (if b.allowNull then eq v b.nullValue else .ok false) with
  | .error e => .error e
  | .ok isNull =>
    let v := if isNull then .none else v
    match (if b.const ≠ .undefined then eq v b.const else .ok true) with
    | .error e => .error e
    | .ok false => .error (.validation b.name)
    | .ok true =>
      match runValidators b.validators v with
      | .error e => .error e
      | .ok _ => .ok v

/-- `_do_load` and what follows it in `Field.from_stream`, `/repo/binobj/fields/base.py:710-732`. -/
def loadAndFinish (b : FieldBase) (eq : Value → Value → Except Err Bool) (doLoad : Stream → R Value) (s : Stream) :
    R Value :=
  match doLoad s with
  | (.error e, s) => (.error (setErrField b.name e), s)
  | (.ok v, s) => (finishLoad b eq v, s)

/-- `Field.from_stream`, `/repo/binobj/fields/base.py:658-732`, given the field's `_do_load`, its `_get_null_repr` and `==`. -/
def fromStreamWith (b : FieldBase) (eq : Value → Value → Except Err Bool) (nullRepr : Except Err Bytes)
    (doLoad : Stream → R Value) (s : Stream) (ctx : Value) (loaded : Dict) : R Value :=
  match b.present loaded.view ctx (some s) with
  | .error e => (.error e, s)
  | .ok false => (.ok b.notPresentValue, s)
  | .ok true =>
    if b.allowNull then
      match nullRepr with
      | .error e =>
        if e.isUnserializable then
          if b.nullValue = .dflt then (.error (.cannotDetermineNull b.name), s)
          else loadAndFinish b eq doLoad s
        else (.error e, s)
      | .ok repr =>
        match peekBytes s repr.length with
        | (.error e, s) => (.error e, s)
        | (.ok peeked, s) =>
          if peeked = repr then
            let s := s.seek (s.pos + repr.length)
            match runValidators b.validators .none with
            | .error e => (.error e, s)
            | .ok _ => (.ok .none, s)
          else loadAndFinish b eq doLoad s
    else loadAndFinish b eq doLoad s

/-- The loop of `Struct.from_stream`, `/repo/binobj/structures.py:505-508`.  (`setdefault` evaluates its argument first, so every
field is read even if `init_kwargs` overrides it.) -/
def loadFields (fromStream : Field → Stream → Dict → R Value) : List Field → Dict → Stream → R Dict
  | [], results, s => (.ok results, s)
  | f :: fs, results, s =>
    match fromStream f s results with
    | (.error e, s) => (.error e, s)
    | (.ok v, s) => loadFields fromStream fs (results.setDefault f.name v) s

/-- Delete the fields marked `discard`, `/repo/binobj/structures.py:513-515`. -/
def dropDiscarded (d : StructDesc) (vals : Dict) : Dict :=
  (d.components.filter (·.base.discard)).foldl (fun vals f => vals.erase f.name) vals

/-- `Struct.from_stream`, `/repo/binobj/structures.py:474-517`: the new instance's `__values__`, given `Field.from_stream`. -/
def structFromStreamWith (fromStream : Field → Stream → Dict → R Value) (d : StructDesc) (s : Stream)
    (initKwargs : Dict) : R Dict :=
  match loadFields fromStream d.components initKwargs s with
  | (.error e, s) => (.error e, s)
  | (.ok results, s) =>
    match structInit d results with
    | .error e => (.error e, s)
    | .ok vals =>
      match validateContents d vals with
      | .error e => (.error e, s)
      | .ok _ => (.ok (dropDiscarded d vals), s)

mutual
/-- `Field.from_stream`, `/repo/binobj/fields/base.py:658-732`. -/
def fieldFromStream (Γ : Classes) : Nat → Field → Stream → (ctx : Value) → (loaded : Dict) → R Value
  | 0, _, s, _, _ => (.error .outOfFuel, s)
  | n + 1, f, s, ctx, loaded =>
    fromStreamWith f.base (pyEq Γ n) (fieldNullRepr Γ n f loaded) (fun s => fieldDoLoad Γ n f s ctx loaded) s ctx loaded
/-- `_do_load` of any field. -/
def fieldDoLoad (Γ : Classes) : Nat → Field → Stream → (ctx : Value) → (loaded : Dict) → R Value
  | 0, _, s, _, _ => (.error .outOfFuel, s)
  | n + 1, f, s, ctx, loaded =>
    match f with
    | .leaf b k => leafLoad b k (leafExpectedSize b k loaded) s ctx loaded
    | f => containerLoad Γ n (fieldFromStream Γ n) (fieldDoLoad Γ n)
        (fun d s ctx => structFromStream Γ n d s ctx []) f s ctx loaded
/-- `Struct.from_stream`, `/repo/binobj/structures.py:474-517`. -/
def structFromStream (Γ : Classes) : Nat → StructDesc → Stream → (ctx : Value) → (initKwargs : Dict) → R Dict
  | 0, _, s, _, _ => (.error .outOfFuel, s)
  | n + 1, d, s, ctx, kw => structFromStreamWith (fun f s loaded => fieldFromStream Γ n f s ctx loaded) d s kw
end

end Verif
