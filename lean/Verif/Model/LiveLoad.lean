import Verif.Model.Live
import Verif.Model.Load

/-!
# Loading with callables that are not functions

What `Verif.Model.Live` is for dumps, this file is for loads: `present`, the `validate=` functions of a field, the deciders of
unions, the halt checks of arrays, validator methods and struct validators are programs with a state.  The functions below
are those of `Verif.Model.Load` (same code, same lines) with the state passed along in the order in which the code makes the
calls.  That they are the same functions when the callables are well behaved is `C102_deterministic`.

Simplifications: default factories and the `_do_load` of user-defined field types stay functions, and comparing what was
loaded with `null_value` and `const` runs no compute functions.  Callables leave the stream where it was, as the documentation
requires of them.
-/

namespace Verif

variable {S : Type}

/-- The callables given to one field object, `/repo/binobj/fields/base.py:267-289`, `/repo/binobj/fields/containers.py:96-106,
452-468`.  (`halt` and `decider` only matter for arrays and unions.) -/
structure Callables (S : Type) where
  present : View → (ctx : Value) → Stream → Prog S Bool
  validators : List (Value → Prog S Unit)
  halt : Option (Stream → List Value → (ctx : Value) → Dict → Prog S (Bool × List Value))
  decider : Stream → (ctx : Value) → Dict → Prog S Nat

/-- A struct class with the callables that are attached to it.  `calls name path` are those of the field object at `path` in the
field `name`: the field itself is at `[]`, the component of an array at `0 :: …`, the `i`-th choice of a union at `i :: …`.
Those of `live.desc` are not used. -/
structure LoadClass (S : Type) where
  live : LiveClass S
  calls : String → List Nat → Callables S

/-- The struct classes of the program. -/
abbrev LoadClasses (S : Type) := String → Option (LoadClass S)

/-- The classes without their callables. -/
def LoadClasses.plain (C : LoadClasses S) : Classes := fun cls => (C cls).map (·.live.desc)

/-- A call that reads from the stream: what it returns or raises, the stream, and the state of the world afterwards. -/
abbrev LR (S α : Type) := S → R α × S

/-- Run a call that leaves the stream alone, then go on. -/
def Prog.thenLoad {α β : Type} (p : Prog S α) (s : Stream) (k : α → LR S β) : LR S β := fun w =>
  match p w with
  | (.error e, w) => ((.error e, s), w)
  | (.ok a, w) => k a w

/-- The loop of `Array._do_load`, `/repo/binobj/fields/containers.py:317-324`. -/
def liveArrayLoop (halt : Stream → List Value → Prog S (Bool × List Value)) (load : Stream → LR S Value) :
    Nat → List Value → Stream → LR S (List Value)
  | fuel, acc, s => (halt s acc).thenLoad s fun stop => fun w =>
    if stop.1 then ((.ok stop.2, s), w)
    else
      match load s w with
      | ((.error e, s), w) => ((.error e, s), w)
      | ((.ok v, s), w) =>
        match fuel with
        | 0 => ((.error .outOfFuel, s), w)
        | fuel + 1 => liveArrayLoop halt load fuel (if v = .notPresent then stop.2 else stop.2 ++ [v]) s w

/-- `self.halt_check`, `/repo/binobj/fields/containers.py:106`. -/
def liveHaltCheck (name : String) (count : Count) (halt : Option (Stream → List Value → Value → Dict → Prog S (Bool × List Value)))
    (ctx : Value) (loaded : Dict) (s : Stream) (values : List Value) : Prog S (Bool × List Value) :=
  match halt with
  | none => Prog.pure ((shouldHalt name count s values loaded).map fun stop => (stop, values))
  | some h => h s values ctx loaded

/-- `struct_class.from_stream(stream, context)`, `/repo/binobj/fields/containers.py:371, 497`. -/
def liveLoadStruct (C : LoadClasses S) (structFromStream : LoadClass S → Stream → Value → LR S Dict) (cls : String) (s : Stream)
    (ctx : Value) : LR S Value := fun w =>
  match C cls with
  | none => ((.error .attributeErr, s), w)
  | some c =>
    let r := structFromStream c s ctx w
    (R.map r.1 fun vals => .struct cls vals, r.2)

/-- `_do_load` of the container fields, `/repo/binobj/fields/containers.py:300-324, 367-371, 489-501`. -/
def liveContainerLoad (C : LoadClasses S) (fuel : Nat) (calls : List Nat → Callables S)
    (fromStream : (List Nat → Callables S) → Field → Stream → Value → Dict → LR S Value)
    (doLoad : (List Nat → Callables S) → Field → Stream → Value → Dict → LR S Value)
    (structFromStream : LoadClass S → Stream → Value → LR S Dict)
    (f : Field) (s : Stream) (ctx : Value) (loaded : Dict) : LR S Value :=
  match f with
  | .leaf .. => fun w => ((.error .typeErr, s), w)          -- not used
  | .array b comp count _ => fun w =>
    let r := liveArrayLoop (liveHaltCheck b.name count (calls []).halt ctx loaded)
      (fun s => fromStream (fun p => calls (0 :: p)) comp s ctx loaded) fuel [] s w
    (R.map r.1 .list, r.2)
  | .nested _ cls => liveLoadStruct C structFromStream cls s ctx
  | .union _ choices _ _ => ((calls []).decider s ctx loaded).thenLoad s fun i =>
    match choices[i]? with
    | none => fun w => ((.error .typeErr, s), w)
    | some (.inl g) => doLoad (fun p => calls (i :: p)) g s ctx loaded
    | some (.inr cls) => liveLoadStruct C structFromStream cls s ctx

/-- The end of `Field.from_stream`, `/repo/binobj/fields/base.py:718-732`. -/
def liveFinishLoad (validators : List (Value → Prog S Unit)) (b : FieldBase) (eq : Value → Value → Except Err Bool) (v : Value) :
    Prog S Value :=
  match (if b.allowNull then eq v b.nullValue else .ok false) with
  | .error e => Prog.pure (.error e)
  | .ok isNull =>
    let v := if isNull then .none else v
    match (if b.const ≠ .undefined then eq v b.const else .ok true) with
    | .error e => Prog.pure (.error e)
    | .ok false => Prog.pure (.error (.validation b.name))
    | .ok true => (liveRunAll (fun m => m v) validators).andThen fun _ => Prog.pure (.ok v)

/-- `_do_load` and what follows it, `/repo/binobj/fields/base.py:710-732`. -/
def liveLoadAndFinish (validators : List (Value → Prog S Unit)) (b : FieldBase) (eq : Value → Value → Except Err Bool)
    (doLoad : Stream → LR S Value) (s : Stream) : LR S Value := fun w =>
  match doLoad s w with
  | ((.error e, s), w) => ((.error (setErrField b.name e), s), w)
  | ((.ok v, s), w) => (liveFinishLoad validators b eq v).thenLoad s (fun v w => ((.ok v, s), w)) w

/-- `Field.from_stream`, `/repo/binobj/fields/base.py:658-732`. -/
def liveFromStreamWith (k : Callables S) (b : FieldBase) (eq : Value → Value → Except Err Bool) (nullRepr : Except Err Bytes)
    (doLoad : Stream → LR S Value) (s : Stream) (ctx : Value) (loaded : Dict) : LR S Value :=
  (k.present loaded.view ctx s).thenLoad s fun there => fun w =>
    if !there then ((.ok b.notPresentValue, s), w)
    else if b.allowNull then
      match nullRepr with
      | .error e =>
        if e.isUnserializable then
          if b.nullValue = .dflt then ((.error (.cannotDetermineNull b.name), s), w)
          else liveLoadAndFinish k.validators b eq doLoad s w
        else ((.error e, s), w)
      | .ok repr =>
        match peekBytes s repr.length with
        | (.error e, s) => ((.error e, s), w)
        | (.ok peeked, s) =>
          if peeked = repr then
            let s := s.seek (s.pos + repr.length)
            (liveRunAll (fun m => m .none) k.validators).thenLoad s (fun _ w => ((.ok .none, s), w)) w
          else liveLoadAndFinish k.validators b eq doLoad s w
    else liveLoadAndFinish k.validators b eq doLoad s w

/-- The checks of one field in `validate_contents`, `/repo/binobj/structures.py:349-360`. -/
def loadValidateField (c : LoadClass S) (vals : Dict) (p : String × List (LiveView S → Value → Prog S Unit)) : Prog S Unit :=
  match c.live.desc.find? p.1 with
  | none => Prog.pure (.error (.keyErr p.1))
  | some _ =>
    (liveGetItem c.live vals p.1).andThen fun v =>
      (liveRunAll (fun m => m v) (c.calls p.1 []).validators).andThen fun _ =>
        liveRunAll (fun m => m (liveView c.live vals) v) p.2

/-- `validate_contents`, `/repo/binobj/structures.py:342-364`. -/
def loadValidate (c : LoadClass S) (vals : Dict) : Prog S Unit :=
  (liveRunAll (loadValidateField c vals) c.live.fieldValidators).andThen fun _ =>
    liveRunAll (fun v => v (liveView c.live vals)) c.live.structValidators

/-- The loop of `Struct.from_stream`, `/repo/binobj/structures.py:505-508`. -/
def liveLoadFields (fromStream : Field → Stream → Dict → LR S Value) : List Field → Dict → Stream → LR S Dict
  | [], results, s => fun w => ((.ok results, s), w)
  | f :: fs, results, s => fun w =>
    match fromStream f s results w with
    | ((.error e, s), w) => ((.error e, s), w)
    | ((.ok v, s), w) => liveLoadFields fromStream fs (results.setDefault f.name v) s w

/-- `Struct.from_stream`, `/repo/binobj/structures.py:474-517`. -/
def liveStructFromStreamWith (fromStream : Field → Stream → Dict → LR S Value) (c : LoadClass S) (s : Stream)
    (initKwargs : Dict) : LR S Dict := fun w =>
  match liveLoadFields fromStream c.live.desc.components initKwargs s w with
  | ((.error e, s), w) => ((.error e, s), w)
  | ((.ok results, s), w) =>
    match structInit c.live.desc results with
    | .error e => ((.error e, s), w)
    | .ok vals => (loadValidate c vals).thenLoad s (fun _ w => ((.ok (dropDiscarded c.live.desc vals), s), w)) w

mutual
/-- `Field.from_stream`, `/repo/binobj/fields/base.py:658-732`. -/
def liveFieldFromStream (C : LoadClasses S) :
    Nat → (List Nat → Callables S) → Field → Stream → (ctx : Value) → (loaded : Dict) → LR S Value
  | 0, _, _, s, _, _ => fun w => ((.error .outOfFuel, s), w)
  | n + 1, calls, f, s, ctx, loaded =>
    liveFromStreamWith (calls []) f.base (pyEq C.plain n) (fieldNullRepr C.plain n f loaded)
      (fun s => liveFieldDoLoad C n calls f s ctx loaded) s ctx loaded
/-- `_do_load` of any field. -/
def liveFieldDoLoad (C : LoadClasses S) :
    Nat → (List Nat → Callables S) → Field → Stream → (ctx : Value) → (loaded : Dict) → LR S Value
  | 0, _, _, s, _, _ => fun w => ((.error .outOfFuel, s), w)
  | n + 1, calls, f, s, ctx, loaded =>
    match f with
    | .leaf b k => fun w => (leafLoad b k (leafExpectedSize b k loaded) s ctx loaded, w)
    | f => liveContainerLoad C n calls (liveFieldFromStream C n) (liveFieldDoLoad C n)
        (fun c s ctx => liveStructFromStream C n c s ctx []) f s ctx loaded
/-- `Struct.from_stream`, `/repo/binobj/structures.py:474-517`. -/
def liveStructFromStream (C : LoadClasses S) : Nat → LoadClass S → Stream → (ctx : Value) → (initKwargs : Dict) → LR S Dict
  | 0, _, s, _, _ => fun w => ((.error .outOfFuel, s), w)
  | n + 1, c, s, ctx, kw =>
    liveStructFromStreamWith (fun f s loaded => liveFieldFromStream C n (c.calls f.name) f s ctx loaded) c s kw
end

end Verif
