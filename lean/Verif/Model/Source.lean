import Verif.Model.Struct

/-!
# Loading from arbitrary streams

The other files load from an `io.BytesIO`, which always answers.  Here the stream is arbitrary: what `read`, `tell` and `seek` do is a
parameter.  The functions below are those of `Helpers.lean`, `VarInt.lean`, `Field.lean`, `Load.lean` and `Struct.lean` again, each call of a
method of the stream being a step that may raise.

Simplifications: functions supplied by the user (`present`, `halt_check`, the deciders of a union) are shown the bytes and the position (`view`) and
do not read from the stream; what a field type of the user does with the stream is a parameter (`custom`).
-/

namespace Verif

/-- A readable stream with state `τ`. -/
structure Source (τ : Type) where
  /-- The bytes of the underlying data and the current position, as a person looking at the file or connection would see them. -/
  view : τ → Stream
  /-- `stream.read(n)` -/
  read : Int → τ → Except Err Bytes × τ
  /-- `stream.tell()` -/
  tell : τ → Except Err Nat × τ
  /-- `stream.seek(p)` -/
  seek : Int → τ → Except Err Unit × τ
  /-- `stream.seek(k, os.SEEK_CUR)` -/
  skip : Nat → τ → Except Err Unit × τ
  /-- `_do_load` of a field type of the user, given what it would do with a `BytesIO`. -/
  custom : (Stream → R Value) → τ → Except Err Value × τ

/-- `a; b` -/
def andNext {τ α β : Type} (m : τ → Except Err α × τ) (f : α → τ → Except Err β × τ) (t : τ) : Except Err β × τ :=
  match m t with
  | (.error e, t) => (.error e, t)
  | (.ok a, t) => f a t

/-- `try: a finally: b`: an exception raised by `b` replaces the outcome of `a`. -/
def tryFinally {τ α : Type} (m : τ → Except Err α × τ) (cleanup : τ → Except Err Unit × τ) (t : τ) : Except Err α × τ :=
  let (r, t) := m t
  match cleanup t with
  | (.error e, t) => (.error e, t)
  | (.ok _, t) => (r, t)

/-- A result that needs no access to the stream. -/
def pureResult {τ α : Type} (r : Except Err α) (t : τ) : Except Err α × τ := (r, t)

/-- Continue with a computation that may raise but leaves the stream alone. -/
def thenCalc {τ α β : Type} (m : τ → Except Err α × τ) (g : α → Except Err β) : τ → Except Err β × τ :=
  andNext m fun a => pureResult (g a)

namespace Source

variable {τ : Type} (k : Source τ)

/-- `helpers.read_int`, `/repo/binobj/helpers.py:19-52`. -/
def readInt (nBytes : Int) (signed : Bool) (endian : Endian) : τ → Except Err Int × τ :=
  andNext k.tell fun offset =>
    andNext (k.read nBytes) fun data =>
      pureResult (if (data.length : Int) < nBytes then .error (.eof none nBytes offset) else .ok (intOfBytes data endian signed))

/-- `helpers.peek_bytes` with `short_read_okay=True`, `/repo/binobj/helpers.py:111-126`. -/
def peekBytes (count : Int) : τ → Except Err Bytes × τ :=
  andNext k.tell fun here => tryFinally (k.read count) (k.seek here)

/-- `_read_uint8`, `/repo/binobj/varints.py:52-54`. -/
def readUInt8 : τ → Except Err Nat × τ := thenCalc (k.readInt 1 false .little) fun v => .ok v.toNat

/-- The loop of `decode_integer_compact`, `/repo/binobj/varints.py:100-112`. -/
def decodeCompactLoop : Nat → Option Int → Nat → τ → Except Err Int × τ
  | 0, _, _ => pureResult (.error .outOfFuel)
  | fuel + 1, sign, value =>
    andNext k.readUInt8 fun int8 =>
      let (value, sgn) : Nat × Int :=
        match sign with
        | none => (int8 &&& 0x3F, if int8 &&& 64 ≠ 0 then -1 else 1)
        | some sgn => ((value <<< 7) ||| (int8 &&& 0x7F), sgn)
      if int8 &&& 0x80 = 0 then pureResult (.ok ((value : Int) * sgn))
      else decodeCompactLoop fuel (some sgn) value

/-- The loop of `decode_integer_vlq`, `/repo/binobj/varints.py:151-156`. -/
def decodeVlqLoop : Nat → Nat → τ → Except Err Int × τ
  | 0, _ => pureResult (.error .outOfFuel)
  | fuel + 1, value =>
    andNext k.readUInt8 fun int8 =>
      let value := (value <<< 7) ||| (int8 &&& 0x7F)
      if int8 &&& 0x80 = 0 then pureResult (.ok (value : Int))
      else decodeVlqLoop fuel value

/-- The loop of `decode_integer_uleb128`, `/repo/binobj/varints.py:195-201`. -/
def decodeUleb128Loop : Nat → Nat → Nat → τ → Except Err Nat × τ
  | 0, _, _ => pureResult (.error .outOfFuel)
  | fuel + 1, value, bitsRead =>
    andNext k.readUInt8 fun int8 =>
      let value := value ||| ((int8 &&& 0x7F) <<< bitsRead)
      let bitsRead := bitsRead + 7
      if int8 &&& 0x80 = 0 then pureResult (.ok value)
      else decodeUleb128Loop fuel value bitsRead

/-- `decode_integer_leb128`, `/repo/binobj/varints.py:241-262`. -/
def decodeLeb128 (fuel : Nat) : τ → Except Err Int × τ :=
  andNext k.tell fun startingOffset =>
    andNext (k.decodeUleb128Loop fuel 0 0) fun value =>
      if value = 0 then pureResult (.ok 0)
      else
        andNext k.tell fun here =>
          let nBitsRead := (here - startingOffset) * 7
          let nValueBits := bitLength value
          if nBitsRead > nValueBits then pureResult (.ok (value : Int))
          else pureResult (.ok (-((2 ^ nBitsRead : Int) - (value : Int))))

/-- `INTEGER_ENCODING_MAP[…].decode`, `/repo/binobj/varints.py:283-308`.  The fuel of the loops bounds the number of bytes left. -/
def decodeVarInt (enc : VarIntEncoding) (t : τ) : Except Err Int × τ :=
  match enc with
  | .compact => k.decodeCompactLoop (loopFuel (k.view t)) none 0 t
  | .leb128 => k.decodeLeb128 (loopFuel (k.view t)) t
  | .uleb128 => thenCalc (k.decodeUleb128Loop (loopFuel (k.view t)) 0 0) (fun v => .ok (v : Int)) t
  | .vlq => k.decodeVlqLoop (loopFuel (k.view t)) 0 t

/-- `_read_exact_size`, `/repo/binobj/fields/base.py:965-996`. -/
def readExactSize (name : String) (expSize : Except Err Int) : τ → Except Err Bytes × τ :=
  andNext k.tell fun offset =>
    match expSize with
    | .error e => pureResult (.error e)
    | .ok n =>
      andNext (k.read n) fun data =>
        pureResult (if (data.length : Int) < n then .error (.eof (some name) n offset) else .ok data)

/-- The loop of `StringZ._do_load`, `/repo/binobj/fields/stringlike.py:168-180`, `/repo/binobj/helpers.py:91-108`. -/
def stringzLoop (name : String) (codec : CharCodec) (maxBytes : Option Int) :
    Nat → (nRead : Nat) → (buf : Bytes) → (acc : List Nat) → τ → Except Err (List Nat) × τ
  | fuel, nRead, buf, acc =>
    let atEnd : τ → Except Err (List Nat) × τ := pureResult (if buf = [] then .error (.deser (some name)) else .error .unicodeErr)
    let stop : Bool := match maxBytes with
      | some m => decide ((nRead : Int) ≥ m)
      | none => false
    if stop then atEnd
    else
      andNext (k.read 1) fun data =>
        match data with
        | [] => atEnd
        | b :: _ =>
          match codec.feed (buf ++ [b]) with
          | .error e => pureResult (.error e)
          | .ok (out, buf') =>
            if out = [0] then pureResult (.ok acc)
            else
              match fuel with
              | 0 => pureResult (.error .outOfFuel)
              | fuel + 1 => stringzLoop name codec maxBytes fuel (nRead + 1) buf' (acc ++ out)

/-- `UUID4._do_load`, `/repo/binobj/fields/stringlike.py:245-259`. -/
def loadUuid (name : String) (fmt : UUIDFormat) : τ → Except Err Value × τ :=
  andNext (k.read fmt.size) fun raw =>
    if (raw.length : Int) < fmt.size then andNext k.tell fun offset => pureResult (.error (.eof (some name) fmt.size offset))
    else pureResult ((uuidParse fmt raw).map .uuid)

/-- `_do_load` of the field types without children: numeric.py:91-101, 188-197, 249-254, 424-435, stringlike.py:32-36, 101-107, 158-180, 245-259. -/
def leafLoad (b : FieldBase) (l : Leaf) (expSize : Except Err Int) (ctx : Value) (loaded : Dict) (t : τ) : Except Err Value × τ :=
  match l with
  | .float fmt endian =>
    thenCalc (k.readExactSize b.name expSize) (fun data =>
      if data.length = fmt.bytes then .ok (.float (floatUnpack fmt endian data)) else .error (.deser (some b.name))) t
  | .integer signed endian =>
    match b.size with
    | .fixed n => thenCalc (k.readInt n signed endian) (fun i => .ok (.int i)) t
    | _ => (.error (.undefinedSize b.name), t)
  | .varint enc _ => thenCalc (k.decodeVarInt enc) (fun i => .ok (.int i)) t
  | .timestamp res tzAware signed endian =>
    match expSize with
    | .error e => (.error e, t)
    | .ok n =>
      thenCalc (k.readInt n signed endian) (fun i => (tsLoad res tzAware i).map fun us => .datetime us tzAware) t
  | .bytes => thenCalc (k.readExactSize b.name expSize) (fun d => .ok (.bytes d)) t
  | .string codec _ => thenCalc (k.readExactSize b.name expSize) (fun data => (codec.decode data).map .str) t
  | .stringz codec _ =>
    match expSize with
    | .ok n => thenCalc (k.stringzLoop b.name codec (some n) (k.view t).rest.length 0 [] []) (fun s => .ok (.str s)) t
    | .error (.undefinedSize _) => thenCalc (k.stringzLoop b.name codec none (k.view t).rest.length 0 [] []) (fun s => .ok (.str s)) t
    | .error e => (.error e, t)
  | .uuid fmt => k.loadUuid b.name fmt t
  | .custom ops => k.custom (fun s => ops.load s ctx loaded) t

/-- `Array.should_halt`, `/repo/binobj/fields/containers.py:170-237`. -/
def shouldHalt (name : String) (count : Count) (values : List Value) (loaded : Dict) : τ → Except Err Bool × τ :=
  match count with
  | .none => andNext k.tell fun offset => tryFinally (thenCalc (k.read 1) fun d => .ok (decide (d = []))) (k.seek offset)
  | count =>
    pureResult (match finalElementCount count loaded with
      | .error e => .error e
      | .ok none => .error (.undefinedSize name)
      | .ok (some n) => .ok (decide (n ≤ values.length)))

/-- `self.halt_check`, `/repo/binobj/fields/containers.py:106`: the user's function or `should_halt`. -/
def haltCheck (name : String) (count : Count) (halt : Option (Stream → List Value → Value → Dict → Except Err (Bool × List Value)))
    (ctx : Value) (loaded : Dict) (values : List Value) (t : τ) : Except Err (Bool × List Value) × τ :=
  match halt with
  | none => thenCalc (k.shouldHalt name count values loaded) (fun stop => .ok (stop, values)) t
  | some h => (h (k.view t) values ctx loaded, t)

/-- The loop of `Array._do_load`, `/repo/binobj/fields/containers.py:317-324`. -/
def arrayLoop (halt : List Value → τ → Except Err (Bool × List Value) × τ) (load : τ → Except Err Value × τ) :
    Nat → List Value → τ → Except Err (List Value) × τ
  | fuel, acc =>
    andNext (halt acc) fun (stop, acc) =>
      if stop then pureResult (.ok acc)
      else
        andNext load fun v =>
          match fuel with
          | 0 => pureResult (.error .outOfFuel)
          | fuel + 1 => arrayLoop halt load fuel (if v = .notPresent then acc else acc ++ [v])

/-- `struct_class.from_stream(stream, context)`, `/repo/binobj/fields/containers.py:371, 497`. -/
def loadStruct (Γ : Classes) (fromSource : StructDesc → Value → τ → Except Err Dict × τ) (cls : String) (ctx : Value) :
    τ → Except Err Value × τ :=
  match Γ cls with
  | none => pureResult (.error .attributeErr)
  | some d => thenCalc (fromSource d ctx) fun vals => .ok (.struct cls vals)

/-- `_do_load` of the container fields: containers.py:300-324, 367-371, 489-501. -/
def containerLoad (Γ : Classes) (fuel : Nat) (fromSource : Field → Value → Dict → τ → Except Err Value × τ)
    (doLoad : Field → Value → Dict → τ → Except Err Value × τ) (structFromSource : StructDesc → Value → τ → Except Err Dict × τ)
    (f : Field) (ctx : Value) (loaded : Dict) (t : τ) : Except Err Value × τ :=
  match f with
  | .leaf .. => (.error .typeErr, t)          -- not used
  | .array b comp count halt =>
    thenCalc (arrayLoop (k.haltCheck b.name count halt ctx loaded) (fromSource comp ctx loaded) fuel []) (fun vs => .ok (.list vs)) t
  | .nested _ cls => loadStruct Γ structFromSource cls ctx t
  | .union _ choices decider _ =>
    match decider (k.view t) ctx loaded with
    | .error e => (.error e, t)
    | .ok i =>
      match choices[i]? with
      | none => (.error .typeErr, t)
      | some (.inl g) => doLoad g ctx loaded t
      | some (.inr cls) => loadStruct Γ structFromSource cls ctx t

/-- `_do_load` and what follows it in `Field.from_stream`, `/repo/binobj/fields/base.py:710-732`. -/
def loadAndFinish (b : FieldBase) (eq : Value → Value → Except Err Bool) (doLoad : τ → Except Err Value × τ) (t : τ) :
    Except Err Value × τ :=
  match doLoad t with
  | (.error e, t) => (.error (setErrField b.name e), t)
  | (.ok v, t) => (finishLoad b eq v, t)

/-- `Field.from_stream`, `/repo/binobj/fields/base.py:658-732`, given the field's `_do_load`, its `_get_null_repr` and `==`. -/
def fromSourceWith (b : FieldBase) (eq : Value → Value → Except Err Bool) (nullRepr : Except Err Bytes)
    (doLoad : τ → Except Err Value × τ) (ctx : Value) (loaded : Dict) (t : τ) : Except Err Value × τ :=
  match b.present loaded.view ctx (some (k.view t)) with
  | .error e => (.error e, t)
  | .ok false => (.ok b.notPresentValue, t)
  | .ok true =>
    if b.allowNull then
      match nullRepr with
      | .error e =>
        if e.isUnserializable then
          if b.nullValue = .dflt then (.error (.cannotDetermineNull b.name), t)
          else loadAndFinish b eq doLoad t
        else (.error e, t)
      | .ok repr =>
        andNext (k.peekBytes repr.length) (fun peeked =>
          if peeked = repr then
            andNext (k.skip repr.length) fun _ =>
              pureResult (match runValidators b.validators .none with
                | .error e => .error e
                | .ok _ => .ok .none)
          else loadAndFinish b eq doLoad) t
    else loadAndFinish b eq doLoad t

/-- The loop of `Struct.from_stream`, `/repo/binobj/structures.py:505-508`. -/
def loadFields (fromSource : Field → Dict → τ → Except Err Value × τ) : List Field → Dict → τ → Except Err Dict × τ
  | [], results => pureResult (.ok results)
  | f :: fs, results => andNext (fromSource f results) fun v => loadFields fromSource fs (results.setDefault f.name v)

/-- `Struct.from_stream`, `/repo/binobj/structures.py:474-517`, given `Field.from_stream`. -/
def structFromSourceWith (fromSource : Field → Dict → τ → Except Err Value × τ) (d : StructDesc) (initKwargs : Dict) :
    τ → Except Err Dict × τ :=
  thenCalc (loadFields fromSource d.components initKwargs) fun results =>
    match structInit d results with
    | .error e => .error e
    | .ok vals =>
      match validateContents d vals with
      | .error e => .error e
      | .ok _ => .ok (dropDiscarded d vals)

end Source

mutual
/-- `Field.from_stream`, `/repo/binobj/fields/base.py:658-732`, on an arbitrary stream. -/
def fieldFromSource {τ : Type} (k : Source τ) (Γ : Classes) : Nat → Field → (ctx : Value) → (loaded : Dict) → τ → Except Err Value × τ
  | 0, _, _, _, t => (.error .outOfFuel, t)
  | n + 1, f, ctx, loaded, t =>
    k.fromSourceWith f.base (pyEq Γ n) (fieldNullRepr Γ n f loaded) (fieldDoLoadSource k Γ n f ctx loaded) ctx loaded t
/-- `_do_load` of any field, on an arbitrary stream. -/
def fieldDoLoadSource {τ : Type} (k : Source τ) (Γ : Classes) : Nat → Field → (ctx : Value) → (loaded : Dict) → τ → Except Err Value × τ
  | 0, _, _, _, t => (.error .outOfFuel, t)
  | n + 1, f, ctx, loaded, t =>
    match f with
    | .leaf b l => k.leafLoad b l (leafExpectedSize b l loaded) ctx loaded t
    | f => k.containerLoad Γ n (fieldFromSource k Γ n) (fieldDoLoadSource k Γ n) (fun d ctx => structFromSource k Γ n d ctx []) f ctx loaded t
/-- `Struct.from_stream`, `/repo/binobj/structures.py:474-517`, on an arbitrary stream. -/
def structFromSource {τ : Type} (k : Source τ) (Γ : Classes) : Nat → StructDesc → (ctx : Value) → (initKwargs : Dict) → τ → Except Err Dict × τ
  | 0, _, _, _, t => (.error .outOfFuel, t)
  | n + 1, d, ctx, kw, t => Source.structFromSourceWith (fun f loaded => fieldFromSource k Γ n f ctx loaded) d kw t
end

/-- The loop of `partial_load`, `/repo/binobj/structures.py:600-624`, on an arbitrary stream. -/
def partialLoadLoopSource {τ : Type} (k : Source τ) (fromSource : Field → Dict → τ → Except Err Value × τ) (lastField : Option String) :
    List Field → Dict → τ → Except Err Dict × τ
  | [], result => pureResult (.ok result)
  | f :: fs, result =>
    andNext k.tell fun offset t =>
      match fromSource f result t with
      | (.error e, t) =>
        if e.isEOF ∧ lastField = none then andNext (k.seek offset) (fun _ => pureResult (.ok result)) t else (.error e, t)
      | (.ok v, t) =>
        let result := if f.base.discard then result else result.set f.name v
        if some f.name = lastField then (.ok result, t) else partialLoadLoopSource k fromSource lastField fs result t

/-- `Struct.partial_load`, `/repo/binobj/structures.py:561-624`, on an arbitrary stream. -/
def structPartialLoadSource {τ : Type} (k : Source τ) (Γ : Classes) (n : Nat) (d : StructDesc) (lastField : Option String) (ctx : Value) (t : τ) :
    Except Err Dict × τ :=
  if lastField.any (fun l => !d.has l) then (.error .valueErr, t)
  else thenCalc (partialLoadLoopSource k (fun f loaded => fieldFromSource k Γ n f ctx loaded) lastField d.components []) (structInit d) t

/-- `Struct.get_field`, `/repo/binobj/structures.py:626-679`, on an arbitrary stream. -/
def structGetFieldSource {τ : Type} (k : Source τ) (Γ : Classes) (n : Nat) (d : StructDesc) (name : String) (ctx : Value) (t : τ) :
    Except Err Value × τ :=
  match d.find? name with
  | none => (.error .valueErr, t)
  | some f =>
    andNext k.tell (fun originalOffset =>
      match f.base.offset with
      | some off => tryFinally (andNext (k.seek (originalOffset + off)) fun _ => fieldFromSource k Γ n f ctx []) (k.seek originalOffset)
      | none =>
        thenCalc (tryFinally (structPartialLoadSource k Γ n d (some name) ctx) (k.seek originalOffset)) fun vals => structGetItem d vals name) t

/-- `io.BytesIO` -/
def bytesIOSource : Source Stream where
  view s := s
  read n s := ((.ok (s.read n).1), (s.read n).2)
  tell s := (.ok s.tell, s)
  seek p s := seekInt s p
  skip n s := (.ok (), s.seek (s.pos + n))
  custom load s := load s

end Verif
