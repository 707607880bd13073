import Verif.Model.Struct

/-!
# Dumping to streams that may fail

The other files dump to an `io.BytesIO`, which takes everything.  Here the stream is arbitrary: what `write` does is a parameter.
-/

namespace Verif

/-- A writable stream with state `σ`: `write(chunk)` returns or raises, and changes the state. -/
structure Sink (σ : Type) where
  write : Bytes → σ → Except Err Unit × σ

/-- `Field.to_stream`, `/repo/binobj/fields/base.py:794-850`, on an arbitrary stream.  The field serializes itself to a buffer of its own and calls
`stream.write` exactly once, at the end (lines 827, 850); the return value of `write` is ignored. -/
def fieldToSink {σ : Type} (k : Sink σ) (Γ : Classes) (n : Nat) (f : Field) (v ctx : Value) (all : Dict) (s : σ) : Except Err Unit × σ :=
  match (fieldToStream Γ n f v ctx all).toExcept with
  | .error e => (.error e, s)
  | .ok chunk => k.write chunk s

/-- The loop of `Struct.to_stream`, `/repo/binobj/structures.py:382-385`, on an arbitrary stream. -/
def dumpFieldsTo {σ : Type} (toSink : Field → Value → σ → Except Err Unit × σ) (all : Dict) (ctx : Value) : List Field → σ → Except Err Unit × σ
  | [], s => (.ok (), s)
  | f :: fs, s =>
    match f.base.computeValueForDump all.view ctx with
    | .error e => (.error e, s)
    | .ok v =>
      if v = .notPresent then dumpFieldsTo toSink all ctx fs s
      else
        match toSink f v s with
        | (.error e, s) => (.error e, s)
        | (.ok _, s) => dumpFieldsTo toSink all ctx fs s

/-- `Struct.to_stream`, `/repo/binobj/structures.py:366-385`, on an arbitrary stream. -/
def structToSink {σ : Type} (k : Sink σ) (Γ : Classes) : Nat → StructDesc → Dict → Value → σ → Except Err Unit × σ
  | 0, _, _, _, s => (.error .outOfFuel, s)
  | n + 1, d, vals, ctx, s =>
    match validateContents d vals with
    | .error e => (.error e, s)
    | .ok _ =>
      match structToDict Γ n d vals with
      | .error e => (.error e, s)
      | .ok all => dumpFieldsTo (fun f v => fieldToSink k Γ n f v ctx all) all ctx d.components s

/-- The loop of `partial_dump`, `/repo/binobj/structures.py:702-716`, on an arbitrary stream. -/
def partialDumpTo {σ : Type} (toSink : Field → Value → σ → Except Err Unit × σ) (vals : Dict) (lastField : Option String) :
    List Field → σ → Except Err Unit × σ
  | [], s => (.ok (), s)
  | f :: fs, s =>
    match f.base.default with
    | .error e => (.error e, s)
    | .ok fallback =>
      let value := (vals.get? f.name).getD fallback
      let go : Unit → Except Err Unit × σ := fun _ =>
        match toSink f value s with
        | (.error e, s) => (.error e, s)
        | (.ok _, s) => if some f.name = lastField then (.ok (), s) else partialDumpTo toSink vals lastField fs s
      if value = .undefined then
        if lastField = none then (.ok (), s)
        else
          match f.base.required with
          | .error e => (.error e, s)
          | .ok true => (.error (.missingRequired f.name), s)
          | .ok false => go ()
      else go ()

/-- `Struct.partial_dump`, `/repo/binobj/structures.py:681-716`, on an arbitrary stream. -/
def structPartialDumpTo {σ : Type} (k : Sink σ) (Γ : Classes) (n : Nat) (d : StructDesc) (vals : Dict) (lastField : Option String) (ctx : Value)
    (s : σ) : Except Err Unit × σ :=
  partialDumpTo (fun f v => fieldToSink k Γ n f v ctx []) vals lastField d.components s

end Verif
