import Verif.Spec.Records
import Verif.Spec.Optional

/-!
# Files of chunks

A file is a sequence of chunks.  A chunk is an instance of an envelope class, which has a tag, and a body of bytes that are the dump of some other struct.
A program knows the classes for some of the tags, and keeps the bodies of the others as they are.
-/

namespace Verif.Spec

/-- What is to be written: a struct, and its tag. -/
structure Tagged where
  tag : Value
  cls : StructDesc
  vals : Dict

/-- What a program makes of a chunk. -/
inductive Chunk where
  | known (tag : Value) (cls : StructDesc) (vals : Dict)
  | unknown (tag : Value) (body : Bytes)

/-- The classes and names involved: the envelope class, and its two fields that matter. -/
structure ChunkFormat where
  envelope : StructDesc
  tag : String
  body : String

/-- `Envelope(tag=tag, body=body).to_stream(stream, context)` -/
def putBody (Γ : Classes) (n : Nat) (F : ChunkFormat) (ctx t : Value) (x : Bytes) : W :=
  structToStream Γ n F.envelope [(F.tag, t), (F.body, .bytes x)] ctx

/-- `Envelope(tag=tag, body=struct.to_bytes(context)).to_stream(stream, context)` -/
def putChunk (Γ : Classes) (n : Nat) (F : ChunkFormat) (ctx : Value) (i : Tagged) : W :=
  match structToBytes Γ n i.cls i.vals ctx with
  | .error e => W.fail e
  | .ok x => putBody Γ n F ctx i.tag x

/-- One after another. -/
def putAll {α : Type} (put : α → W) : List α → W
  | [] => W.ok []
  | a :: as => (put a).seq fun _ => putAll put as

/-- ```
env = Envelope.from_stream(stream, context)
cls = TABLE.get(env.tag)
return env.body if cls is None else cls.from_bytes(env.body, context, exact=True)
``` -/
def getChunk (Γ : Classes) (n : Nat) (F : ChunkFormat) (table : Value → Option StructDesc) (ctx : Value) (s : Stream) : R Chunk :=
  match structFromStream Γ n F.envelope s ctx [] with
  | (.error e, s) => (.error e, s)
  | (.ok r, s) =>
    match structGetItem F.envelope r F.tag, structGetItem F.envelope r F.body with
    | .error e, _ => (.error e, s)
    | .ok _, .error e => (.error e, s)
    | .ok t, .ok (.bytes x) =>
      match table t with
      | none => (.ok (.unknown t x), s)
      | some d => ((structFromBytes Γ n d x ctx true []).map (Chunk.known t d), s)
    | .ok _, .ok _ => (.error .typeErr, s)

/-- So many times. -/
def getChunks (Γ : Classes) (n : Nat) (F : ChunkFormat) (table : Value → Option StructDesc) (ctx : Value) : Nat → Stream → R (List Chunk)
  | 0, s => (.ok [], s)
  | k + 1, s =>
    match getChunk Γ n F table ctx s with
    | (.error e, s) => (.error e, s)
    | (.ok c, s) => R.map (getChunks Γ n F table ctx k s) (c :: ·)

/-- Write what was read. -/
def putBack (Γ : Classes) (n : Nat) (F : ChunkFormat) (ctx : Value) : Chunk → W
  | .known t d vals => putChunk Γ n F ctx ⟨t, d, vals⟩
  | .unknown t x => putBody Γ n F ctx t x

/-- The chunk that was read is the struct that was written: with its values if the program knows the tag, otherwise as bytes. -/
def ReadAs (Γ : Classes) (n : Nat) (ctx : Value) (table : Value → Option StructDesc) (i : Tagged) : Chunk → Prop
  | .known t d r => table i.tag = some d ∧ d = i.cls ∧ t = i.tag ∧ RestoredKept Γ n i.cls i.vals r
  | .unknown t x => table i.tag = none ∧ t = i.tag ∧ structToStream Γ (n + 1) i.cls i.vals ctx = (x, .ok ())

/-- All of them, in order. -/
inductive AllReadAs (Γ : Classes) (n : Nat) (ctx : Value) (table : Value → Option StructDesc) : List Tagged → List Chunk → Prop where
  | nil : AllReadAs Γ n ctx table [] []
  | cons {i : Tagged} {c : Chunk} {is : List Tagged} {cs : List Chunk} : ReadAs Γ n ctx table i c → AllReadAs Γ n ctx table is cs →
      AllReadAs Γ n ctx table (i :: is) (c :: cs)

/-- A field of the class that is always there, and kept. -/
def Carried (d : StructDesc) (k : String) : Prop :=
  ∃ f ∈ d.components, f.name = k ∧ f.base.discard = false ∧ ∀ w c s, f.base.present w c s = .ok true

/-- The envelope class is one of those that round-trip, and has the two fields. -/
structure ChunkFormat.Sound (Γ : Classes) (F : ChunkFormat) : Prop where
  schema : OptionalSchema Γ F.envelope
  tag : Carried F.envelope F.tag
  body : Carried F.envelope F.body

/-- The struct round-trips, and its tag (a number, text or bytes) and any body suit the envelope. -/
structure Tagged.Sound (Γ : Classes) (F : ChunkFormat) (i : Tagged) : Prop where
  schema : OptionalSchema Γ i.cls
  values : Bears Γ i.cls i.vals
  tag : (∃ k, i.tag = .int k) ∨ (∃ x, i.tag = .bytes x) ∨ ∃ x, i.tag = .str x
  suits : ∀ x, Bears Γ F.envelope [(F.tag, i.tag), (F.body, .bytes x)]

end Verif.Spec
