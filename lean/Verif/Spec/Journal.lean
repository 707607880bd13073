import Verif.Spec.Sink
import Verif.Spec.Records

/-!
# Journals: files to which records are appended

Vocabulary for C113.  A program appends records of one class to a file.  When it starts, and after an exception, it first cuts off what an
append that failed may have left at the end.
-/

namespace Verif

/-- A file that is opened for appending, with state `σ`: `write(chunk)` and `truncate(size)` return or raise. -/
structure JournalFile (σ : Type) extends Sink σ where
  truncate : Nat → σ → Except Err Unit × σ

/-- The records from the position of the stream on, and where the last one ends:
```
while True:
    end = file.tell()
    try:
        records.append(Class.from_stream(file, context))
    except Exception:
        break
```
(at most `k` rounds) -/
def scanRecords (Γ : Classes) (m : Nat) (d : StructDesc) (ctx : Value) : Nat → Stream → List Dict × Nat
  | 0, s => ([], s.pos)
  | k + 1, s =>
    match structFromStream Γ m d s ctx [] with
    | (.ok r, t) => (r :: (scanRecords Γ m d ctx k t).1, (scanRecords Γ m d ctx k t).2)
    | (.error _, _) => ([], s.pos)

/-- The records of a file. -/
def journalRecords (Γ : Classes) (m : Nat) (d : StructDesc) (ctx : Value) (data : Bytes) : List Dict × Nat :=
  scanRecords Γ m d ctx (data.length + 1) ⟨data, 0⟩

/-- What happens to a journal. -/
inductive JournalEvent where
  /-- a record is appended -/
  | append (vals : Dict)
  /-- the program is started again, and does not know how it ended -/
  | restart

/-- Append a record with `put`.  If `dirty`, the file is first truncated to the end of its last record. -/
def journalAppend {σ : Type} (k : JournalFile σ) (content : σ → Bytes) (Γ : Classes) (m : Nat) (d : StructDesc) (ctx : Value)
    (put : Dict → σ → Except Err Unit × σ) (vals : Dict) (s : σ) (dirty : Bool) : Except Err Unit × σ × Bool :=
  match (if dirty then k.truncate (journalRecords Γ m d ctx (content s)).2 s else (.ok (), s)) with
  | (.error e, s) => (.error e, s, true)
  | (.ok _, s) =>
    match put vals s with
    | (.error e, s) => (.error e, s, true)
    | (.ok _, s) => (.ok (), s, false)

/-- The history of a journal: for each event whether it returned or raised, and the file at the end. -/
def journalRun {σ : Type} (k : JournalFile σ) (content : σ → Bytes) (Γ : Classes) (m : Nat) (d : StructDesc) (ctx : Value)
    (put : Dict → σ → Except Err Unit × σ) : List JournalEvent → σ → Bool → List (JournalEvent × Except Err Unit) × σ
  | [], s, _ => ([], s)
  | .restart :: es, s, _ =>
    ((.restart, .ok ()) :: (journalRun k content Γ m d ctx put es s true).1, (journalRun k content Γ m d ctx put es s true).2)
  | .append vals :: es, s, dirty =>
    let out := journalAppend k content Γ m d ctx put vals s dirty
    ((.append vals, out.1) :: (journalRun k content Γ m d ctx put es out.2.1 out.2.2).1,
      (journalRun k content Γ m d ctx put es out.2.1 out.2.2).2)

/-- `Class(**vals).to_stream(file, context)` -/
def putStream {σ : Type} (k : Sink σ) (Γ : Classes) (n : Nat) (d : StructDesc) (ctx : Value) (vals : Dict) (s : σ) : Except Err Unit × σ :=
  structToSink k Γ n d vals ctx s

/-- `file.write(Class(**vals).to_bytes(context))` -/
def putBytes {σ : Type} (k : Sink σ) (Γ : Classes) (n : Nat) (d : StructDesc) (ctx : Value) (vals : Dict) (s : σ) : Except Err Unit × σ :=
  match structToBytes Γ n d vals ctx with
  | .error e => (.error e, s)
  | .ok bs => k.write bs s

namespace Spec

/-- `content` tells what is in the file.  A `write` that raises may have added the beginning of what it was given; a `truncate` that raises may
have cut off nothing, all or a part of what it was to cut off. -/
structure Journaling {σ : Type} (k : JournalFile σ) (content : σ → Bytes) : Prop where
  write : AppendOnly k.toSink content
  truncate : ∀ size s, ∃ j, size ≤ j ∧ content (k.truncate size s).2 = (content s).take j ∧ ((k.truncate size s).1 = .ok () → j = size)

/-- A record is in the journal if its append returned.  If its append raised, it may be in the journal or not. -/
inductive KeptIn : List (JournalEvent × Except Err Unit) → List Dict → Prop where
  | nil : KeptIn [] []
  | restart {es kept} {r : Except Err Unit} : KeptIn es kept → KeptIn ((.restart, r) :: es) kept
  | returned {vals es kept} : KeptIn es kept → KeptIn ((.append vals, .ok ()) :: es) (vals :: kept)
  | lost {vals e es kept} : KeptIn es kept → KeptIn ((.append vals, .error e) :: es) kept
  | raisedAfterwards {vals e es kept} : KeptIn es kept → KeptIn ((.append vals, .error e) :: es) (vals :: kept)

/-- A file without errors. -/
def goodJournal : JournalFile Bytes where
  write chunk s := (.ok (), s ++ chunk)
  truncate size s := (.ok (), s.take size)

/-- A disk on which a `write` fails, in the middle of the chunk, once there have been as many bytes as the first number says; the second
number says after how many more bytes this happens again, and so on. -/
def failingJournal : JournalFile (List Nat × Bytes) where
  write chunk s :=
    match s.1 with
    | [] => (.ok (), ([], s.2 ++ chunk))
    | room :: rooms =>
      if chunk.length ≤ room then (.ok (), ((room - chunk.length) :: rooms, s.2 ++ chunk))
      else (.error (.user "EIO"), (rooms, s.2 ++ chunk.take room))
  truncate size s := (.ok (), (s.1, s.2.take size))

end Spec
end Verif
