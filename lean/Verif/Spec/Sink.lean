import Verif.Model.Sink
import Verif.Spec.Struct

/-!
# Streams that may fail
-/

namespace Verif.Spec

open Verif

/-- `content` tells what has reached the stream: a `write` adds a prefix of what it is given, the whole of it if it returns (disk full, broken pipe,
a crash in the middle of a write: any prefix may arrive before the exception). -/
def AppendOnly {σ : Type} (k : Sink σ) (content : σ → Bytes) : Prop :=
  ∀ chunk s, ∃ p, p <+: chunk ∧ content (k.write chunk s).2 = content s ++ p ∧ ((k.write chunk s).1 = .ok () → p = chunk)

/-- Moreover, a `write` that raises adds nothing. -/
def AtomicWrites {σ : Type} (k : Sink σ) (content : σ → Bytes) : Prop :=
  ∀ chunk s, ((k.write chunk s).1 = .ok () → content (k.write chunk s).2 = content s ++ chunk) ∧
    ∀ e, (k.write chunk s).1 = .error e → content (k.write chunk s).2 = content s

/-- `io.BytesIO`. -/
def bytesIO : Sink Bytes where
  write := fun chunk s => (.ok (), s ++ chunk)

/-- Records the calls of `write`. -/
def recorder : Sink (List Bytes) where
  write := fun chunk s => (.ok (), s ++ [chunk])

/-- A device with room for a number of bytes: it takes what still fits and then raises. -/
def device : Sink (Nat × Bytes) where
  write := fun chunk s =>
    if chunk.length ≤ s.1 then (.ok (), (s.1 - chunk.length, s.2 ++ chunk)) else (.error (.user "ENOSPC"), (0, s.2 ++ chunk.take s.1))

/-- A raw, unbuffered stream: `write` takes at most `room` bytes of what it is given and returns their number. -/
def rawStream (room : Nat) : Sink Bytes where
  write := fun chunk s => (.ok (), s ++ chunk.take room)

end Verif.Spec
