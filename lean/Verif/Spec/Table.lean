import Verif.Model.Sink
import Verif.Spec.Struct

/-!
# Records in the slots of a file

Vocabulary for C106.
-/

namespace Verif

/-- A file that is opened for reading and writing, with state `σ`: `write(chunk)` and `seek(position)` return or raise. -/
structure Disk (σ : Type) extends Sink σ where
  seek : Nat → σ → Except Err Unit × σ

/-- `file.seek(i * size); Class(**vals).to_stream(file, context)` -/
def putRecord {σ : Type} (k : Disk σ) (Γ : Classes) (n : Nat) (size i : Nat) (d : StructDesc) (vals : Dict) (ctx : Value) (s : σ) :
    Except Err Unit × σ :=
  match k.seek (i * size) s with
  | (.error e, s) => (.error e, s)
  | (.ok _, s) => structToSink k.toSink Γ n d vals ctx s

/-- A number of such calls.  Those that raise are caught, and the next one is tried. -/
def putRecords {σ : Type} (k : Disk σ) (Γ : Classes) (n : Nat) (size : Nat) (ctx : Value) : List (Nat × StructDesc × Dict) → σ → σ
  | [], s => s
  | (i, d, vals) :: ps, s => putRecords k Γ n size ctx ps (putRecord k Γ n size i d vals ctx s).2

namespace Spec

/-- What a file contains after `p` was written at `pos`: a gap is filled with zeros. -/
def overwrite (data : Bytes) (pos : Nat) (p : Bytes) : Bytes :=
  if p = [] then data else data.take pos ++ List.replicate (pos - data.length) 0 ++ p ++ data.drop (pos + p.length)

/-- `view` tells what the file contains, and its position.  A `write` that raises may have written a part of what it was given. -/
structure InPlace {σ : Type} (k : Disk σ) (view : σ → Stream) : Prop where
  write : ∀ chunk s, ∃ p, p <+: chunk ∧
    view (k.write chunk s).2 = ⟨overwrite (view s).data (view s).pos p, (view s).pos + p.length⟩ ∧ ((k.write chunk s).1 = .ok () → p = chunk)
  seek : ∀ pos s, (view (k.seek pos s).2).data = (view s).data ∧ ((k.seek pos s).1 = .ok () → (view (k.seek pos s).2).pos = pos)

/-- Everything a dump writes, whether it succeeds or fails on the way, fits in `size` bytes. -/
def FitsSlot (Γ : Classes) (n : Nat) (size : Nat) (d : StructDesc) (vals : Dict) (ctx : Value) : Prop :=
  (structToStream Γ n d vals ctx).1.length ≤ size

/-- The file `open("…", "r+b")` on a disk without errors; also `io.BytesIO`. -/
def goodDisk : Disk Stream where
  write chunk s := (.ok (), ⟨overwrite s.data s.pos chunk, s.pos + chunk.length⟩)
  seek pos s := (.ok (), ⟨s.data, pos⟩)

/-- A disk that fails after a number of bytes, in the middle of a `write`, once. -/
def flakyDisk : Disk (Nat × Stream) where
  write chunk s :=
    if chunk.length ≤ s.1 ∨ s.1 = 0 then (.ok (), (s.1 - chunk.length, ⟨overwrite s.2.data s.2.pos chunk, s.2.pos + chunk.length⟩))
    else (.error (.user "EIO"), (0, ⟨overwrite s.2.data s.2.pos (chunk.take s.1), s.2.pos + (chunk.take s.1).length⟩))
  seek pos s := (.ok (), (s.1, ⟨s.2.data, pos⟩))

end Spec
end Verif
