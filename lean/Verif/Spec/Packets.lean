import Verif.Spec.Journal

/-!
# Messages that arrive in packets

Vocabulary for C114.
-/

namespace Verif

/-- A packet arrives:
```
buffer += packet
while True:
    stream = io.BytesIO(buffer)
    try:
        messages.append(Class.from_stream(stream, context))
    except Exception:
        break
    buffer = buffer[stream.tell():]
```
(a stream over the whole buffer is read on here, see C82).  The messages that are complete now, and the new buffer. -/
def receive (Γ : Classes) (m : Nat) (d : StructDesc) (ctx : Value) (buffer packet : Bytes) : List Dict × Bytes :=
  let found := journalRecords Γ m d ctx (buffer ++ packet)
  (found.1, (buffer ++ packet).drop found.2)

/-- The messages that are returned after each packet, and the buffer at the end. -/
def receiveAll (Γ : Classes) (m : Nat) (d : StructDesc) (ctx : Value) : List Bytes → Bytes → List (List Dict) × Bytes
  | [], buffer => ([], buffer)
  | packet :: packets, buffer =>
    let now := receive Γ m d ctx buffer packet
    (now.1 :: (receiveAll Γ m d ctx packets now.2).1, (receiveAll Γ m d ctx packets now.2).2)

end Verif
