import Verif.Py.Basic

/-!
# `/repo/binobj/helpers.py`
-/

namespace Verif

/-- `helpers.read_int`, `/repo/binobj/helpers.py:19-52`.  (`endian=None → sys.byteorder` is resolved by the caller.) -/
def readInt (s : Stream) (nBytes : Int) (signed : Bool) (endian : Endian) : Except Err Int × Stream :=
  let offset := s.tell
  let (data, s) := s.read nBytes
  if (data.length : Int) < nBytes then
    (.error (.eof none nBytes offset), s)
  else
    (.ok (intOfBytes data endian signed), s)

/-- `helpers.write_int`, `/repo/binobj/helpers.py:55-88`: the bytes handed to `stream.write`, or the exception raised
by `int.to_bytes` before anything is written. -/
def writeInt (value nBytes : Int) (signed : Bool) (endian : Endian) : Except Err Bytes :=
  intToBytes value nBytes endian signed

/-- `helpers.peek_bytes`, `/repo/binobj/helpers.py:111-126`. -/
def peekBytes (s : Stream) (count : Int) (shortReadOkay : Bool := true) : Except Err Bytes × Stream :=
  let here := s.tell
  let (data, s) := s.read count
  let s := s.seek here
  if !shortReadOkay && decide ((data.length : Int) < count) then (.error .eofErr, s)
  else (.ok data, s)

end Verif
