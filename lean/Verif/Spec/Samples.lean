import Verif.Model.Class

/-!
# Concrete fields and classes for the non-vacuity examples
-/

namespace Verif.Sample

/-- `UInt8()` -/
def u8 (name : String) : Field := .leaf { name := name, typeName := "UInt8", size := .fixed 1 } (.integer false .little)
/-- `UInt16(endian="big")` -/
def u16 (name : String) : Field :=
  .leaf { name := name, typeName := "UInt16", size := .fixed 2, explicit := ["endian"] } (.integer false .big)
/-- `Int16(endian="little")` -/
def i16 (name : String) : Field :=
  .leaf { name := name, typeName := "Int16", size := .fixed 2, explicit := ["endian"] } (.integer true .little)
/-- `VariableLengthInteger(vli_format=VLQ)` -/
def vlq (name : String) (max : Option Int := none) : Field :=
  .leaf { name := name, typeName := "VariableLengthInteger" } (.varint .vlq max)
/-- `Bytes(size=n)` -/
def bytes (name : String) (n : Int) : Field := .leaf { name := name, typeName := "Bytes", size := .fixed n } .bytes
/-- `Bytes(size=other)` -/
def bytesRef (name other : String) : Field := .leaf { name := name, typeName := "Bytes", size := .ref other } .bytes
/-- `String(size=n, encoding="ascii")` -/
def str (name : String) (n : Int) (pad : Option UInt8 := none) : Field :=
  .leaf { name := name, typeName := "String", size := .fixed n } (.string asciiCodec pad)
/-- `StringZ(encoding="utf-8")` -/
def strz (name : String) : Field := .leaf { name := name, typeName := "StringZ" } (.stringz utf8Codec none)
/-- `Array(component, count=count)` without a size -/
def array (name : String) (component : Field) (count : Count) : Field :=
  .array { name := name, typeName := "Array" } component count none
/-- `Nested(cls)` without a fixed size -/
def nested (name cls : String) : Field := .nested { name := name, typeName := "Nested" } cls

/-- Change the attributes of a field. -/
def upd (f : Field) (g : FieldBase → FieldBase) : Field := f.withBase (g f.base)

/-- No struct classes. -/
def noClasses : Classes := fun _ => none

/-- ```
class Point(Struct):
    x = Int16(endian="little")
    y = Int16(endian="little")
``` -/
def point : StructDesc :=
  { name := "Point", components := [upd (i16 "x") ({ · with offset := some 0 }), upd (i16 "y") ({ · with index := 1, offset := some 2 })]
    fieldValidators := [("x", []), ("y", [])], numOwnFields := 2 }

/-- ```
class Packet(Struct):
    n = UInt8()
    payload = Bytes(size=n)
    points = Array(Nested(Point), count=2)
``` -/
def packet : StructDesc :=
  { name := "Packet"
    components := [u8 "n", upd (bytesRef "payload" "n") ({ · with index := 1, offset := some 1 }),
      upd (array "points" (upd (nested "" "Point") ({ · with size := .fixed 4 })) (.fixed 2))
        ({ · with size := .fixed 8, index := 2 })]
    fieldValidators := [("n", []), ("payload", []), ("points", [])], numOwnFields := 3 }

/-- The two classes above. -/
def classes : Classes := (Classes.add (Classes.add noClasses point) packet)

end Verif.Sample
