import Verif.Model.Init

/-!
# Vocabulary for constructing fields
-/

namespace Verif.Spec

/-- `r` is the outcome of calling one of the library's field constructors with the common keyword arguments `a` (a field, or
the exception raised). -/
inductive Constructed (sys : Endian) (Γ : Classes) (a : FieldArgs) : Except Err Field → Prop where
  | integer (cls : String) (size : FSize) (signed : Bool) (endian : Option Endian) :
      Constructed sys Γ a (mkInteger sys cls size signed endian a)
  | varint (enc : VarIntEncoding) (maxBytes : Option Int) : Constructed sys Γ a (mkVarInt enc maxBytes a)
  | float (cls : String) (fmt : FloatFmt) (endian : Option Endian) : Constructed sys Γ a (mkFloat sys cls fmt endian a)
  | timestamp (cls : String) (size : FSize) (res : Resolution) (aware signed : Bool) (endian : Option Endian) :
      Constructed sys Γ a (mkTimestamp sys cls size res aware signed endian a)
  | bytes : Constructed sys Γ a (mkBytes a)
  | string (codec : CharCodec) (pad : Option Bytes) : Constructed sys Γ a (mkString codec pad a)
  | stringz (codec : CharCodec) (pad : Option Bytes) : Constructed sys Γ a (mkStringZ codec pad a)
  | uuid (fmt : UUIDFormat) : Constructed sys Γ a (mkUUID fmt a)
  | array (component : Field) (count : Count)
      (halt : Option (Stream → List Value → (ctx : Value) → Dict → Except Err (Bool × List Value))) :
      Constructed sys Γ a (mkArray component count halt a)
  | nested (n : Nat) (cls : String) : Constructed sys Γ a (mkNested Γ n cls a)
  | union (choices : List (Field ⊕ String)) (l : Stream → (ctx : Value) → Dict → Except Err Nat)
      (w : Value → (ctx : Value) → Dict → Except Err Nat) : Constructed sys Γ a (mkUnion choices l w a)

/-- The constructors of fields whose values have no size in common: strings, byte strings and variable-length integers.
The third argument is the longest encoding the field writes. -/
inductive VariableSize (a : FieldArgs) : (limit : Option Int) → Except Err Field → Prop where
  | varint (enc : VarIntEncoding) (maxBytes : Option Int) : VariableSize a maxBytes (mkVarInt enc maxBytes a)
  | bytes : VariableSize a none (mkBytes a)
  | string (codec : CharCodec) (pad : Option Bytes) : VariableSize a none (mkString codec pad a)
  | stringz (codec : CharCodec) (pad : Option Bytes) : VariableSize a none (mkStringZ codec pad a)

/-- A `default` was passed to the constructor. -/
def DefaultGiven (a : FieldArgs) : Prop := a.dflt ≠ .undefined ∨ a.dfltFn.isSome

/-- A `const` was passed to the constructor. -/
def ConstGiven (a : FieldArgs) : Prop := a.const ≠ .undefined

/-- The field has no value in `all`, and is present. -/
def Unset (f : Field) (all : View) (ctx : Value) : Prop :=
  all.contains f.name = false ∧ f.base.present all ctx none = .ok true

end Verif.Spec
