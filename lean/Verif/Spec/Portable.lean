import Verif.Model.Class

/-!
# The same program on different machines

Vocabulary for C107: the text of class statements, which is the same on all machines, and the classes that come out of it on a machine with a
given `sys.byteorder`.
-/

namespace Verif.Spec

/-- Keyword arguments of a halt check, as in `mkArray`. -/
abbrev HaltCallable := Stream → List Value → (ctx : Value) → Dict → Except Err (Bool × List Value)

mutual
/-- Calls of the constructors of the library, and the decorator `@f.computes`.  Callables in the arguments are the same on all machines.
(The codecs `utf-16` and `utf-32` of Python write the byte order of the machine, after a mark; C100 is about those.) -/
inductive FieldExpr where
  | integer (cls : String) (size : FSize) (signed : Bool) (endian : Option Endian) (a : FieldArgs)
  | varint (enc : VarIntEncoding) (maxBytes : Option Int) (a : FieldArgs)
  | float (cls : String) (fmt : FloatFmt) (endian : Option Endian) (a : FieldArgs)
  | timestamp (cls : String) (size : FSize) (res : Resolution) (aware signed : Bool) (endian : Option Endian) (a : FieldArgs)
  | bytes (a : FieldArgs)
  | string (codec : CharCodec) (pad : Option Bytes) (a : FieldArgs)
  | stringz (codec : CharCodec) (pad : Option Bytes) (a : FieldArgs)
  | uuid (fmt : UUIDFormat) (a : FieldArgs)
  | array (component : FieldExpr) (count : Count) (halt : Option HaltCallable) (a : FieldArgs)
  | nested (cls : String) (a : FieldArgs)
  | union (choices : ChoiceExprs) (load : Stream → (ctx : Value) → Dict → Except Err Nat)
      (dump : Value → (ctx : Value) → Dict → Except Err Nat) (a : FieldArgs)
  | computed (f : FieldExpr) (fn : View → Except Err Value)

/-- The choices of a union: fields or struct classes. -/
inductive ChoiceExprs where
  | nil
  | field (f : FieldExpr) (rest : ChoiceExprs)
  | struct (cls : String) (rest : ChoiceExprs)
end

mutual
/-- The field, or the exception, that the expression gives on a machine with the byte order `sys`. -/
def FieldExpr.eval (sys : Endian) (Γ : Classes) (n : Nat) : FieldExpr → Except Err Field
  | .integer cls size signed endian a => mkInteger sys cls size signed endian a
  | .varint enc maxBytes a => mkVarInt enc maxBytes a
  | .float cls fmt endian a => mkFloat sys cls fmt endian a
  | .timestamp cls size res aware signed endian a => mkTimestamp sys cls size res aware signed endian a
  | .bytes a => mkBytes a
  | .string codec pad a => mkString codec pad a
  | .stringz codec pad a => mkStringZ codec pad a
  | .uuid fmt a => mkUUID fmt a
  | .array component count halt a => (component.eval sys Γ n).bind fun c => mkArray c count halt a
  | .nested cls a => mkNested Γ n cls a
  | .union choices load dump a => (choices.eval sys Γ n).bind fun cs => mkUnion cs load dump a
  | .computed f fn => (f.eval sys Γ n).bind fun f => fieldComputes f fn

def ChoiceExprs.eval (sys : Endian) (Γ : Classes) (n : Nat) : ChoiceExprs → Except Err (List (Field ⊕ String))
  | .nil => .ok []
  | .field f rest => (f.eval sys Γ n).bind fun f => (rest.eval sys Γ n).map fun fs => .inl f :: fs
  | .struct cls rest => if (Γ cls).isNone then .error .attributeErr else (rest.eval sys Γ n).map fun fs => .inr cls :: fs
end

mutual
/-- `endian` is given in all constructor calls that take it. -/
def FieldExpr.declaresOrder : FieldExpr → Prop
  | .integer _ _ _ endian _ | .float _ _ endian _ | .timestamp _ _ _ _ _ endian _ => endian.isSome
  | .array component _ _ _ => component.declaresOrder
  | .union choices _ _ _ => choices.declareOrder
  | .computed f _ => f.declaresOrder
  | _ => True

def ChoiceExprs.declareOrder : ChoiceExprs → Prop
  | .nil => True
  | .field f rest => f.declaresOrder ∧ rest.declareOrder
  | .struct _ rest => rest.declareOrder
end

/-- The expression makes an integer field without `endian`, and the defaults of the struct (`Meta.argument_defaults`) give the byte order. -/
def FieldExpr.orderFromMeta (defaults : List (String × Endian)) : FieldExpr → Prop
  | .integer cls _ _ _ a => "endian" ∉ a.explicit ∧ ((defaults.lookup (cls ++ "__endian")).isSome ∨ (defaults.lookup "endian").isSome)
  | .computed f _ => f.orderFromMeta defaults
  | _ => False

/-- What a class body contains. -/
inductive ItemExpr where
  | field (f : FieldExpr)
  | validator (names : List String) (fn : View → Value → Except Err Unit)
  | structValidator (fn : View → Except Err Unit)

def ItemExpr.eval (sys : Endian) (Γ : Classes) (n : Nat) : ItemExpr → Except Err ClassItem
  | .field f => (f.eval sys Γ n).map .field
  | .validator names fn => .ok (.validator names fn)
  | .structValidator fn => .ok (.structValidator fn)

/-- The text of a `class` statement. -/
structure ClassSource where
  name : String
  bases : List String := []
  body : List (String × ItemExpr)
  metaOpts : Option (List (String × Endian)) := none

def evalItems (sys : Endian) (Γ : Classes) (n : Nat) : List (String × ItemExpr) → Except Err (List (String × ClassItem))
  | [] => .ok []
  | (name, item) :: items => (item.eval sys Γ n).bind fun i => (evalItems sys Γ n items).map fun is => (name, i) :: is

/-- Execute a `class` statement. -/
def ClassSource.run (sys : Endian) (Γ : Classes) (n : Nat) (c : ClassSource) : Except Err Classes :=
  (evalItems sys Γ n c.body).bind fun body =>
    (fromClass Γ n { name := c.name, bases := c.bases, body := body, metaOpts := c.metaOpts }).map Γ.add

/-- Execute the `class` statements of a program, in order. -/
def runProgram (sys : Endian) (n : Nat) : List ClassSource → Classes → Except Err Classes
  | [], Γ => .ok Γ
  | c :: cs, Γ => (c.run sys Γ n).bind fun Γ => runProgram sys n cs Γ

/-- The argument defaults in effect in the class: its own, or those of its base. -/
def ClassSource.defaults (Γ : Classes) (c : ClassSource) : List (String × Endian) :=
  (c.metaOpts.or (match c.bases with
    | [base] => (Γ base).bind (·.metaOpts)
    | _ => none)).getD []

/-- Every number in the class has a declared byte order: given to its constructor, or (for integers directly in the class body) by the
argument defaults of the struct. -/
def ClassSource.Portable (Γ : Classes) (c : ClassSource) : Prop :=
  ∀ name f, (name, ItemExpr.field f) ∈ c.body → f.declaresOrder ∨ f.orderFromMeta (c.defaults Γ)

/-- The same for all classes of a program.  (The classes are those that the program makes on a machine with byte order `sys`.) -/
def PortableProgram (sys : Endian) (n : Nat) : List ClassSource → Classes → Prop
  | [], _ => True
  | c :: cs, Γ => c.Portable Γ ∧ ∀ Γ', c.run sys Γ n = .ok Γ' → PortableProgram sys n cs Γ'

end Verif.Spec
