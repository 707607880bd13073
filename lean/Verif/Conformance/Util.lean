import Lean.Elab.Term
import Verif.Model.Class
import Verif.Model.Proxy

/-!
# Running the model on concrete programs

The files in this directory replay the unit tests of `/repo/tests` on the model: one `example` per assertion, evaluated by the
kernel.  They are tests of the model, not proofs about it.  (C97 uses the example programs, none of the tests.)  This file has what they share: byte and text
literals as in Python, class statements, and the calls the tests make.
-/

namespace Verif.Conformance

open Lean in
/-- `b!"…"`: a Python `bytes` literal (`\xNN` stands for one byte). -/
macro:max "b!" s:str : term => do
  let elems := s.getString.toList.map fun c => Syntax.mkNumLit (toString c.toNat)
  let elems : Array (TSyntax `term) := (elems.map fun e => ⟨e⟩).toArray
  `(([$elems,*] : List UInt8))

open Lean in
/-- `u!"…"`: a Python `str` literal. -/
macro:max "u!" s:str : term => do
  let elems := s.getString.toList.map fun c => Syntax.mkNumLit (toString c.toNat)
  let elems : Array (TSyntax `term) := (elems.map fun e => ⟨e⟩).toArray
  `(([$elems,*] : List Nat))

/-- One entry of a class body.  Constructing a nested field looks at the classes declared before. -/
inductive Item where
  | field (mk : Classes → Except Err Field)
  | validates (names : List String) (fn : View → Value → Except Err Unit)
  | validatesStruct (fn : View → Except Err Unit)

/-- A `class` statement. -/
structure Statement where
  name : String
  bases : List String := []
  body : List (String × Item)
  metaOpts : Option (List (String × Endian)) := none

/-- Evaluate a class body. -/
def evalBody (Γ : Classes) : List (String × Item) → Except Err (List (String × ClassItem))
  | [] => .ok []
  | (name, item) :: rest =>
    let here : Except Err ClassItem := match item with
      | .field mk => (mk Γ).map .field
      | .validates names fn => .ok (.validator names fn)
      | .validatesStruct fn => .ok (.structValidator fn)
    here.bind fun i => (evalBody Γ rest).map fun r => (name, i) :: r

/-- Execute class statements one after the other. -/
def program (stmts : List Statement) : Except Err Classes :=
  stmts.foldl (fun Γ s => Γ.bind fun Γ => (evalBody Γ s.body).bind fun body =>
    (fromClass Γ 20 ⟨s.name, s.bases, body, s.metaOpts⟩).map Γ.add) (.ok fun _ => none)

/-- A field that does not depend on other classes. -/
def Item.of (f : Except Err Field) : Item := .field fun _ => f

/-- A field with a compute function (`@field.computes`). -/
def computed (f : Except Err Field) (fn : View → Except Err Value) : Item := .field fun _ => f.bind fun f => fieldComputes f fn

/-- Look up a class. -/
def getClass (p : Except Err Classes) (cls : String) : Except Err (Classes × StructDesc) :=
  p.bind fun Γ => match Γ cls with
    | none => .error (.user "NameError")
    | some d => .ok (Γ, d)

/-- `f.to_bytes(v, all_fields=all)`; without a value it is `DEFAULT`. -/
def toBytes (f : Except Err Field) (v : Value := .dflt) (all : Dict := []) (p : Except Err Classes := .ok fun _ => none) :
    Except Err Bytes :=
  p.bind fun Γ => f.bind fun f => fieldToBytes Γ 20 f v .none all

/-- `f.from_bytes(b, loaded_fields=loaded, exact=exact)` -/
def fromBytes (f : Except Err Field) (b : Bytes) (loaded : Dict := []) (exact : Bool := true)
    (p : Except Err Classes := .ok fun _ => none) : Except Err Value :=
  p.bind fun Γ => f.bind fun f => fieldFromBytes Γ 20 f b .none exact loaded

/-- `cls(**kwargs)` -/
def new (p : Except Err Classes) (cls : String) (kwargs : Dict) : Except Err Dict :=
  (getClass p cls).bind fun (_, d) => structInit d kwargs

/-- `cls(**kwargs).to_bytes()` -/
def dump (p : Except Err Classes) (cls : String) (kwargs : Dict) : Except Err Bytes :=
  (getClass p cls).bind fun (Γ, d) => (structInit d kwargs).bind fun vals => structToBytes Γ 20 d vals .none

/-- `cls.from_bytes(b, exact=exact)`, as the values of the new instance. -/
def load (p : Except Err Classes) (cls : String) (b : Bytes) (exact : Bool := true) : Except Err Dict :=
  (getClass p cls).bind fun (Γ, d) => structFromBytes Γ 20 d b .none exact []

/-- `cls.from_stream(BytesIO(b))`: the values, and the position of the stream afterwards. -/
def loadStream (p : Except Err Classes) (cls : String) (b : Bytes) : Except Err (Dict × Nat) :=
  (getClass p cls).bind fun (Γ, d) => match structFromStream Γ 20 d ⟨b, 0⟩ .none [] with
    | (.ok vals, s) => .ok (vals, s.pos)
    | (.error e, _) => .error e

/-- `cls(**kwargs)[name]` -/
def getItem (p : Except Err Classes) (cls : String) (kwargs : Dict) (name : String) : Except Err Value :=
  (getClass p cls).bind fun (_, d) => structGetItem d kwargs name

/-- `s = cls(**kwargs); s[name] = v`: the values afterwards. -/
def setItem (p : Except Err Classes) (cls : String) (kwargs : Dict) (name : String) (v : Value) : Except Err Dict :=
  (getClass p cls).bind fun (_, d) => match structSetItem d kwargs name v with
    | (.ok _, vals) => .ok vals
    | (.error e, _) => .error e

/-- `s = cls(**kwargs); del s[name]`: the values afterwards. -/
def delItem (p : Except Err Classes) (cls : String) (kwargs : Dict) (name : String) : Except Err Dict :=
  (getClass p cls).bind fun (_, d) => match structDelItem d kwargs name with
    | (.ok _, vals) => .ok vals
    | (.error e, _) => .error e

/-- `len(cls(**kwargs))` -/
def len (p : Except Err Classes) (cls : String) (kwargs : Dict) : Except Err Int :=
  (getClass p cls).bind fun (Γ, d) => structLen Γ 20 d kwargs

/-- `cls(**kwargs).to_dict()` -/
def toDict (p : Except Err Classes) (cls : String) (kwargs : Dict) : Except Err Dict :=
  (getClass p cls).bind fun (Γ, d) => structToDict Γ 20 d kwargs

/-- `cls(**kwargs) == other` -/
def eq (p : Except Err Classes) (cls : String) (kwargs : Dict) (other : Value) : Except Err Bool :=
  (getClass p cls).bind fun (Γ, _) => structEq Γ 20 cls kwargs other

/-- `cls.get_size()` -/
def getSize (p : Except Err Classes) (cls : String) : Except Err (Option Int) :=
  (getClass p cls).bind fun (Γ, d) => structGetSize Γ 20 d []

/-- `field.size` -/
def size (f : Except Err Field) : Except Err FSize := f.map fun f => f.base.size

/-- The exception a call raises, if any. -/
def raised {α : Type} : Except Err α → Option Err
  | .ok _ => none
  | .error e => some e

end Verif.Conformance
