import Verif.Model.Class

/-!
# Vocabulary for statements about class declarations
-/

namespace Verif.Spec

/-- The fields assigned in a class body, in order, with the names they are assigned to. -/
def ownFields : List (String × ClassItem) → List (String × Field)
  | [] => []
  | (name, .field f) :: items => (name, f) :: ownFields items
  | _ :: items => ownFields items

/-- The methods of a class body that validate the field `name`, in order, once for each time they name it. -/
def ownValidators (name : String) : List (String × ClassItem) → List (View → Value → Except Err Unit)
  | [] => []
  | (_, .validator names fn) :: items => (names.filter (· = name)).map (fun _ => fn) ++ ownValidators name items
  | _ :: items => ownValidators name items

/-- The methods of a class body that validate the whole struct, in order. -/
def ownStructValidators : List (String × ClassItem) → List (View → Except Err Unit)
  | [] => []
  | (_, .structValidator fn) :: items => fn :: ownStructValidators items
  | _ :: items => ownStructValidators items

/-- The validator methods a class runs for the field `name`. -/
def validatorsOf (d : StructDesc) (name : String) : List (View → Value → Except Err Unit) :=
  (d.fieldValidators.lookup name).getD []

/-- `After g f name`: `g` is what the field `f` has become by being assigned to `name` in a class body — it has that name, knows
its place, and may have been given a byte order; nothing else has changed. -/
def After (g f : Field) (name : String) : Prop :=
  (f.name = "" ∨ f.name = name) ∧
  ∃ index offset, g = f.withBase { f.base with name := name, index := index, offset := offset } ∨
    ∃ e, g = (f.withBase { f.base with name := name, index := index, offset := offset }).setEndian e

/-- The documented precedence of byte orders (docs of `argument_defaults`, structures.py:95-101): the `endian` argument of the
field, else the struct's default for the field's class, else the struct's default for all fields, else the machine's. -/
inductive ByteOrder (sys : Endian) (defaults : List (String × Endian)) (fieldClass : String) :
    Option Endian → Endian → Prop where
  | argument (e : Endian) : ByteOrder sys defaults fieldClass (some e) e
  | forClass {e : Endian} : defaults.lookup (fieldClass ++ "__endian") = some e → ByteOrder sys defaults fieldClass none e
  | forAll {e : Endian} : defaults.lookup (fieldClass ++ "__endian") = none → defaults.lookup "endian" = some e →
      ByteOrder sys defaults fieldClass none e
  | machine : defaults.lookup (fieldClass ++ "__endian") = none → defaults.lookup "endian" = none →
      ByteOrder sys defaults fieldClass none sys

/-- The sum of the sizes if all of them are fixed. -/
def total : List FSize → Option Int
  | [] => some 0
  | .fixed n :: r => (total r).map (n + ·)
  | _ :: _ => none

/-- The sizes of fields. -/
def sizes (fs : List Field) : List FSize := fs.map (·.base.size)

/-- The struct classes that a program has after some class statements, each of which may refer to (inherit from, nest) the classes
before it; the body may assign fields (`declare`) or annotate them (`annotate`, with the `dataclass` decorator). -/
inductive Program : Classes → Prop where
  | empty : Program (fun _ => none)
  | declare {Γ : Classes} {n : Nat} {decl : ClassDecl} {d : StructDesc} : Program Γ → Γ decl.name = none →
      fromClass Γ n decl = .ok d → Program (Γ.add d)
  | annotate {Γ : Classes} {n m : Nat} {decl : ClassDecl} {d d' : StructDesc} {hints : List Hint} : Program Γ →
      Γ decl.name = none → fromClass Γ n decl = .ok d → pep526Dataclass Γ m d hints = .ok d' → Program (Γ.add d')

/-- The same, with assigned fields only. -/
inductive Assigned : Classes → Prop where
  | empty : Assigned (fun _ => none)
  | declare {Γ : Classes} {n : Nat} {decl : ClassDecl} {d : StructDesc} : Assigned Γ → Γ decl.name = none →
      fromClass Γ n decl = .ok d → Assigned (Γ.add d)

/-- Every field's `offset` is the sum of the sizes of the fields before it, or `None` if one of them has no fixed size. -/
def Offsets (d : StructDesc) : Prop :=
  ∀ pre f post, d.components = pre ++ f :: post → f.base.offset = total (sizes pre)

/-- The field has a fixed size, or its size depends on another field, or it has neither a size nor a default from which to
guess one. -/
def SizeNotGuessed (f : Field) : Prop := f.base.size ≠ .none ∨ f.base.default = .ok .undefined

end Verif.Spec
