import Verif.Model.Struct

/-!
# Vocabulary for statements about structs
-/

namespace Verif.Spec

/-- The names of the fields in layout order. -/
def names (d : StructDesc) : List String := d.components.map Field.name

/-- No two fields have the same name.  (True of every class that can be declared: `fromClass_uniqueNames`.) -/
def UniqueNames (d : StructDesc) : Prop := (names d).Nodup

/-- A dictionary that can be the stored values of an instance: every key once, and only names of fields. -/
def Instance (d : StructDesc) (vals : Dict) : Prop := (Dict.keys vals).Nodup ∧ ∀ k ∈ Dict.keys vals, k ∈ names d

/-- The documented precedence of where a field's value comes from when dumping (docs of `compute_value_for_dump`,
base.py:405-428): a value that was set, else the default (or const), else the compute function, else nothing. -/
inductive Chosen (b : FieldBase) (all : View) : Value → Prop where
  | explicit {v : Value} : all.contains b.name = true → all.get b.name = .ok v → Chosen b all v
  | default {v : Value} : all.contains b.name = false → b.dflt ≠ .undefined → b.default = .ok v → Chosen b all v
  | computed {fn : View → Except Err Value} {v : Value} : all.contains b.name = false → b.dflt = .undefined →
      b.computeFn = some fn → fn all = .ok v → Chosen b all v
  | nothing : all.contains b.name = false → b.dflt = .undefined → b.computeFn = none → Chosen b all .undefined

/-- A field is skipped when a struct is dumped: its value is `NOT_PRESENT` or its `present` callable says no. -/
def Skipped (f : Field) (all : Dict) (ctx : Value) : Prop :=
  ∃ v, Chosen f.base all.view v ∧ (v = .notPresent ∨ f.base.present all.view ctx none = .ok false)

/-- A field is dumped with the value `v`. -/
def Dumped (f : Field) (all : Dict) (ctx v : Value) : Prop :=
  Chosen f.base all.view v ∧ v ≠ .notPresent ∧ v ≠ .undefined ∧ f.base.present all.view ctx none = .ok true

/-- What one field contributes to the dump of its struct: nothing if it is skipped, else what it writes for its value. -/
def Part (Γ : Classes) (n : Nat) (ctx : Value) (all : Dict) (f : Field) (p : Bytes) : Prop :=
  (Skipped f all ctx ∧ p = []) ∨ ∃ v, Dumped f all ctx v ∧ fieldToStream Γ n f v ctx all = (p, .ok ())

/-- The contributions of a list of fields, in order. -/
inductive Parts (Γ : Classes) (n : Nat) (ctx : Value) (all : Dict) : List Field → List Bytes → Prop where
  | nil : Parts Γ n ctx all [] []
  | cons {f : Field} {fs : List Field} {p : Bytes} {ps : List Bytes} : Part Γ n ctx all f p → Parts Γ n ctx all fs ps →
      Parts Γ n ctx all (f :: fs) (p :: ps)

/-- Every check attached to the struct class succeeds on the instance: for every field with an entry in the validator table,
the field's own validators and the validator methods accept its current value; and the struct validators accept the struct. -/
def Valid (d : StructDesc) (vals : Dict) : Prop :=
  (∀ p ∈ d.fieldValidators, ∃ f v, d.find? p.1 = some f ∧ structGetItem d vals p.1 = .ok v ∧
    (∀ c ∈ f.base.validators, c v = .ok ()) ∧ ∀ m ∈ p.2, m (structView d vals) v = .ok ()) ∧
  ∀ m ∈ d.structValidators, m (structView d vals) = .ok ()

/-- No struct instance at any depth (an iterator is opaque: looking inside would consume it). -/
inductive NoStruct : Value → Prop where
  | none : NoStruct .none
  | notPresent : NoStruct .notPresent
  | undefined : NoStruct .undefined
  | dflt : NoStruct .dflt
  | int (i : Int) : NoStruct (.int i)
  | bytes (b : Bytes) : NoStruct (.bytes b)
  | str (s : List Nat) : NoStruct (.str s)
  | float (b : Nat) : NoStruct (.float b)
  | uuid (n : Nat) : NoStruct (.uuid n)
  | datetime (us : Int) (aware : Bool) : NoStruct (.datetime us aware)
  | iter (l : List Value) : NoStruct (.iter l)
  | list {l : List Value} : (∀ v ∈ l, NoStruct v) → NoStruct (.list l)
  | dict {d : Dict} : (∀ p ∈ d, NoStruct p.2) → NoStruct (.dict d)

/-- Loading the fields one after the other: each is read from where the previous one ended, sees the values so far, and its value is
recorded unless there is one already. -/
inductive Loads (Γ : Classes) (n : Nat) (ctx : Value) : List Field → Dict → Stream → Dict → Stream → Prop where
  | nil (acc : Dict) (s : Stream) : Loads Γ n ctx [] acc s acc s
  | cons {f : Field} {fs : List Field} {acc r : Dict} {v : Value} {s s1 s2 : Stream} :
      fieldFromStream Γ n f s ctx acc = (.ok v, s1) →
      Loads Γ n ctx fs (if Dict.get? acc f.name = none then acc ++ [(f.name, v)] else acc) s1 r s2 →
      Loads Γ n ctx (f :: fs) acc s r s2

end Verif.Spec
