import Verif.Model.Dump

/-!
# The length of a struct, and Python's `==`

`Struct.__len__` and `Struct.__eq__`, `/repo/binobj/structures.py:761-797`.
-/

namespace Verif

/-! ### `len(struct)` -/

/-- `sum(f.get_expected_size(values) for f in components)`. -/
def sumSizes (size : Field → Except Err Int) : List Field → Except Err Int
  | [] => .ok 0
  | f :: fs =>
    match size f with
    | .error e => .error e
    | .ok k =>
      match sumSizes size fs with
      | .error e => .error e
      | .ok r => .ok (k + r)

/-- One summand of `Struct.__len__`, `/repo/binobj/structures.py:766-773`. -/
def fieldLen (Γ : Classes) (n : Nat) (current : Dict) (f : Field) : Except Err Int :=
  match f.base.size with
  | .fixed k => .ok k
  | _ =>
    match fieldExpectedSize Γ n f current with
    | .ok k => .ok k
    | .error e =>
      if e.isBinobj then
        match f.base.computeValueForDump current.view .none with
        | .error e => .error e
        | .ok v => (fieldToBytes Γ n f v .none).map fun b => (b.length : Int)
      else .error e

/-- `Struct.__len__`, `/repo/binobj/structures.py:761-775`. -/
def structLen (Γ : Classes) (n : Nat) (d : StructDesc) (vals : Dict) : Except Err Int :=
  match whateverPossible d vals with
  | .error e => .error e
  | .ok current => sumSizes (fieldLen Γ n current) d.components

/-! ### Python `==` -/

/-- Exact comparison of an `int` with a `float`. -/
def intEqFloat (i : Int) (bits : Nat) : Bool :=
  match binary64.decode bits with
  | .fin s m q =>
    let sm : Int := if s then -(m : Int) else m
    if 0 ≤ q then decide (i = sm * 2 ^ q.toNat) else decide (i * 2 ^ (-q).toNat = sm)
  | _ => false

/-- IEEE equality of two floats: NaN differs from everything, `0.0 == -0.0`. -/
def floatEq (a b : Nat) : Bool :=
  match binary64.decode a, binary64.decode b with
  | .nan .., _ | _, .nan .. => false
  | .fin _ 0 _, .fin _ 0 _ => true
  | x, y => decide (x = y)

/-- Element-wise comparison of two lists. -/
def eqListWith (eq : Value → Value → Except Err Bool) : List Value → List Value → Except Err Bool
  | [], [] => .ok true
  | a :: as, b :: bs =>
    match eq a b with
    | .error e => .error e
    | .ok false => .ok false
    | .ok true => eqListWith eq as bs
  | _, _ => .ok false

/-- `dict == dict`: same number of keys, and every key of the first is in the second with an equal value. -/
def eqDictWith (eq : Value → Value → Except Err Bool) (a b : Dict) : Except Err Bool :=
  if a.length ≠ b.length then .ok false
  else
    let rec go : Dict → Except Err Bool
      | [] => .ok true
      | (k, v) :: r =>
        match b.get? k with
        | none => .ok false
        | some w =>
          match eq v w with
          | .error e => .error e
          | .ok false => .ok false
          | .ok true => go r
    go a

/-- `{n: self[n] for n in list(self)}`, `/repo/binobj/structures.py:791`. -/
def definedDict (d : StructDesc) (vals : Dict) : Except Err Dict :=
  mapE (fun k => (structGetItem d vals k).map fun v => (k, v)) (definedKeys vals)

/-- What `list(struct)` does with `len(struct)`: CPython asks for it to allocate the list (`PyObject_LengthHint`), ignores a
`TypeError`, and passes on every other exception; a length is between 0 and `sys.maxsize`.  (Not modelled: running out of memory.) -/
def lenHint : Except Err Int → Except Err Unit
  | .ok k => if k < 0 then .error .valueErr else if 2 ^ 63 ≤ k then .error .overflowErr else .ok ()
  | .error e => if e = .typeErr then .ok () else .error e

/-- The defined values of a struct, fully converted: `recursive_to_dicts({n: x[n] for n in list(x)})`,
`/repo/binobj/structures.py:791, 796`. -/
def comparableDict (Γ : Classes) (n : Nat) (cls : String) (vals : Dict) : Except Err Value :=
  match Γ cls with
  | none => .error .attributeErr
  | some d =>
    match lenHint (structLen Γ n d vals) with
    | .error e => .error e
    | .ok _ =>
      match definedDict d vals with
      | .error e => .error e
      | .ok dct => recursiveToDicts Γ n (.dict dct)

/-- What `Struct.__eq__` compares against: `none` if `other` is neither a struct nor a mapping,
`/repo/binobj/structures.py:793-796`. -/
def comparableOther (Γ : Classes) (n : Nat) (other : Value) : Except Err (Option Value) :=
  match other with
  | .struct cls vals => (comparableDict Γ n cls vals).map some
  | .dict dct => (recursiveToDicts Γ n (.dict dct)).map some
  | _ => .ok none

/-- `Struct.__eq__`, `/repo/binobj/structures.py:777-797`, given `==` on converted values. -/
def structEqWith (Γ : Classes) (n : Nat) (eq : Value → Value → Except Err Bool) (cls : String) (vals : Dict)
    (other : Value) : Except Err Bool :=
  if other = .undefined then .ok (vals.all fun p => decide (p.2 = .undefined))
  else
    match comparableDict Γ n cls vals with
    | .error e => .error e
    | .ok self =>
      match comparableOther Γ n other with
      | .error e => .error e
      | .ok none => .ok false
      | .ok (some o) => eq o self

/-- Python's `a == b`.  A struct on either side decides through `Struct.__eq__` (reflected call if it is on the right).
Simplifications: iterators are never equal, and the identity shortcut for NaN objects inside containers is not
modelled. -/
def pyEq (Γ : Classes) : Nat → Value → Value → Except Err Bool
  | 0, _, _ => .error .outOfFuel
  | n + 1, a, b =>
    match a, b with
    | .struct cls vals, other => structEqWith Γ n (pyEq Γ n) cls vals other
    | other, .struct cls vals => structEqWith Γ n (pyEq Γ n) cls vals other
    | .none, .none | .notPresent, .notPresent | .undefined, .undefined | .dflt, .dflt => .ok true
    | .int x, .int y => .ok (x = y)
    | .int x, .float y => .ok (intEqFloat x y)
    | .float x, .int y => .ok (intEqFloat y x)
    | .float x, .float y => .ok (floatEq x y)
    | .bytes x, .bytes y => .ok (x = y)
    | .str x, .str y => .ok (x = y)
    | .uuid x, .uuid y => .ok (x = y)
    | .datetime x p, .datetime y q => .ok (decide (x = y) && decide (p = q))
    | .list x, .list y => if x.length ≠ y.length then .ok false else eqListWith (pyEq Γ n) x y
    | .dict x, .dict y => eqDictWith (pyEq Γ n) x y
    | _, _ => .ok false

end Verif
