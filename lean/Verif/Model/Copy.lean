import Verif.Model.Objects

/-!
# Copies of objects

`copy.copy`, `copy.deepcopy` and `pickle` of struct instances.  `Struct` does not define `__copy__`, `__deepcopy__` or `__reduce__`, so Python's default
is used: a new object of the class, without calling `__init__`, whose attributes are those of the original.  An instance has one attribute, `__values__`
(`/repo/binobj/structures.py:335-340`).
-/

namespace Verif

/-- The reference to the copy of what a reference refers to, if the copy of object `l` is object `k + l`.  Immutable objects are not copied; `UNDEFINED`,
`DEFAULT` and `NOT_PRESENT` are members of enumerations and stay the same, too, `/repo/binobj/fields/base.py:42-68`. -/
def Ref.moved (k : Nat) : Ref → Ref
  | .imm v => .imm v
  | .obj l => .obj (k + l)

/-- An object, referring to the copies of what it refers to. -/
def Obj.moved (k : Nat) : Obj → Obj
  | .list items => .list (items.map (Ref.moved k))
  | .dict items => .dict (items.map fun p => (p.1, p.2.moved k))
  | .bytearray b => .bytearray b
  | .inst cls vals => .inst cls (vals.map fun p => (p.1, p.2.moved k))

/-- `copy.deepcopy(x)` and `pickle.loads(pickle.dumps(x))`: everything that can be reached from `x` is copied, each object once, however often it is
referred to.  Simplification: the other objects are copied as well; nobody has a reference to those copies. -/
def objDeepCopy (σ : Store) (r : Ref) : Store × Ref := (σ ++ σ.map (Obj.moved σ.length), r.moved σ.length)

/-- `copy.copy(x)`.  Lists, dictionaries and `bytearray`s: a new one with the same items.  Struct instances: a new instance with the same attributes, that
is with the same object as `__values__` (`/repo/binobj/structures.py:335-340`).  All that an instance does, it does with that dictionary, so the copy is
described as another reference to the same instance. -/
def objCopy (σ : Store) (r : Ref) : Store × Ref :=
  match r with
  | .imm v => (σ, .imm v)
  | .obj l =>
    match σ[l]? with
    | some (.inst _ _) => (σ, .obj l)
    | some o => σ.new o
    | none => (σ, .obj l)

end Verif
