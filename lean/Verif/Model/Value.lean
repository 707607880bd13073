import Verif.Py.Basic

/-!
# Python values handled by fields and structs

One constructor per kind of Python object that binobj distinguishes.  `float` is the bit pattern of an IEEE binary64,
`str` the list of code points, `datetime` a moment in microseconds since the Unix epoch with its `tzinfo is not None`
flag, `iter` an unsized iterable (a generator: it has no `len()`), `struct` an instance of a Struct class (class name
and its `__values__` dictionary).  `bool` is not distinguished from `int`; other user-defined objects are not modelled.
-/

namespace Verif

inductive Value where
  | none
  | notPresent                                   -- fields.NOT_PRESENT   base.py:65
  | undefined                                    -- fields.UNDEFINED     base.py:54
  | dflt                                         -- fields.DEFAULT       base.py:58
  | int (i : Int)
  | bytes (b : Bytes)
  | str (s : List Nat)
  | float (bits : Nat)
  | uuid (n : Nat)
  | datetime (us : Int) (aware : Bool)
  | list (l : List Value)
  | iter (l : List Value)
  | dict (d : List (String × Value))
  | struct (cls : String) (vals : List (String × Value))
  deriving Repr, Inhabited

mutual
/-- Structural equality test. -/
def Value.beq : Value → Value → Bool
  | .none, .none => true
  | .notPresent, .notPresent => true
  | .undefined, .undefined => true
  | .dflt, .dflt => true
  | .int a, .int b => decide (a = b)
  | .bytes a, .bytes b => decide (a = b)
  | .str a, .str b => decide (a = b)
  | .float a, .float b => decide (a = b)
  | .uuid a, .uuid b => decide (a = b)
  | .datetime a x, .datetime b y => decide (a = b) && decide (x = y)
  | .list a, .list b => Value.beqList a b
  | .iter a, .iter b => Value.beqList a b
  | .dict a, .dict b => Value.beqDict a b
  | .struct c a, .struct d b => decide (c = d) && Value.beqDict a b
  | _, _ => false
def Value.beqList : List Value → List Value → Bool
  | [], [] => true
  | a :: as, b :: bs => Value.beq a b && Value.beqList as bs
  | _, _ => false
def Value.beqDict : List (String × Value) → List (String × Value) → Bool
  | [], [] => true
  | (k, a) :: as, (l, b) :: bs => decide (k = l) && Value.beq a b && Value.beqDict as bs
  | _, _ => false
end

mutual
theorem Value.beq_iff : ∀ a b : Value, Value.beq a b = true ↔ a = b
  | .none, b => by cases b <;> simp [Value.beq]
  | .notPresent, b => by cases b <;> simp [Value.beq]
  | .undefined, b => by cases b <;> simp [Value.beq]
  | .dflt, b => by cases b <;> simp [Value.beq]
  | .int _, b => by cases b <;> simp [Value.beq]
  | .bytes _, b => by cases b <;> simp [Value.beq]
  | .str _, b => by cases b <;> simp [Value.beq]
  | .float _, b => by cases b <;> simp [Value.beq]
  | .uuid _, b => by cases b <;> simp [Value.beq]
  | .datetime _ _, b => by cases b <;> simp [Value.beq]
  | .list a, b => by cases b <;> simp [Value.beq, Value.beqList_iff a]
  | .iter a, b => by cases b <;> simp [Value.beq, Value.beqList_iff a]
  | .dict a, b => by cases b <;> simp [Value.beq, Value.beqDict_iff a]
  | .struct _ a, b => by cases b <;> simp [Value.beq, Value.beqDict_iff a]
theorem Value.beqList_iff : ∀ a b : List Value, Value.beqList a b = true ↔ a = b
  | [], b => by cases b <;> simp [Value.beqList]
  | a :: as, b => by cases b <;> simp [Value.beqList, Value.beq_iff a, Value.beqList_iff as]
theorem Value.beqDict_iff : ∀ a b : List (String × Value), Value.beqDict a b = true ↔ a = b
  | [], b => by cases b <;> simp [Value.beqDict]
  | (k, a) :: as, b => by
    cases b with
    | nil => simp [Value.beqDict]
    | cons p bs => cases p; simp [Value.beqDict, Value.beq_iff a, Value.beqDict_iff as, and_assoc]
end

instance : DecidableEq Value := fun a b => decidable_of_iff _ (Value.beq_iff a b)

/-- A Python `dict` with string keys: association list in insertion order.  Keys are unique in every dictionary that
the operations below build. -/
abbrev Dict := List (String × Value)

namespace Dict

/-- `d.get(k)` -/
def get? (d : Dict) (k : String) : Option Value := d.lookup k

/-- `k in d` -/
def contains (d : Dict) (k : String) : Bool := (d.lookup k).isSome

/-- `d[k] = v`: replaces in place or appends. -/
def set (d : Dict) (k : String) (v : Value) : Dict :=
  match d with
  | [] => [(k, v)]
  | (k', v') :: r => if k' = k then (k, v) :: r else (k', v') :: set r k v

/-- `del d[k]` / `d.pop(k, None)` -/
def erase (d : Dict) (k : String) : Dict := d.filter fun p => decide (p.1 ≠ k)

/-- `list(d.keys())` -/
def keys (d : Dict) : List String := d.map (·.1)

/-- `d.update(e)` -/
def update (d e : Dict) : Dict := e.foldl (fun d p => set d p.1 p.2) d

/-- `d.setdefault(k, v)` -/
def setDefault (d : Dict) (k : String) (v : Value) : Dict := if contains d k then d else set d k v

end Dict

end Verif
