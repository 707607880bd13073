import Verif.Spec.Portable

/-!
# How deep the classes of a program are nested

Vocabulary for C109: an upper bound, read off the program text, on how deep calls nest when data is loaded.
-/

namespace Verif.Spec

mutual
/-- The number of nested calls the expression itself accounts for (the struct classes it names not included). -/
def FieldExpr.levels : FieldExpr → Nat
  | .array component .. => component.levels + 2
  | .union choices .. => choices.levels + 1
  | .computed f _ => f.levels
  | _ => 1

def ChoiceExprs.levels : ChoiceExprs → Nat
  | .nil => 0
  | .field f rest => max f.levels rest.levels
  | .struct _ rest => rest.levels
end

def ItemExpr.levels : ItemExpr → Nat
  | .field f => f.levels
  | _ => 0

/-- The largest number of levels of an item in a class body. -/
def bodyLevels : List (String × ItemExpr) → Nat
  | [] => 0
  | (_, item) :: items => max item.levels (bodyLevels items)

/-- The depth of the classes of a program: in the worst case each class nests the one before it. -/
def programDepth : List ClassSource → Nat
  | [] => 0
  | c :: cs => bodyLevels c.body + 2 + programDepth cs

end Verif.Spec
