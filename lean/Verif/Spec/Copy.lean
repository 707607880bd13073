import Verif.Model.Copy
import Verif.Spec.Objects

/-!
# Vocabulary for statements about copies
-/

namespace Verif.Spec

/-- What one gets from a reference by following references: the `i`-th item of a list, the `i`-th value of a dictionary or of an instance, and so on. -/
def follow (σ : Store) (r : Ref) : List Nat → Option Ref
  | [] => some r
  | i :: path =>
    match r with
    | .imm _ => none
    | .obj l =>
      match σ[l]? with
      | none => none
      | some o =>
        match (refsOf o)[i]? with
        | none => none
        | some r' => follow σ r' path

/-- What parts of a program do: one executes a command, or gives another a deep copy of something that it has. -/
inductive Deed where
  | run (i : Nat) (c : Cmd)
  | give (i x j : Nat)

/-- Which part's variables a deed may change. -/
def Deed.whose : Deed → Nat
  | .run i _ => i
  | .give _ _ j => j

/-- The effect of a deed; one that raises an exception has none. -/
def World.deed (C : ObjClasses) (n : Nat) (w : World) : Deed → World
  | .run i c => w.exec C n (i, c)
  | .give i x j =>
    match (w.vars i)[x]? with
    | none => w
    | some r => { store := (objDeepCopy w.store r).1, vars := fun k => if k = j then w.vars k ++ [(objDeepCopy w.store r).2] else w.vars k }

end Verif.Spec
