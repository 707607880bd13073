import Verif.Spec.Objects

/-!
# Several parts of a program take turns

Each part (a thread, say) has variables of its own, and decides what to do next by what it has seen so far.  A schedule says whose turn it is.
Commands are atomic.
-/

namespace Verif.Spec

/-- What a part of the program can see: which of its commands raised exceptions; what its variables contain, to any depth; and which of them are the same
object. -/
structure Outlook where
  raised : List (Option Err)
  values : Nat → List (Option Value)
  same : Nat → Nat → Bool

/-- The objects, the variables of each part, and how its commands have ended. -/
structure Scene where
  world : World
  raised : Nat → List (Option Err)

/-- What part `j` sees. -/
def Scene.outlook (S : Scene) (j : Nat) : Outlook where
  raised := S.raised j
  values := fun k => (S.world.vars j).map (contents S.world.store k)
  same := fun a b => decide ((S.world.vars j)[a]? = (S.world.vars j)[b]?)

/-- Part `j` takes a turn: it executes the command that it chooses given what it sees, and puts the result into a new variable. -/
def Scene.turn (C : ObjClasses) (n : Nat) (programs : Nat → Outlook → Cmd) (S : Scene) (j : Nat) : Scene :=
  match (programs j (S.outlook j)).run C n S.world.store (S.world.vars j) with
  | .error e => { S with raised := fun i => if i = j then S.raised i ++ [some e] else S.raised i }
  | .ok (σ, r) =>
    { world := { store := σ, vars := fun i => if i = j then S.world.vars i ++ [r] else S.world.vars i }
      raised := fun i => if i = j then S.raised i ++ [none] else S.raised i }

end Verif.Spec
