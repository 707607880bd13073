import Verif.Proofs.Schedule
import Verif.Props.Objects

/-!
# C92: parts of a program that share no objects do not notice each other, whatever the schedule
-/

namespace Verif
open Spec

/-- **C92** Parts of a program that share no objects at the start, and that each construct, load, read, change, dump, compare and convert structs of their
own, see the same whatever the schedule: exactly what each would see if the others did nothing.  Each may decide what to do next by what it has seen. -/
theorem C92_schedule (C : ObjClasses) (n : Nat) (hC : ImmutableDefaults C) (programs : Nat → Outlook → Cmd) (S : Scene) (hS : Separate S.world)
    (schedule : List Nat) (j : Nat) :
    (schedule.foldl (Scene.turn C n programs) S).outlook j = ((schedule.filter (· = j)).foldl (Scene.turn C n programs) S).outlook j :=
  (turns_alike hC schedule (alike_refl hS j) hS).outlook.symm

/-- **C92** What a part sees depends on nothing but its own program and the number of turns it has had: not on the order of turns, and not on what the
other programs do. -/
theorem C92_any_two (C : ObjClasses) (n : Nat) (hC : ImmutableDefaults C) (programs programs' : Nat → Outlook → Cmd) (S : Scene) (hS : Separate S.world)
    (schedule schedule' : List Nat) (j : Nat) (hprog : programs j = programs' j) (hturns : schedule.count j = schedule'.count j) :
    (schedule.foldl (Scene.turn C n programs) S).outlook j = (schedule'.foldl (Scene.turn C n programs') S).outlook j := by
  rw [C92_schedule C n hC programs S hS schedule j, C92_schedule C n hC programs' S hS schedule' j]
  have hrep : ∀ s : List Nat, s.filter (· = j) = List.replicate (s.count j) j := by
    intro s
    exact List.filter_beq (l := s) j
  rw [hrep, hrep, hturns]
  generalize schedule'.count j = m
  have hturn : ∀ T : Scene, T.turn C n programs j = T.turn C n programs' j := by
    intro T
    unfold Scene.turn
    rw [hprog]
  congr 1
  have : ∀ m (T : Scene), (List.replicate m j).foldl (Scene.turn C n programs) T = (List.replicate m j).foldl (Scene.turn C n programs') T := by
    intro m
    induction m with
    | zero => intro T; rfl
    | succ m ih =>
      intro T
      rw [List.replicate_succ, List.foldl_cons, List.foldl_cons, hturn, ih]
  exact this m S

/-- The condition on defaults is needed: with `Array(UInt8(), default=[])` a part that only creates an instance and looks at it sees what another has
appended to the array of an instance of its own. -/
theorem C92_mutable_default_refuted :
    let C : ObjClasses := fun cls => if cls = "Bag" then some
      { desc := { name := "Bag", components := [.array { name := "items", dflt := .list [] } (Sample.u8 "c") .none none] }, defaults := fun _ => .obj 0 } else none
    let programs : Nat → Outlook → Cmd := fun j seen =>
      match seen.raised.length with
      | 0 => .construct "Bag" []
      | 1 => .get 0 "items"
      | 2 => .const (.int 7)
      | _ => if j = 0 then .append 1 2 else .validate 0
    let S : Scene := { world := { store := [.list []], vars := fun _ => [] }, raised := fun _ => [] }
    ∃ schedule : List Nat, (schedule.foldl (Scene.turn C 5 programs) S).outlook 1 ≠
      ((schedule.filter (· = 1)).foldl (Scene.turn C 5 programs) S).outlook 1 := by
  refine ⟨[1, 0, 1, 0, 0, 0], fun h => ?_⟩
  have h1 := congrArg (fun o : Outlook => o.values 3) h
  exact absurd h1 (by decide +kernel)

/-- A program that loads a struct, takes its array, changes its first item, dumps the struct and asks for a field that does not exist. -/
def Sample.busy (j : Nat) (seen : Outlook) : Cmd :=
  match seen.raised.length with
  | 0 => .load "Holder" ⟨[1, 2, 7, 8], 0⟩ .none []
  | 1 => .get 0 "arr"
  | 2 => .const (.int (j + 10))
  | 3 => .setItem 1 0 2
  | 4 => .toBytes 0 .none
  | 5 => .get 0 "nothing"
  | _ => .equal 0 0

-- non-vacuity: what part 1 sees of a schedule in which others interfere at every step
example : let S : Scene := { world := { store := [], vars := fun _ => [] }, raised := fun _ => [] }
    let o := ([0, 1, 2, 1, 0, 2, 1, 0, 0, 2, 1, 0, 1, 1, 2, 1].foldl (Scene.turn Sample.holderClasses 6 Sample.busy) S).outlook 1
    Separate S.world ∧ o.raised = [none, none, none, none, none, some (.keyErr "nothing"), none] ∧
    o.values 4 = [some (.struct "Holder" [("arr", .list [.int 11, .int 2]), ("raw", .bytes [7, 8])]), some (.list [.int 11, .int 2]), some (.int 11),
      some .none, some (.bytes [11, 2, 7, 8]), some (.int 1)] := by
  refine ⟨Sample.empty_separate, by decide +kernel, by decide +kernel⟩

example : let S : Scene := { world := { store := [], vars := fun _ => [] }, raised := fun _ => [] }
    ([0, 1, 2, 1, 0, 2, 1, 0, 0, 2, 1, 0, 1, 1, 2, 1].foldl (Scene.turn Sample.holderClasses 6 Sample.busy) S).outlook 1 =
      ([1, 1, 1, 1, 1, 1, 1].foldl (Scene.turn Sample.holderClasses 6 Sample.busy) S).outlook 1 :=
  C92_schedule Sample.holderClasses 6 Sample.holder_immutable Sample.busy _ Sample.empty_separate [0, 1, 2, 1, 0, 2, 1, 0, 0, 2, 1, 0, 1, 1, 2, 1] 1

end Verif
