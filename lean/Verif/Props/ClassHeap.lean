import Verif.Proofs.ClassHeap
import Verif.Props.Class

/-!
# C58: declaring a class does not alter the classes before it

In the model where fields and validator lists are mutable objects that classes share.
-/

namespace Verif
open Spec

/-- The heaps that class statements lead to, each statement creating the fields in its body; statements may fail. -/
inductive Spec.Reached : Heap → Prop where
  | start : Reached {}
  | run {h : Heap} (n : Nat) (decl : ClassDecl) : Reached h → Reached (h.run n decl).1

theorem Spec.Reached.wf {h : Heap} (hr : Reached h) : h.WF := by
  induction hr with
  | start => intro c obj hc; simp at hc
  | run n decl _ ih => exact (Heap.run_refines ih n decl).1

/-- **C58** After any history of class statements, one more — successful or not, subclassing or not, adding validators for inherited
fields or not — leaves every other class exactly as it was: fields, offsets, byte orders, validators. -/
theorem C58_other_classes_unaffected (h : Heap) (hr : Reached h) (n : Nat) (decl : ClassDecl) (c : String) (hc : c ≠ decl.name) :
    (h.run n decl).1.view c = h.view c := by
  obtain ⟨-, h2, h3⟩ := Heap.run_refines hr.wf n decl
  cases hd : fromClass h.view n decl with
  | error e => rw [(h2 e hd).2]
  | ok d =>
    rw [(h3 d hd).2]
    exact C58_parent_unchanged _ _ _ _ hd c hc

/-- **C58** The class that results is the one that `C58_layout` and `C58_validators` describe. -/
theorem C58_class_statement (h : Heap) (hr : Reached h) (n : Nat) (decl : ClassDecl) :
    (∀ d, fromClass h.view n decl = .ok d → (h.run n decl).2 = .ok () ∧ (h.run n decl).1.view decl.name = some d) ∧
    (∀ e, fromClass h.view n decl = .error e → (h.run n decl).2 = .error e ∧ (h.run n decl).1.view = h.view) := by
  obtain ⟨-, h2, h3⟩ := Heap.run_refines hr.wf n decl
  refine ⟨fun d hd => ⟨(h3 d hd).1, ?_⟩, fun e he => h2 e he⟩
  rw [(h3 d hd).2]
  unfold Classes.add
  rw [fromClass_name hd, if_pos rfl]

-- a subclass that adds a validator to an inherited field: the base has none afterwards
example :
    let h := (Heap.run {} 3 Sample.pointDecl).1
    let h' := (h.run 3 Sample.point3Decl).1
    (h'.view "Point3").map (fun d => (names d, d.fieldValidators.map fun p => (p.1, p.2.length))) =
      some (["x", "y", "z"], [("x", 1), ("y", 0), ("z", 1)]) ∧
    (h'.view "Point").map (fun d => (names d, d.fieldValidators.map fun p => (p.1, p.2.length))) =
      some (["x", "y"], [("x", 0), ("y", 0)]) := by decide

/-- **C58** fails if a class body assigns a field object that another class already has (`y = Point.y; x = Point.x`): the fields are bound again, and
their offsets in the other class are wrong from then on. -/
theorem C58_reused_field_refuted :
    ∃ (h : Heap) (decl : HeapDecl) (d d' : StructDesc), Reached h ∧ decl.name ≠ "Point" ∧ h.view "Point" = some d ∧
      (h.declare 3 decl).2 = .ok () ∧ (h.declare 3 decl).1.view "Point" = some d' ∧
      (structGetField Sample.noClasses 3 d ⟨[1, 0, 2, 0], 0⟩ "x" .none).1 = .ok (.int 1) ∧
      (structGetField Sample.noClasses 3 d' ⟨[1, 0, 2, 0], 0⟩ "x" .none).1 = .ok (.int 2) :=
  ⟨(Heap.run {} 3 Sample.pointDecl).1, { name := "Swapped", body := [("y", .field 1), ("x", .field 0)] }, _, _,
    .run 3 Sample.pointDecl .start, by decide, rfl, rfl, rfl, by decide, by decide⟩

end Verif
