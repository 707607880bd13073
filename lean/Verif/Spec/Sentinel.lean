import Verif.Spec.Container

/-!
# Vocabulary for arrays that end at a sentinel

The documented use of `halt_check` (`/repo/binobj/fields/containers.py:170-237`): stop when the last value loaded is a sentinel, and
possibly remove it from the list.
-/

namespace Verif.Spec

/-- What a `halt_check` is: it sees the stream, the values so far, the context and the fields loaded, and decides whether to stop.  The list
it returns is what it leaves in place of the values so far. -/
abbrev HaltCheck := Stream → List Value → Value → Dict → Except Err (Bool × List Value)

/-- The values so far end with a sentinel. -/
def Ended (isEnd : Value → Bool) (values : List Value) : Prop := ∃ l v, values = l ++ [v] ∧ isEnd v = true

/-- The check stops exactly when the last value is a sentinel, which stays in the list. -/
def StopsAt (isEnd : Value → Bool) (halt : HaltCheck) : Prop :=
  ∀ s values ctx loaded, (Ended isEnd values → halt s values ctx loaded = .ok (true, values)) ∧
    (¬ Ended isEnd values → halt s values ctx loaded = .ok (false, values))

/-- The check stops exactly when the last value is a sentinel, and removes it. -/
def StopsBefore (isEnd : Value → Bool) (halt : HaltCheck) : Prop :=
  ∀ s values ctx loaded, (Ended isEnd values → halt s values ctx loaded = .ok (true, values.dropLast)) ∧
    (¬ Ended isEnd values → halt s values ctx loaded = .ok (false, values))

end Verif.Spec

namespace Verif.Sample

/-- `lambda seq, stream, values, ctx, loaded: values and values[-1] == 0` -/
def untilZero : Spec.HaltCheck := fun _ values _ _ => .ok (decide (values.getLast? = some (.int 0)), values)

/-- The same check, with `del values[-1]` before it stops; cf. `/repo/tests/fields/containers_test.py:98-105`. -/
def beforeZero : Spec.HaltCheck := fun _ values _ _ =>
  if values.getLast? = some (.int 0) then .ok (true, values.dropLast) else .ok (false, values)

/-- `Array(component, halt_check=...)` -/
def haltArray (name : String) (component : Field) (halt : Spec.HaltCheck) : Field :=
  .array { name := name, typeName := "Array" } component .none (some halt)

end Verif.Sample
