import Verif.Proofs.LiveLoad
import Verif.Spec.Samples

/-! # C102: what loading does with callables that need not be functions -/
namespace Verif
open Verif.Spec

variable {S : Type}

/-- When the callables are functions, loading with them is the model of the other claims, and the world stays as it was. -/
theorem C102_deterministic {C : LoadClasses S} {n : Nat} {c : LoadClass S} {s : Stream} {ctx : Value} {kw : Dict} {w : S}
    (h : LoadDeterministic c) (hC : ∀ cls c', C cls = some c' → LoadDeterministic c') :
    liveStructFromStream C n c s ctx kw w = (structFromStream C.plain n c.live.desc s ctx kw, w) :=
  (liveLoad_eq hC n).2 c h s ctx kw w

/-- **C102**, validation.  Let `present`, the `validate=` functions, the deciders of unions, halt checks, validator methods and
struct validators be anything: functions with a memory, with a clock, with a database.  If `from_stream` returns a struct,
then all its validators have been passed, by the very values that the struct has: no validator was skipped, shown another
value, or shown a half-read struct.  (`all` is the struct before the fields marked `discard` are removed.) -/
theorem C102_validated {C : LoadClasses S} {n : Nat} {c : LoadClass S} {s s' : Stream} {ctx : Value} {kw vals : Dict} {w w' : S}
    (hd : 0 < c.live.depth) (h : liveStructFromStream C n c s ctx kw w = ((.ok vals, s'), w')) :
    ∃ all, vals = dropDiscarded c.live.desc all ∧ (∀ k, k ∈ all.keys ↔ k ∈ names c.live.desc) ∧
      (∀ p ∈ c.live.fieldValidators, ∃ v, all.get? p.1 = some v ∧
        (∀ m ∈ (c.calls p.1 []).validators, CheckPassed (m v)) ∧ ∀ m ∈ p.2, CheckPassed (m (asSeen all).live v)) ∧
      ∀ m ∈ c.live.structValidators, CheckPassed (m (asSeen all).live) := by
  cases n with
  | zero => simp [liveStructFromStream] at h
  | succ n =>
    simp only [liveStructFromStream] at h
    obtain ⟨all, w₁, hf, hown, hv, rfl⟩ := liveStructFromStreamWith_ok h
    have hkeys := liveLoadFields_keys hf
    have hall : ∀ f ∈ c.live.desc.components, all.get? f.name ≠ none := by
      intro f hf
      rw [Ne, Dict.get?_none_iff, Classical.not_not]
      exact (hkeys _).2 (.inr (List.mem_map_of_mem hf))
    obtain ⟨w₂, h₁, h₂⟩ := loadValidate_ok hd hall hown hv
    refine ⟨all, rfl, fun k => ⟨fun hk => has_iff.1 (hown k hk), fun hk => (hkeys k).2 (.inr hk)⟩, fun p hp => ?_,
      fun m hm => liveRunAll_passed h₂ m hm⟩
    obtain ⟨u, u', hu⟩ := liveRunAll_passed h₁ p hp
    obtain ⟨f, v, u₁, -, -, hg, hv₁, hv₂⟩ := loadValidateField_ok hd hall hown hu
    exact ⟨v, hg, fun m hm => liveRunAll_passed hv₁ m hm, fun m hm => liveRunAll_passed hv₂ m hm⟩

/-- The fields are read one after the other, and what happens to each. -/
theorem liveStructFromStream_steps {C : LoadClasses S} {n : Nat} {c : LoadClass S} {s s' : Stream} {ctx : Value} {vals : Dict} {w w' : S}
    (hn : UniqueNames c.live.desc) (h : liveStructFromStream C n c s ctx [] w = ((.ok vals, s'), w')) :
    ∃ (all : Dict) (fields : List (Field × Bool × Value)) (w₁ : S), vals = dropDiscarded c.live.desc all ∧
      fields.map (·.1) = c.live.desc.components ∧ all = fields.map (fun x => (x.1.name, x.2.2)) ∧
      (∀ f ∈ c.live.desc.components, all.get? f.name ≠ none) ∧ (∀ k ∈ all.keys, c.live.desc.has k = true) ∧
      loadValidate c all w₁ = (.ok (), w') ∧
      Steps (fun d f x w w' => ∃ s₁ w₁, (c.calls f.name []).present d.view ctx s₁ w = (.ok x.1, w₁) ∧
        (x.1 = false → x.2 = f.base.notPresentValue ∧ w' = w₁) ∧
        (x.1 = true → ∃ w₂, liveRunAll (fun m => m x.2) (c.calls f.name []).validators w₂ = (.ok (), w') ∧
          (isLeaf f = true → w₂ = w₁))) [] fields w w₁ := by
  cases n with
  | zero => simp [liveStructFromStream] at h
  | succ n =>
    simp only [liveStructFromStream] at h
    obtain ⟨all, w₁, hf, hown, hv, rfl⟩ := liveStructFromStreamWith_ok h
    have hkeys := liveLoadFields_keys hf
    have hall : ∀ f ∈ c.live.desc.components, all.get? f.name ≠ none := by
      intro f hf
      rw [Ne, Dict.get?_none_iff, Classical.not_not]
      exact (hkeys _).2 (.inr (List.mem_map_of_mem hf))
    obtain ⟨fields, h₁, h₂, h₃⟩ := liveLoadFields_steps (Q := fun d f x w w' => ∃ s₁ w₁, (c.calls f.name []).present d.view ctx s₁ w = (.ok x.1, w₁) ∧
        (x.1 = false → x.2 = f.base.notPresentValue ∧ w' = w₁) ∧
        (x.1 = true → ∃ w₂, liveRunAll (fun m => m x.2) (c.calls f.name []).validators w₂ = (.ok (), w') ∧
          (isLeaf f = true → w₂ = w₁))) (fun f _ s d w v s' w' hl => by
        cases n with
        | zero => simp [liveFieldFromStream] at hl
        | succ n =>
          simp only [liveFieldFromStream] at hl
          obtain ⟨there, w₁, hp, hfalse, htrue⟩ := liveFromStreamWith_ok hl
          refine ⟨there, s, w₁, hp, fun ht => ⟨(hfalse ht).1, (hfalse ht).2.2⟩, fun ht => ?_⟩
          obtain ⟨w₂, hr, hst⟩ := htrue ht
          refine ⟨w₂, hr, fun hleaf => hst fun s => ?_⟩
          cases f with
          | leaf b k => cases n <;> rfl
          | array => simp [isLeaf] at hleaf
          | nested => simp [isLeaf] at hleaf
          | union => simp [isLeaf] at hleaf) hn (fun f _ => rfl) hf
    exact ⟨all, fields, w₁, rfl, h₁, by simpa using h₂, hall, hown, hv, h₃⟩

/-- **C102**, presence.  Loading asks `present` of each field in turn, showing it exactly the fields read before this one with the
values they were given, and does as it is told: a field that is not present gets its `not_present_value`. -/
theorem C102_presence {C : LoadClasses S} {n : Nat} {c : LoadClass S} {s s' : Stream} {ctx : Value} {vals : Dict} {w w' : S}
    (hn : UniqueNames c.live.desc) (h : liveStructFromStream C n c s ctx [] w = ((.ok vals, s'), w')) :
    ∃ (all : Dict) (fields : List (Field × Bool × Value)), vals = dropDiscarded c.live.desc all ∧
      fields.map (·.1) = c.live.desc.components ∧ all = fields.map (fun x => (x.1.name, x.2.2)) ∧
      ∀ (i : Nat) x, fields[i]? = some x →
        (∃ s₁ w₁ w₂, (c.calls x.1.name []).present (Dict.view (all.take i)) ctx s₁ w₁ = (.ok x.2.1, w₂)) ∧
        (x.2.1 = false → x.2.2 = x.1.base.notPresentValue) ∧
        (x.2.1 = true → ∀ m ∈ (c.calls x.1.name []).validators, CheckPassed (m x.2.2)) := by
  obtain ⟨all, fields, w₁, h₁, h₂, h₃, -, -, -, hs⟩ := liveStructFromStream_steps hn h
  refine ⟨all, fields, h₁, h₂, h₃, fun i x hx => ?_⟩
  obtain ⟨u₁, u₂, s₁, u₃, hp, hfalse, htrue⟩ := hs.at i x hx
  rw [List.nil_append, List.map_take, ← h₃] at hp
  refine ⟨⟨s₁, u₁, u₃, hp⟩, fun hx => (hfalse hx).1, fun hx => ?_⟩
  obtain ⟨u₄, hr, -⟩ := htrue hx
  exact liveRunAll_passed hr

/-- **C102**, the calls.  For a class without fields inside fields, exactly these calls are made, in this order: for each field
`present`, and if the field is there its `validate=` functions with the value that was read; and when all fields have been
read, for each field its `validate=` functions again and its validator methods, and at last the struct validators. -/
theorem C102_calls {C : LoadClasses S} {n : Nat} {c : LoadClass S} {s s' : Stream} {ctx : Value} {vals : Dict} {w w' : S}
    {record : S → List Call} (hn : UniqueNames c.live.desc) (hd : 0 < c.live.depth)
    (hleaf : ∀ f ∈ c.live.desc.components, isLeaf f = true) (hr : Records c record)
    (h : liveStructFromStream C n c s ctx [] w = ((.ok vals, s'), w')) :
    ∃ (all : Dict) (fields : List (Field × Bool × Value)), vals = dropDiscarded c.live.desc all ∧
      fields.map (·.1) = c.live.desc.components ∧ all = fields.map (fun x => (x.1.name, x.2.2)) ∧
      (∀ x ∈ fields, x.2.1 = false → x.2.2 = x.1.base.notPresentValue) ∧
      record w' = record w ++ readCalls c fields ++ checkCalls c all := by
  obtain ⟨all, fields, w₁, h₁, h₂, h₃, hall, hown, hv, hs⟩ := liveStructFromStream_steps hn h
  refine ⟨all, fields, h₁, h₂, h₃, fun x hx hf => ?_, ?_⟩
  · obtain ⟨i, hi⟩ := List.mem_iff_getElem?.1 hx
    obtain ⟨_, _, _, _, _, hfalse, _⟩ := hs.at i x hi
    exact (hfalse hf).1
  · have hread : record w₁ = record w ++ readCalls c fields := by
      refine hs.record fun f hf d x w w' hq => ?_
      rw [h₂] at hf
      obtain ⟨s₁, u, hp, hfalse, htrue⟩ := hq
      have hpr := hr.present f hf d.view ctx s₁ w
      rw [hp] at hpr
      cases hx : x.1 with
      | false =>
        rw [(hfalse hx).2]
        simpa using hpr
      | true =>
        obtain ⟨u₂, hrun, hu⟩ := htrue hx
        rw [hu (hleaf f hf)] at hrun
        rw [liveRunAll_record_range (record := record) (fun i m hm w => hr.validate f hf i m hm x.2 w) hrun]
        simp only at hpr
        rw [hpr]
        simp [validateCalls]
    obtain ⟨w₂, hv₁, hv₂⟩ := loadValidate_ok hd hall hown hv
    rw [liveRunAll_record_range (record := record) (fun i m hm w => hr.struct i m hm (asSeen all) w) hv₂,
      liveRunAll_record_flat (record := record) (g := fun p => validateCalls p.1 (c.calls p.1 []).validators.length ((all.get? p.1).getD .undefined) ++
        (List.range p.2.length).map fun i => Call.method p.1 i ((all.get? p.1).getD .undefined)) ?_ hv₁, hread]
    · simp [checkCalls]
    · intro p hp w w' hw
      obtain ⟨f, v, u₁, hf, hname, hg, hv₁, hv₂⟩ := loadValidateField_ok hd hall hown hw
      rw [liveRunAll_record_range (record := record) (fun i m hm w => hr.method p hp i m hm (asSeen all) v w) hv₂,
        liveRunAll_record_range (record := record) (fun i m hm w => hname ▸ hr.validate f hf i m (hname ▸ hm) v w) hv₁, hg]
      simp [validateCalls]

namespace Sample

/-- ```
class Docket(Struct):
    kind = UInt8()
    extra = UInt8(present=lambda f, *_: f["kind"] == 1, validate=lambda v: None)

    @validates_struct
    def _check(self): pass
```
with all the callables writing down their calls. -/
def docket : LoadClass (List Call) :=
  { live :=
      { desc := { name := "Docket"
                  components := [upd (u8 "kind") ({ · with offset := some 0 }),
                    upd (u8 "extra") ({ · with index := 1, present := fun d _ _ => (d.get "kind").map fun v => v == .int 1,
                                               validators := [fun _ => .ok ()] })]
                  fieldValidators := [("kind", []), ("extra", [])], structValidators := [fun _ => .ok ()]
                  numOwnFields := 2, sizeBytes := none }
        compute := fun _ => none
        present := fun _ _ _ => Prog.pure (.ok true)
        fieldValidators := [("kind", []), ("extra", [])]
        structValidators := [fun _ w => (.ok (), w ++ [.struct 0])]
        depth := 3 }
    calls := fun k _ =>
      { present := fun d _ _ w => (if k = "extra" then (d.get "kind").map (fun v => v == .int 1) else .ok true, w ++ [.present k])
        validators := if k = "extra" then [fun v w => (.ok (), w ++ [.validate k 0 v])] else []
        halt := none
        decider := fun _ _ _ => Prog.pure (.ok 0) } }

theorem docket_records : Records docket id where
  present := fun _ _ _ _ _ _ => rfl
  validate := by
    intro f hf i m hm v w
    rcases List.mem_cons.1 hf with rfl | hf
    · exact absurd hm (by show ([] : List (Value → Prog (List Call) Unit))[i]? ≠ some m; simp)
    · obtain rfl := List.mem_singleton.1 hf
      cases i with
      | zero =>
        have hm := Option.some.inj hm
        subst hm; rfl
      | succ i => exact absurd hm (by show ([] : List (Value → Prog (List Call) Unit))[i]? ≠ some m; simp)
  method := by
    intro p hp i m hm
    rcases List.mem_cons.1 hp with rfl | hp
    · simp at hm
    · obtain rfl := List.mem_singleton.1 hp
      simp at hm
  struct := by
    intro i m hm view w
    cases i with
    | zero =>
      have hm := Option.some.inj hm
      subst hm; rfl
    | succ i => exact absurd hm (by show ([] : List (LiveView (List Call) → Prog (List Call) Unit))[i]? ≠ some m; simp)

def noLoad : LoadClasses (List Call) := fun _ => none

end Sample

/-- The calls made by `Docket.from_bytes(b"\x01\x07")`: the validator of `extra` is called twice. -/
example : liveStructFromStream Sample.noLoad 4 Sample.docket ⟨[1, 7], 0⟩ .none [] [] =
    ((.ok [("kind", .int 1), ("extra", .int 7)], ⟨[1, 7], 2⟩),
      [.present "kind", .present "extra", .validate "extra" 0 (.int 7), .validate "extra" 0 (.int 7), .struct 0]) := by decide

/-- It meets the hypotheses of `C102_calls`, `C102_validated` and `C102_presence`. -/
example {vals : Dict} {s' : Stream} {w' : List Call}
    (h : liveStructFromStream Sample.noLoad 4 Sample.docket ⟨[1, 7], 0⟩ .none [] [] = ((.ok vals, s'), w')) :
    ∃ (all : Dict) (fields : List (Field × Bool × Value)), vals = dropDiscarded Sample.docket.live.desc all ∧
      fields.map (·.1) = Sample.docket.live.desc.components ∧ all = fields.map (fun x => (x.1.name, x.2.2)) ∧
      (∀ x ∈ fields, x.2.1 = false → x.2.2 = x.1.base.notPresentValue) ∧
      w' = readCalls Sample.docket fields ++ checkCalls Sample.docket all := by
  have := C102_calls (record := id) (by unfold UniqueNames; decide) (by decide) (by decide) Sample.docket_records h
  simpa using this

/-- **Refuted**: the documentation's "this function will be called with the deserialized value".  A field that is not there has no
deserialized value, and its validators are called all the same, with `NOT_PRESENT`. -/
theorem C102_absent_refuted :
    ¬ ∀ (C : LoadClasses (List Call)) (n : Nat) (c : LoadClass (List Call)) (s s' : Stream) (vals : Dict) (w' : List Call),
      UniqueNames c.live.desc → Records c id → liveStructFromStream C n c s .none [] [] = ((.ok vals, s'), w') →
      ∀ name i v, Call.validate name i v ∈ w' → v ≠ .notPresent := by
  intro h
  exact h Sample.noLoad 4 Sample.docket ⟨[2, 7], 0⟩ ⟨[2, 7], 1⟩ [("kind", .int 2), ("extra", .notPresent)]
    [.present "kind", .present "extra", .validate "extra" 0 .notPresent, .struct 0] (by unfold UniqueNames; decide)
    Sample.docket_records (by decide) "extra" 0 .notPresent (by decide) rfl

namespace Sample

/-- ```
def unused(serial):
    if serial in used: raise ValidationError
    used.add(serial)

class Licence(Struct):
    serial = UInt8(validate=unused)
```
The state of the world is `used`. -/
def licence : LoadClass (List Value) :=
  { live :=
      { desc := { name := "Licence", components := [upd (u8 "serial") ({ · with offset := some 0 })]
                  fieldValidators := [("serial", [])], numOwnFields := 1, sizeBytes := some 1 }
        compute := fun _ => none
        present := fun _ _ _ => Prog.pure (.ok true)
        fieldValidators := [("serial", [])]
        structValidators := []
        depth := 2 }
    calls := fun _ _ =>
      { present := fun _ _ _ => Prog.pure (.ok true)
        validators := [fun v used => if v ∈ used then (.error (.validation "serial"), used) else (.ok (), v :: used)]
        halt := none
        decider := fun _ _ _ => Prog.pure (.ok 0) } }

end Sample

/-- **Refuted**: that a class with no validators but the `validate=` functions of its fields loads once all its fields have been
read, each having passed its validators.  They are all called a second time, and one with a memory may object: with a
validator that accepts each serial number once, no `Licence` can be loaded. -/
theorem C102_once_refuted :
    ¬ ∀ (C : LoadClasses (List Value)) (n : Nat) (c : LoadClass (List Value)) (s s' : Stream) (all : Dict) (w w₁ : List Value),
      UniqueNames c.live.desc → 0 < c.live.depth → (∀ p ∈ c.live.fieldValidators, p.2 = []) → c.live.structValidators = [] →
      liveLoadFields (fun f s loaded => liveFieldFromStream C n (c.calls f.name) f s .none loaded) c.live.desc.components [] s w =
        ((.ok all, s'), w₁) →
      ∃ vals w', liveStructFromStream C (n + 1) c s .none [] w = ((.ok vals, s'), w') := by
  intro h
  obtain ⟨vals, w', h⟩ := h (fun _ => none) 3 Sample.licence ⟨[5], 0⟩ ⟨[5], 1⟩ [("serial", .int 5)] [] [.int 5]
    (by unfold UniqueNames; decide) (by decide) (by simp [Sample.licence]) rfl (by decide)
  rw [show liveStructFromStream (fun _ => none) 4 Sample.licence ⟨[5], 0⟩ .none [] [] =
    ((.error (.validation "serial"), ⟨[5], 1⟩), [.int 5]) from by decide] at h
  simp at h

namespace Sample

/-- The class of functions: `Licence` with a validator that only looks. -/
def permit : LoadClass Nat :=
  { live :=
      { desc := { name := "Permit", components := [upd (u8 "serial") ({ · with
                    offset := some 0, validators := [fun v => if v = .int 0 then .error (.validation "serial") else .ok ()] })]
                  fieldValidators := [("serial", [])], numOwnFields := 1, sizeBytes := some 1 }
        compute := fun _ => none
        present := fun _ _ _ => Prog.pure (.ok true)
        fieldValidators := [("serial", [])]
        structValidators := []
        depth := 2 }
    calls := fun _ _ =>
      { present := fun _ _ _ => Prog.pure (.ok true)
        validators := [fun v w => (if v = .int 0 then .error (.validation "serial") else .ok (), w)]
        halt := none
        decider := fun _ _ _ => Prog.pure (.ok 0) } }

end Sample

/-- `Permit` meets the hypotheses of `C102_deterministic`. -/
example (n : Nat) (s : Stream) (w : Nat) :
    liveStructFromStream (fun _ => none) n Sample.permit s .none [] w =
      (structFromStream (LoadClasses.plain (S := Nat) fun _ => none) n Sample.permit.live.desc s .none [], w) := by
  refine C102_deterministic ⟨?_, ⟨.cons ⟨rfl, .nil⟩ .nil, .nil⟩, by decide⟩ (fun _ _ h => by simp at h)
  intro f hf p g hg
  simp only [Sample.permit, List.mem_cons, List.not_mem_nil, or_false] at hf
  subst hf
  cases p with
  | nil =>
    simp only [fieldAt, Option.some.injEq] at hg
    subst hg
    exact ⟨fun _ _ _ _ => rfl, .cons (fun _ _ => rfl) .nil, trivial⟩
  | cons i p =>
    have hn : ∀ b k, fieldAt (.leaf b k) (i :: p) = none := fun b k => by simp [fieldAt]
    exact absurd (hg.symm.trans (hn _ _)) (by simp)

end Verif
