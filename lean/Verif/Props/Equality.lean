import Verif.Proofs.Equality
import Verif.Spec.Samples

/-!
# Equality of structs (C59)

`Struct.__eq__` (`/repo/binobj/structures.py:777-797`) compares the dicts of the values that are set.  `Spec.Same` says when two
plain Python values are equal; `Spec.EqReturns Γ a b r` says `a == b` returns `r`.
-/

namespace Verif
open Spec

/-- Two structs are equal exactly if the same fields are set in both, to equal values (nested structs compared as dicts).  In
particular the comparison returns whenever the values can be converted and both have a length, and the classes do not matter. -/
theorem C59_equal_iff {Γ : Classes} {c c' : String} {d d' : StructDesc} {a b wa wb : Dict} {r : Bool} (hc : Γ c = some d)
    (hc' : Γ c' = some d') (ha : Instance d a) (hb : Instance d' b) (hpa : ProperValues Γ a) (hpb : ProperValues Γ b)
    (hla : Listable Γ d a) (hlb : Listable Γ d' b) (hwa : DefinedValues Γ a wa) (hwb : DefinedValues Γ b wb) :
    EqReturns Γ (.struct c a) (.struct c' b) r ↔ (r = true ↔ Same (.dict wa) (.dict wb)) := by
  obtain ⟨n, w, h1⟩ := comparableDict_total hc ha hla hwa
  obtain ⟨m, w', h2⟩ := comparableDict_total hc' hb hlb hwb
  obtain ⟨da, rfl, hda, hna, hka⟩ := comparableDict_ok hc ha h1
  obtain ⟨db, rfl, hdb, hnb, hkb⟩ := comparableDict_ok hc' hb h2
  have h2' : comparableOther Γ m (.struct c' b) = .ok (some (.dict db)) := by simp only [comparableOther, h2, Except.map]
  rw [eqReturns_struct (by simp) h1 h2', eqReturns_data hnb hna (hdb.distinct hpb hkb) (hda.distinct hpa hka)]
  have hs : Same (.dict db) (.dict da) ↔ Same (.dict wa) (.dict wb) :=
    ⟨fun h => h.symm.congr (hda.unique hwa) (hdb.unique hwb),
      fun h => (h.congr (hwa.unique hda) (hwb.unique hdb)).symm⟩
  rw [hs]

/-- Struct equality is symmetric. -/
theorem C59_symmetric {Γ : Classes} {c c' : String} {d d' : StructDesc} {a b : Dict} {r : Bool} (hc : Γ c = some d)
    (hc' : Γ c' = some d') (ha : Instance d a) (hb : Instance d' b) (hpa : ProperValues Γ a) (hpb : ProperValues Γ b)
    (h : EqReturns Γ (.struct c a) (.struct c' b) r) : EqReturns Γ (.struct c' b) (.struct c a) r := by
  obtain ⟨n, w, w', h1, h2⟩ := eqReturns_struct_inv h
  obtain ⟨da, rfl, hda, -⟩ := comparableDict_ok hc ha h1
  obtain ⟨db, rfl, hdb, -⟩ := comparableDict_ok hc' hb h2
  have hla := comparableDict_listable hc h1
  have hlb := comparableDict_listable hc' h2
  rw [C59_equal_iff hc hc' ha hb hpa hpb hla hlb hda hdb] at h
  rw [C59_equal_iff hc' hc hb ha hpb hpa hlb hla hdb hda, h]
  exact ⟨Spec.Same.symm, Spec.Same.symm⟩

/-- Equality depends only on the fields that are set: with the same fields set to the same values, two structs - of the same
class or not - are interchangeable in every comparison that returns, if both have a length. -/
theorem C59_only_defined_values {Γ : Classes} {c c' c'' : String} {d d' d'' : StructDesc} {a a' b : Dict} {r : Bool}
    (hc : Γ c = some d) (hc' : Γ c' = some d') (hc'' : Γ c'' = some d'') (ha : Instance d a) (ha' : Instance d' a')
    (hb : Instance d'' b) (hpa : ProperValues Γ a) (hpb : ProperValues Γ b) (hla' : Listable Γ d' a')
    (hsame : ∀ k, setValue a k = setValue a' k)
    (h : EqReturns Γ (.struct c a) (.struct c'' b) r) : EqReturns Γ (.struct c' a') (.struct c'' b) r := by
  obtain ⟨n, w, w', h1, h2⟩ := eqReturns_struct_inv h
  obtain ⟨da, rfl, hda, -⟩ := comparableDict_ok hc ha h1
  obtain ⟨db, rfl, hdb, -⟩ := comparableDict_ok hc'' hb h2
  have hset : ∀ (x : Dict) k v, v ≠ .undefined → (setValue x k = some v ↔ Dict.get? x k = some v) := by
    intro x k v hv
    unfold setValue
    cases hx : Dict.get? x k with
    | none => simp
    | some u =>
      by_cases hu : u = .undefined
      · subst hu; simp; exact fun h => hv h.symm
      · cases u <;> first | exact absurd rfl hu | simp
  have hnone : ∀ (x : Dict) k, setValue x k = none ↔ (Dict.get? x k = none ∨ Dict.get? x k = some .undefined) := by
    intro x k
    unfold setValue
    cases hx : Dict.get? x k with
    | none => simp
    | some u => cases u <;> simp
  have hda' : DefinedValues Γ a' da := by
    intro k
    rcases hda k with ⟨h3, h4⟩ | ⟨v, w, m, h3, h4, h5, h6⟩
    · left; exact ⟨h3, (hnone a' k).1 (by rw [← hsame, hnone]; exact h4)⟩
    · right; exact ⟨v, w, m, (hset a' k v h4).1 (by rw [← hsame, hset a k v h4]; exact h3), h4, h5, h6⟩
  have hpa' : ProperValues Γ a' := by
    intro k v m w hv hw
    by_cases hu : v = .undefined
    · subst hu
      cases m with
      | zero => simp [recursiveToDicts] at hw
      | succ m =>
        simp [recursiveToDicts] at hw; subst hw
        exact .other (by simp) (by simp)
    · exact hpa k v m w ((hset a k v hu).1 (by rw [hsame, hset a' k v hu]; exact hv)) hw
  have hla := comparableDict_listable hc h1
  have hlb := comparableDict_listable hc'' h2
  rw [C59_equal_iff hc hc'' ha hb hpa hpb hla hlb hda hdb] at h
  rw [C59_equal_iff hc' hc'' ha' hb hpa' hpb hla' hlb hda' hdb]; exact h

/-- **C59** A struct equals `UNDEFINED`, on either side of `==`, exactly if no field of it has a value. -/
theorem C59_undefined_iff (Γ : Classes) (n : Nat) (c : String) (vals : Dict) (hn : (Dict.keys vals).Nodup) :
    ∃ r, pyEq Γ (n + 1) (.struct c vals) .undefined = .ok r ∧ pyEq Γ (n + 1) .undefined (.struct c vals) = .ok r ∧
      (r = true ↔ ∀ k v, Dict.get? vals k = some v → v = .undefined) := by
  refine ⟨vals.all fun p => decide (p.2 = .undefined), by simp [pyEq, structEqWith], by simp [pyEq, structEqWith], ?_⟩
  simp only [List.all_eq_true, decide_eq_true_eq]
  constructor
  · intro h k v hv
    exact h (k, v) (Dict.get?_some_mem hv)
  · intro h p hp
    exact h p.1 p.2 (Dict.get?_of_mem hn hp)

example : pyEq Sample.noClasses 1 (.struct "Point" [("x", .undefined)]) .undefined = .ok true ∧
    pyEq Sample.noClasses 1 (.struct "Point" [("x", .none)]) .undefined = .ok false := by decide

/-- A struct equals a dict, on either side, exactly if the dict has the fields that are set as its keys, with equal values. -/
theorem C59_dict_iff {Γ : Classes} {c : String} {d : StructDesc} {a wa b : Dict} {r : Bool} (hc : Γ c = some d)
    (ha : Instance d a) (hpa : ProperValues Γ a) (hla : Listable Γ d a) (hwa : DefinedValues Γ a wa) (hb : NoStruct (.dict b))
    (hkb : DistinctKeys (.dict b)) :
    (EqReturns Γ (.struct c a) (.dict b) r ↔ (r = true ↔ Same (.dict wa) (.dict b))) ∧
    (EqReturns Γ (.dict b) (.struct c a) r ↔ (r = true ↔ Same (.dict wa) (.dict b))) := by
  obtain ⟨n, w, h1⟩ := comparableDict_total hc ha hla hwa
  obtain ⟨m, hm⟩ := recursiveToDicts_total Γ hb
  obtain ⟨da, rfl, hda, hna, hka⟩ := comparableDict_ok hc ha h1
  have h2' : comparableOther Γ m (.dict b) = .ok (some (.dict b)) := by simp only [comparableOther, hm, Except.map]
  have key : EqReturns Γ (.struct c a) (.dict b) r ↔ (r = true ↔ Same (.dict wa) (.dict b)) := by
    rw [eqReturns_struct (by simp) h1 h2', eqReturns_data hb hna hkb (hda.distinct hpa hka)]
    have hs : Same (.dict b) (.dict da) ↔ Same (.dict wa) (.dict b) :=
      ⟨fun h => h.symm.congr (hda.unique hwa) (fun _ => rfl), fun h => (h.congr (hwa.unique hda) (fun _ => rfl)).symm⟩
    rw [hs]
  refine ⟨key, ?_⟩
  rw [← key]
  unfold EqReturns
  simp only [pyEq_reflected (t := .dict b) (by simp)]

/-- A struct of plain values - no NaN, no iterator - equals itself. -/
theorem C59_reflexive_partial {Γ : Classes} {c : String} {d : StructDesc} {a wa : Dict} (hc : Γ c = some d)
    (ha : Instance d a) (hpa : ProperValues Γ a) (hla : Listable Γ d a) (hwa : DefinedValues Γ a wa)
    (hself : ∀ k w, Dict.get? wa k = some w → SelfEqual w) : EqReturns Γ (.struct c a) (.struct c a) true := by
  rw [C59_equal_iff hc hc ha ha hpa hpa hla hla hwa hwa]
  simp only [true_iff]
  refine .dict (fun k => Iff.rfl) fun k x y hx hy => ?_
  rw [hx] at hy; simp at hy; subst hy
  exact (hself k x hx).same

/-- Structs of fixed-size fields have a length. -/
theorem listable_fixed {Γ : Classes} {d : StructDesc} {vals current : Dict} (hw : whateverPossible d vals = .ok current)
    (h : ∀ f ∈ d.components, ∃ k : Int, f.base.size = .fixed k ∧ 0 ≤ k) (hk : ∀ k, structLen Γ 0 d vals = .ok k → k < 2 ^ 63) :
    Listable Γ d vals := by
  obtain ⟨k, h1, h2⟩ := sumSizes_fixed (g := fieldLen Γ 0 current) (fs := d.components) (by
    intro f hf
    obtain ⟨k, h1, h2⟩ := h f hf
    exact ⟨k, by simp only [fieldLen, h1], h2⟩)
  have h3 : structLen Γ 0 d vals = .ok k := by simp only [structLen, hw, h1]
  exact ⟨0, Or.inl ⟨k, h3, h2, hk k h3⟩⟩

/-- Plain values need no conversion. -/
theorem definedValues_plain {Γ : Classes} {vals : Dict} (hn : (Dict.keys vals).Nodup)
    (h : ∀ k v, Dict.get? vals k = some v → NoStruct v) :
    DefinedValues Γ vals (vals.filter fun p => decide (p.2 ≠ .undefined)) := by
  intro k
  rw [get?_filter_defined hn]
  cases hv : Dict.get? vals k with
  | none => left; simp
  | some v =>
    by_cases hu : v = .undefined
    · left; subst hu; simp [Option.filter]
    · right
      obtain ⟨n, hn⟩ := recursiveToDicts_total Γ (h k v hv)
      exact ⟨v, v, n, rfl, hu, hn, by simp [Option.filter, hu]⟩

namespace Sample

/-- ```
class Inner(Struct):
    x = UInt8()
    y = UInt8(default=7)
class Outer(Struct):
    inner = Nested(Inner)
``` -/
def inner : StructDesc :=
  { name := "Inner"
    components := [upd (u8 "x") ({ · with offset := some 0 }), upd (u8 "y") ({ · with index := 1, offset := some 1, dflt := .int 7 })]
    fieldValidators := [("x", []), ("y", [])], numOwnFields := 2 }
@[inherit_doc inner] def outer : StructDesc :=
  { name := "Outer"
    components := [upd (nested "inner" "Inner") ({ · with offset := some 0, size := .fixed 2 })]
    fieldValidators := [("inner", [])], numOwnFields := 1 }
/-- The two classes above. -/
def nestedClasses : Classes := Classes.add (Classes.add noClasses inner) outer

end Sample

/-- Reflexivity fails: comparing a struct with itself raises an error if a nested struct lacks a required value.  The nested
struct alone does equal itself. -/
theorem C59_reflexive_refuted :
    ¬ ∀ (Γ : Classes) (c : String) (d : StructDesc) (a : Dict), Γ c = some d → Instance d a →
      EqReturns Γ (.struct c a) (.struct c a) true := by
  intro h
  obtain ⟨n, hn⟩ := h Sample.nestedClasses "Outer" Sample.outer [("inner", .struct "Inner" [("y", .int 1)])] rfl
    (by unfold Instance; decide)
  have h1 : pyEq Sample.nestedClasses 5 (.struct "Outer" [("inner", .struct "Inner" [("y", .int 1)])])
      (.struct "Outer" [("inner", .struct "Inner" [("y", .int 1)])]) = .error (.missingRequired "x") := by decide
  rcases pyEq_mono Sample.nestedClasses (Nat.le_max_right n 5) (.struct "Outer" [("inner", .struct "Inner" [("y", .int 1)])])
    (.struct "Outer" [("inner", .struct "Inner" [("y", .int 1)])]) with h2 | h2
  · rw [h1] at h2; simp at h2
  · rw [h1, (pyEq_mono Sample.nestedClasses (Nat.le_max_left n 5) _ _).of_ok hn] at h2; simp at h2

/-- ```
class Text(Struct):
    id = UInt8()
    text = StringZ()
``` -/
def Sample.text : StructDesc :=
  { name := "Text"
    components := [upd (u8 "id") ({ · with offset := some 0 }),
      .leaf { name := "text", index := 1, offset := some 1 } (.stringz asciiCodec none)]
    fieldValidators := [("id", []), ("text", [])], numOwnFields := 2 }

/-- Comparing a struct with itself, or with anything else, also raises an error if a field without a fixed size has no value: `list(self)`
asks for `len(self)`, which is the number of bytes dumped. -/
theorem C59_unset_refuted :
    ∃ (Γ : Classes) (d : StructDesc) (a : Dict), Γ d.name = some d ∧ Instance d a ∧ (∃ k v, Dict.get? a k = some v ∧ v ≠ .undefined) ∧
      ∀ other r, other ≠ .undefined → ¬ EqReturns Γ (.struct d.name a) other r := by
  refine ⟨Classes.add Sample.noClasses Sample.text, Sample.text, [("id", .int 1)], rfl, by unfold Instance; decide,
    ⟨"id", .int 1, rfl, by simp⟩, ?_⟩
  rintro other r ho ⟨n, hn⟩
  cases n with
  | zero => simp [pyEq] at hn
  | succ n =>
    have hc : comparableDict (Classes.add Sample.noClasses Sample.text) n Sample.text.name [("id", .int 1)] =
        .error (.missingRequired "text") := by rfl
    simp only [pyEq, structEqWith, if_neg ho, hc] at hn
    cases hn

/-- Only the outermost struct is compared by the values that are set.  Nested ones are compared by `to_dict`, which fills in
defaults: `Inner(x=1)` and `Inner(x=1, y=7)` differ, yet the structs containing them are equal. -/
theorem C59_defined_values_nested_refuted :
    ∃ (Γ : Classes) (a b : Value), EqReturns Γ a b false ∧
      EqReturns Γ (.struct "Outer" [("inner", a)]) (.struct "Outer" [("inner", b)]) true := by
  refine ⟨Sample.nestedClasses, .struct "Inner" [("x", .int 1)], .struct "Inner" [("x", .int 1), ("y", .int 7)], ⟨5, ?_⟩, ⟨6, ?_⟩⟩
  · decide
  · decide

/-- A struct need not equal its own `to_dict()`: defaults are in the dict, but not among the values that are set. -/
theorem C59_to_dict_refuted :
    ∃ (Γ : Classes) (d : StructDesc) (vals dct : Dict) (n : Nat), Γ d.name = some d ∧ Instance d vals ∧
      structToDict Γ n d vals = .ok dct ∧ EqReturns Γ (.struct d.name vals) (.dict dct) false := by
  refine ⟨Sample.nestedClasses, Sample.inner, [("x", .int 1)], [("x", .int 1), ("y", .int 7)], 3, rfl, ?_, ?_, ⟨5, ?_⟩⟩
  · unfold Instance; decide
  · decide
  · decide

/-! ### The hypotheses can be met -/

theorem properValues_plain {Γ : Classes} {vals : Dict} (h : ∀ k v, Dict.get? vals k = some v → NoStruct v)
    (h' : ∀ k v, Dict.get? vals k = some v → DistinctKeys v) : ProperValues Γ vals := by
  intro k v n w hv hw
  rw [(recursiveToDicts_spec hw).2 (h k v hv)]; exact h' k v hv

/-- Fields of integers and UNDEFINED. -/
theorem Sample.plain_ints {vals : Dict} (h : ∀ p ∈ vals, (∃ i, p.2 = .int i) ∨ p.2 = .undefined) (k : String) (v : Value)
    (hv : Dict.get? vals k = some v) : NoStruct v ∧ DistinctKeys v := by
  rcases h _ (Dict.get?_some_mem hv) with ⟨i, h⟩ | h
  · simp only at h; subst h; exact ⟨.int i, .other (by simp) (by simp)⟩
  · simp only at h; subst h; exact ⟨.undefined, .other (by simp) (by simp)⟩

section
private def a : Dict := [("x", .int 1), ("y", .undefined)]
private def b : Dict := [("x", .int 1)]
private theorem pa : ∀ k v, Dict.get? a k = some v → NoStruct v ∧ DistinctKeys v := Sample.plain_ints (by simp [a])
private theorem pb : ∀ k v, Dict.get? b k = some v → NoStruct v ∧ DistinctKeys v := Sample.plain_ints (by simp [b])
private theorem ia : Instance Sample.point a := by unfold Instance; decide
private theorem ib : Instance Sample.point b := by unfold Instance; decide
private theorem qa : ProperValues Sample.classes a := properValues_plain (fun k v h => (pa k v h).1) fun k v h => (pa k v h).2
private theorem qb : ProperValues Sample.classes b := properValues_plain (fun k v h => (pb k v h).1) fun k v h => (pb k v h).2

private theorem la : Listable Sample.classes Sample.point a := ⟨0, Or.inl ⟨4, by decide, by decide, by decide⟩⟩
private theorem lb : Listable Sample.classes Sample.point b := ⟨0, Or.inl ⟨4, by decide, by decide, by decide⟩⟩

/-- `Point(x=1, y=UNDEFINED) == Point(x=1)` -/
example : EqReturns Sample.classes (.struct "Point" a) (.struct "Point" b) true := by
  rw [C59_equal_iff (d := Sample.point) (d' := Sample.point) rfl rfl ia ib qa qb la lb
    (definedValues_plain ia.1 fun k v h => (pa k v h).1) (definedValues_plain ib.1 fun k v h => (pb k v h).1)]
  simp only [true_iff]
  refine .dict (fun k => Iff.rfl) fun k x y hx hy => ?_
  have : x = y := by
    have hab : (a.filter fun p => decide (p.2 ≠ .undefined)) = b.filter fun p => decide (p.2 ≠ .undefined) := by decide
    rw [hab] at hx; rw [hx] at hy; simpa using hy
  subst this
  have := Dict.get?_some_mem hx
  have : (k, x) ∈ [("x", Value.int 1)] := this
  simp at this
  rw [this.2]; exact .scalar rfl

example : EqReturns Sample.classes (.struct "Point" b) (.struct "Point" a) true :=
  C59_symmetric (d := Sample.point) (d' := Sample.point) rfl rfl ia ib qa qb ⟨5, by decide⟩

example : EqReturns Sample.classes (.struct "Point" b) (.struct "Point" b) true :=
  C59_only_defined_values (c := "Point") (d := Sample.point) (d' := Sample.point) (d'' := Sample.point) rfl rfl rfl ia ib ib qa qb lb
    (fun k => by
      simp only [setValue, a, b, Dict.get?_cons, Dict.get?_nil]
      by_cases hx : "x" = k
      · simp [hx]
      · by_cases hy : "y" = k <;> simp [hx, hy]) ⟨5, by decide⟩

example : EqReturns Sample.classes (.dict b) (.struct "Point" a) true :=
  (C59_dict_iff (d := Sample.point) rfl ia qa la (definedValues_plain ia.1 fun k v h => (pa k v h).1)
    (.dict (by simp [b]; exact .int 1)) (.dict (by decide) (by simp [b]; exact .other (by simp) (by simp)))).2.2 (by
      simp only [true_iff]
      refine .dict (fun k => Iff.rfl) fun k x y hx hy => ?_
      have hx' : Dict.get? b k = some x := hx
      rw [hx'] at hy; simp at hy; subst hy
      have : (k, x) ∈ [("x", Value.int 1)] := Dict.get?_some_mem hx
      simp at this
      rw [this.2]; exact .scalar rfl)

example : EqReturns Sample.classes (.struct "Point" a) (.struct "Point" a) true :=
  C59_reflexive_partial (d := Sample.point) rfl ia qa la (definedValues_plain ia.1 fun k v h => (pa k v h).1) (by
    intro k w hw
    have : (k, w) ∈ [("x", Value.int 1)] := Dict.get?_some_mem hw
    simp at this
    rw [this.2]; exact .scalar rfl)
end

end Verif
