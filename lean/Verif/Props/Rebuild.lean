import Verif.Proofs.Rebuild
import Verif.Props.Equality

/-! # C93: a struct can be rebuilt from its dictionary -/
namespace Verif
open Verif.Spec

/-- **C93** `Struct(**s.to_dict())` is accepted, and its dictionary is the one it was built from: the same keys, in the same
order, with the same values.  With `keep_discardable=True` as without. -/
theorem C93_rebuild {Γ : Classes} {n : Nat} {d : StructDesc} {vals T : Dict} {keep : Bool} (hd : UniqueNames d)
    (hi : Instance d vals) (h : structToDict Γ n d vals keep = .ok T) (hp : StillPresent d T) (hr : Recoverable d T) :
    structInit d T = .ok T ∧ structToDict Γ n d T keep = .ok T := by
  obtain ⟨h1, h2⟩ := structToDict_self hd hi h hp hr
  refine ⟨?_, h2⟩
  have : (Dict.keys T).filter (fun k => !d.has k) = [] := by
    rw [List.filter_eq_nil_iff]
    intro k hk
    simp [has_iff.2 (h1.2 k hk)]
  simp only [structInit, this, ne_eq, not_true_eq_false, if_false]

/-- The rebuilt struct is dumped like the original: the same bytes, or the same exception after the same bytes - as long as it
passes the class's validators, which are shown dictionaries where the original held structs. -/
theorem C93_same_bytes {Γ : Classes} {n : Nat} {d : StructDesc} {vals T : Dict} {keep : Bool} {ctx : Value} (hd : UniqueNames d)
    (hi : Instance d vals) (h : structToDict Γ n d vals keep = .ok T) (hp : StillPresent d T) (hr : Recoverable d T)
    (hv : validateContents d vals = .ok ()) (hv' : validateContents d T = .ok ()) :
    structToStream Γ (n + 1) d T ctx = structToStream Γ (n + 1) d vals ctx := by
  obtain ⟨-, h2⟩ := structToDict_self hd hi h hp hr
  have h3 : structToDict Γ n d T false = structToDict Γ n d vals false := by
    cases keep with
    | false => rw [h2, h]
    | true => rw [structToDict_discard h2, structToDict_discard h]
  simp only [structToStream, structToStreamWith, hv, hv', h3]

/-- Classes without `present` callables, validators or discarded fields: rebuilding always works. -/
theorem C93_plain {Γ : Classes} {n : Nat} {d : StructDesc} {vals T : Dict} {ctx : Value} (hd : UniqueNames d) (hi : Instance d vals)
    (hpr : ∀ f ∈ d.components, ∀ all, f.base.present all .none none = .ok true) (hdis : ∀ f ∈ d.components, f.base.discard = false)
    (hsv : d.structValidators = []) (hfv : ∀ p ∈ d.fieldValidators, p.1 ∈ names d ∧ p.2 = [])
    (hf : ∀ f ∈ d.components, f.base.validators = []) (h : structToDict Γ n d vals = .ok T)
    (hv : validateContents d vals = .ok ()) :
    structInit d T = .ok T ∧ structToDict Γ n d T = .ok T ∧
      structToStream Γ (n + 1) d T ctx = structToStream Γ (n + 1) d vals ctx := by
  have hp : StillPresent d T := fun f hf _ _ _ => hpr f hf _
  have hall : ∀ f ∈ d.components, ∃ w, Dict.get? T f.name = some w := by
    intro f hf
    rcases (structToDict_get hd hi h).2.2 f hf with ⟨-, h1, -⟩ | ⟨-, v, w, -, -, h1⟩
    · rw [hdis f hf] at h1; simp at h1
    · exact ⟨w, h1⟩
  have hr : Recoverable d T := by
    intro f hf hg
    obtain ⟨w, hw⟩ := hall f hf
    rw [hg] at hw; simp at hw
  have hv' : validateContents d T = .ok () := by
    have : ∀ ps : List (String × List (View → Value → Except Err Unit)), (∀ p ∈ ps, p.1 ∈ names d ∧ p.2 = []) →
        runAll (validateField d T) ps = .ok () := by
      intro ps
      induction ps with
      | nil => intro _; rfl
      | cons p ps ih =>
        intro hps
        obtain ⟨h1, h2⟩ := hps p (List.mem_cons_self ..)
        obtain ⟨f, hfm, hfn⟩ := List.mem_map.1 h1
        obtain ⟨w, hw⟩ := hall f hfm
        rw [hfn] at hw
        have h3 := find?_of_mem hd hfm
        rw [hfn] at h3
        have : validateField d T p = .ok () := by
          simp only [validateField, h3, structGetItem_some h1 hw, hf f hfm, runValidators, h2, runAll]
        simp only [runAll, this]
        exact ih fun q hq => hps q (List.mem_cons_of_mem _ hq)
    simp only [validateContents, this _ hfv, hsv, runAll]
  obtain ⟨h1, h2⟩ := C93_rebuild hd hi h hp hr
  exact ⟨h1, h2, C93_same_bytes hd hi h hp hr hv hv'⟩

/-- `Outer(inner=Inner(x=1))`, the class of the samples of C59: `Outer(**{"inner": {"x": 1, "y": 7}})` is dumped the same way. -/
example : structToDict Sample.nestedClasses 4 Sample.outer [("inner", .struct "Inner" [("x", .int 1)])] =
      .ok [("inner", .dict [("x", .int 1), ("y", .int 7)])] ∧
    structToStream Sample.nestedClasses 9 Sample.outer [("inner", .dict [("x", .int 1), ("y", .int 7)])] .none =
      structToStream Sample.nestedClasses 9 Sample.outer [("inner", .struct "Inner" [("x", .int 1)])] .none ∧
    structToBytes Sample.nestedClasses 9 Sample.outer [("inner", .struct "Inner" [("x", .int 1)])] .none = .ok [1, 7] := by
  refine ⟨by decide, ?_, by decide⟩
  refine (C93_plain (n := 8) (T := [("inner", .dict [("x", .int 1), ("y", .int 7)])]) ?_ ?_ ?_ ?_ rfl ?_ ?_ ?_ ?_).2.2
  · unfold UniqueNames; decide
  · unfold Instance; decide
  · intro f hf; simp [Sample.outer] at hf; subst hf; intro all; rfl
  · decide
  · decide
  · intro f hf; simp [Sample.outer] at hf; subst hf; rfl
  · decide
  · decide

namespace Sample

/-- `lambda f, *_: f["flag"] == 1` -/
def flagIsOne (all : View) : Except Err Bool := (all.get "flag").map fun v => decide (v = .int 1)

/-- ```
class Flagged(Struct):
    flag = UInt8()
    extra = UInt8(present=lambda f, *_: f["flag"] == 1)
    check = UInt8(default=3, discard=True)
``` -/
def flagged : StructDesc :=
  { name := "Flagged"
    components := [upd (u8 "flag") ({ · with offset := some 0 }),
      upd (u8 "extra") ({ · with index := 1, offset := some 1, present := fun all _ _ => flagIsOne all }),
      upd (u8 "check") ({ · with index := 2, dflt := .int 3, discard := true })]
    fieldValidators := [("flag", []), ("extra", []), ("check", [])], numOwnFields := 3 }

end Sample

/-- An optional field and a discarded one: `Flagged(flag=1, extra=5, check=9).to_dict()` leaves out `check`, which has a default. -/
example : structToDict Sample.noClasses 3 Sample.flagged [("flag", .int 1), ("extra", .int 5), ("check", .int 9)] =
      .ok [("flag", .int 1), ("extra", .int 5)] ∧
    UniqueNames Sample.flagged ∧ Instance Sample.flagged [("flag", .int 1), ("extra", .int 5), ("check", .int 9)] ∧
    StillPresent Sample.flagged [("flag", .int 1), ("extra", .int 5)] ∧
    Recoverable Sample.flagged [("flag", .int 1), ("extra", .int 5)] ∧
    validateContents Sample.flagged [("flag", .int 1), ("extra", .int 5), ("check", .int 9)] = .ok () ∧
    validateContents Sample.flagged [("flag", .int 1), ("extra", .int 5)] = .ok () := by
  refine ⟨by decide, by unfold UniqueNames; decide, by unfold Instance; decide, ?_, ?_, by decide, by decide⟩
  · intro f hf v hv _
    simp [Sample.flagged] at hf
    rcases hf with rfl | rfl | rfl
    · rfl
    · decide
    · rfl
  · intro f hf hg
    simp [Sample.flagged] at hf
    rcases hf with rfl | rfl | rfl
    · exact absurd hg (by decide)
    · exact absurd hg (by decide)
    · exact ⟨.int 3, by decide⟩

namespace Sample

/-- ```
class Checked(Struct):
    inner = Nested(Inner)
    @validates_struct
    def check(self): assert isinstance(self.inner, Inner)
``` -/
def checked : StructDesc :=
  { outer with
    name := "Checked"
    structValidators := [fun all =>
      match all.get "inner" with
      | .ok (.struct _ _) => .ok ()
      | .ok _ => .error .attributeErr
      | .error e => .error e] }

end Sample

/-- A validator that looks into a nested struct accepts the original and fails on the rebuilt struct, which holds a dictionary:
`Struct(**s.to_dict())` cannot be dumped although `s` can. -/
theorem C93_validator_refuted :
    ∃ (Γ : Classes) (d : StructDesc) (vals T : Dict), UniqueNames d ∧ Instance d vals ∧ structToDict Γ 8 d vals = .ok T ∧
      StillPresent d T ∧ Recoverable d T ∧ (∃ bs, structToBytes Γ 9 d vals .none = .ok bs) ∧
      ∀ n bs, structToBytes Γ n d T .none ≠ .ok bs := by
  refine ⟨Sample.nestedClasses, Sample.checked, [("inner", .struct "Inner" [("x", .int 1)])],
    [("inner", .dict [("x", .int 1), ("y", .int 7)])], by unfold UniqueNames; decide, by unfold Instance; decide, by decide, ?_, ?_,
    ⟨[1, 7], by decide⟩, ?_⟩
  · intro f hf; simp [Sample.checked, Sample.outer] at hf; subst hf; intros; rfl
  · intro f hf hg; simp [Sample.checked, Sample.outer] at hf; subst hf; exact absurd hg (by decide)
  · intro n bs
    cases n with
    | zero => intro h; simp [structToBytes, structToStream, W.toExcept, W.fail] at h
    | succ n =>
      have : validateContents Sample.checked [("inner", .dict [("x", .int 1), ("y", .int 7)])] = .error .attributeErr := by rfl
      intro h
      simp [structToBytes, structToStream, structToStreamWith, this, W.toExcept, W.fail] at h

namespace Sample

/-- ```
class Counted(Struct):
    mode = UInt8(default=0)
    extra = UInt8(default=5, present=lambda f, *_: "mode" not in f)
``` -/
def counted : StructDesc :=
  { name := "Counted"
    components := [upd (u8 "mode") ({ · with offset := some 0, dflt := .int 0 }),
      upd (u8 "extra") ({ · with index := 1, offset := some 1, dflt := .int 5, present := fun all _ _ => .ok (!all.contains "mode") })]
    fieldValidators := [("mode", []), ("extra", [])], numOwnFields := 2 }

end Sample

/-- A `present` callable that asks whether a field was set sees a difference: the dictionary of the rebuilt struct differs. -/
theorem C93_present_refuted :
    ∃ (Γ : Classes) (d : StructDesc) (vals T T' : Dict), UniqueNames d ∧ Instance d vals ∧ structToDict Γ 3 d vals = .ok T ∧
      structInit d T = .ok T ∧ structToDict Γ 3 d T = .ok T' ∧ T' ≠ T := by
  refine ⟨Sample.noClasses, Sample.counted, [], [("mode", .int 0), ("extra", .int 5)], [("mode", .int 0), ("extra", .notPresent)],
    by unfold UniqueNames; decide, by unfold Instance; decide, by decide, by decide, by decide, by decide⟩

end Verif
