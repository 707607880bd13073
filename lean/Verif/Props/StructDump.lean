import Verif.Proofs.ToDict
import Verif.Spec.Samples

/-!
# Dumping structs

C16 (dumping), C19, C20 (structs), C28, C29, C32, C33, C37 (`to_dict`), C38, C64.
-/

namespace Verif
open Spec

/-! ## C28, C29: what `Struct.to_stream` writes -/

/-- **C28** `Struct.to_stream` succeeds with output `bs` exactly if all checks pass, `to_dict` succeeds, and `bs` is the
concatenation of the contributions of the fields in declaration order. -/
theorem C28_dump_is_concatenation (Γ : Classes) (n : Nat) (d : StructDesc) (vals : Dict) (ctx : Value) (bs : Bytes) :
    structToStream Γ (n + 1) d vals ctx = (bs, .ok ()) ↔
      Valid d vals ∧ ∃ all, structToDict Γ n d vals = .ok all ∧
        ∃ parts, Parts Γ n ctx all d.components parts ∧ bs = parts.flatten :=
  structToStream_ok_iff

/-- **C29** If `Struct.to_stream` raises, the output is the concatenation of the complete contributions of the fields before the
one that failed — nothing at all if a check or `to_dict` failed. -/
theorem C29_failing_dump_prefix (Γ : Classes) (n : Nat) (d : StructDesc) (vals : Dict) (ctx : Value) (bs : Bytes) (e : Err)
    (h : structToStream Γ (n + 1) d vals ctx = (bs, .error e)) :
    (bs = [] ∧ (¬ Valid d vals ∨ structToDict Γ n d vals = .error e)) ∨
    ∃ all pre f post parts, structToDict Γ n d vals = .ok all ∧ d.components = pre ++ f :: post ∧
      Parts Γ n ctx all pre parts ∧ bs = parts.flatten ∧ ∀ p, ¬ Part Γ n ctx all f p := by
  simp only [structToStream, structToStreamWith] at h
  split at h
  · rename_i e' hv
    simp only [W.fail, Prod.mk.injEq, Except.error.injEq] at h
    refine Or.inl ⟨h.1.symm, Or.inl fun hval => ?_⟩
    rw [validateContents_ok_iff.2 hval] at hv; simp at hv
  · split at h
    · rename_i e' ha
      simp only [W.fail, Prod.mk.injEq, Except.error.injEq] at h
      exact Or.inl ⟨h.1.symm, Or.inr (by rw [ha, h.2])⟩
    · rename_i all ha
      right
      obtain ⟨pre, f, post, ps, h1, h2, h3, h4⟩ := dumpFields_error h
      refine ⟨all, pre, f, post, ps, ha, h1, h2, h3, ?_⟩
      intro p hp
      obtain ⟨v, hv, h5⟩ := part_iff.1 hp
      rcases h4 with h4 | ⟨w, hw, h4⟩
      · rw [hv] at h4; simp at h4
      · rw [computeValueForDump_dumped hw] at hv
        simp at hv; subst hv
        rcases h5 with ⟨h5, -⟩ | ⟨-, h5⟩
        · exact hw.2.1 h5
        · rw [h5] at h4; simp at h4

example : structToStream Sample.classes 8 Sample.packet
    [("n", .int 2), ("payload", .bytes [7, 8]),
     ("points", .list [.struct "Point" [("x", .int 1), ("y", .int 2)], .dict [("x", .int (-1)), ("y", .int 3)]])] .none =
    ([2, 7, 8, 1, 0, 2, 0, 0xFF, 0xFF, 3, 0], .ok ()) := by decide
-- the second point is out of range: the fields before `points` have been written
example : structToStream Sample.classes 8 Sample.packet
    [("n", .int 2), ("payload", .bytes [7, 8]),
     ("points", .list [.struct "Point" [("x", .int 1), ("y", .int 2)], .dict [("x", .int 40000), ("y", .int 3)]])] .none =
    ([2, 7, 8], .error (.unserializable "x")) := by decide

/-! ## C16: absent fields -/

/-- **C16** (dumping) A field whose `present` callable says no contributes nothing to the dump of its struct, whatever value is set
for it. -/
theorem C16_absent_dumps_nothing (Γ : Classes) (n : Nat) (ctx : Value) (all : Dict) (f : Field) (p : Bytes)
    (habsent : f.base.present all.view ctx none = .ok false) (h : Part Γ n ctx all f p) : p = [] := by
  rcases h with ⟨-, h⟩ | ⟨v, ⟨-, -, -, h⟩, -⟩
  · exact h
  · rw [habsent] at h; simp at h

/-- **C16** (dumping, whole struct) Removing an absent field from the layout does not change what the other fields write. -/
theorem C16_absent_no_footprint (Γ : Classes) (n : Nat) (d : StructDesc) (vals : Dict) (ctx : Value) (bs : Bytes)
    (pre post : List Field) (f : Field) (hf : d.components = pre ++ f :: post)
    (habsent : ∀ all : Dict, structToDict Γ n d vals = .ok all → f.base.present all.view ctx none = .ok false)
    (h : structToStream Γ (n + 1) d vals ctx = (bs, .ok ())) :
    ∃ all before after, structToDict Γ n d vals = .ok all ∧ Parts Γ n ctx all pre before ∧ Parts Γ n ctx all post after ∧
      bs = before.flatten ++ after.flatten := by
  obtain ⟨all, as, p, cs, h1, h2, h3, h4, h5⟩ := structToStream_part h hf
  refine ⟨all, as, cs, h1, h3, h5, ?_⟩
  rw [h2, C16_absent_dumps_nothing Γ n ctx all f p (habsent all h1) h4]; simp

/-- A struct with an optional second field: it is there if the first one is not zero. -/
def Sample.optional : StructDesc :=
  { name := "Optional"
    components := [Sample.u8 "flag", Sample.upd (Sample.u16 "x") ({ · with
      index := 1, present := fun v _ _ => (v.get "flag").map fun x => decide (x ≠ .int 0) }), Sample.u8 "z"]
    fieldValidators := [("flag", []), ("x", []), ("z", [])] }

example : structToStream Sample.noClasses 3 Sample.optional [("flag", .int 0), ("x", .int 5), ("z", .int 9)] .none =
    ([0, 9], .ok ()) := by decide
example : structToStream Sample.noClasses 3 Sample.optional [("flag", .int 1), ("x", .int 5), ("z", .int 9)] .none =
    ([1, 0, 5, 9], .ok ()) := by decide

/-! ## C20: validators -/

/-- **C20** (struct dump) A struct dump that succeeds has passed every validator method and struct validator, and every value
that was written was accepted by all the validators of its field. -/
theorem C20_struct_dump_validates (Γ : Classes) (n : Nat) (d : StructDesc) (vals : Dict) (ctx : Value) (bs : Bytes)
    (h : structToStream Γ (n + 1) d vals ctx = (bs, .ok ())) :
    Valid d vals ∧ ∃ all, structToDict Γ n d vals = .ok all ∧
      ∀ f ∈ d.components, ∀ v, Dumped f all ctx v → ∃ w, Effective f v w ∧ Accepts f w := by
  obtain ⟨hv, all, ha, ps, hps, -⟩ := structToStream_ok_iff.1 h
  refine ⟨hv, all, ha, ?_⟩
  have key : ∀ fs ps, Parts Γ n ctx all fs ps → ∀ f ∈ fs, ∀ v, Dumped f all ctx v →
      ∃ w, Effective f v w ∧ Accepts f w := by
    intro fs ps hp
    induction hp with
    | nil => simp
    | @cons g gs p ps h1 _ ih =>
      intro f hf v hdv
      rcases List.mem_cons.1 hf with rfl | hf
      · obtain ⟨u, hu, h2⟩ := part_iff.1 h1
        rw [computeValueForDump_dumped hdv] at hu
        simp at hu; subst hu
        rcases h2 with ⟨h2, -⟩ | ⟨-, h2⟩
        · exact absurd h2 hdv.2.1
        · cases n with
          | zero => cases f <;> simp [fieldToStream, W.fail] at h2
          | succ n =>
            rw [fieldToStream_succ] at h2
            obtain ⟨w, hw, -, -, h3, -⟩ := toStreamWith_ok h2
            refine ⟨w, ?_, h3⟩
            by_cases hvd : v = .dflt
            · right; simp [hvd] at hw; exact ⟨hvd, hw⟩
            · left; simp [hvd] at hw; exact ⟨hvd, hw.symm⟩
      · exact ih f hf v hdv
  exact key _ _ hps

/-- **C20** (struct dump, failing) If some validator method or struct validator rejects, the dump raises and writes nothing. -/
theorem C20_struct_dump_invalid (Γ : Classes) (n : Nat) (d : StructDesc) (vals : Dict) (ctx : Value) (h : ¬ Valid d vals) :
    ∃ e, structToStream Γ (n + 1) d vals ctx = ([], .error e) := by
  simp only [structToStream, structToStreamWith]
  cases hv : validateContents d vals with
  | ok u => exact absurd (validateContents_ok_iff.1 hv) h
  | error e => exact ⟨e, rfl⟩

/-! ## C32: where values come from -/

/-- **C32** `compute_value_for_dump` returns the value chosen by the documented precedence; `NOT_PRESENT` if that is the chosen value or the
field is not present. -/
theorem C32_value_precedence (b : FieldBase) (all : View) (ctx w : Value) :
    b.computeValueForDump all ctx = .ok w ↔
      ∃ v, Chosen b all v ∧
        ((w = .notPresent ∧ (v = .notPresent ∨ b.present all ctx none = .ok false)) ∨
         (w = v ∧ v ≠ .notPresent ∧ v ≠ .undefined ∧ b.present all ctx none = .ok true)) := by
  constructor
  · exact computeValueForDump_ok
  · rintro ⟨v, hv, h⟩
    rw [computeValueForDump_of_chosen hv]
    by_cases hn : v = .notPresent
    · rw [if_pos hn]
      rcases h with ⟨rfl, -⟩ | ⟨-, h, -⟩
      · rfl
      · exact absurd hn h
    · rw [if_neg hn]
      rcases h with ⟨rfl, h | h⟩ | ⟨rfl, -, h2, h3⟩
      · exact absurd h hn
      · rw [h]
      · rw [h3]; simp [h2]

/-- **C32** If there is no value at all for a field that is present, `MissingRequiredValueError` is raised. -/
theorem C32_missing_value (b : FieldBase) (all : View) (ctx : Value) (h : Chosen b all .undefined)
    (hp : b.present all ctx none = .ok true) : b.computeValueForDump all ctx = .error (.missingRequired b.name) := by
  rw [computeValueForDump_of_chosen h, hp]; simp

/-- The field is present, both for `to_dict` and for the dump itself. -/
def Spec.PresentFor (Γ : Classes) (n : Nat) (d : StructDesc) (vals : Dict) (ctx : Value) (f : Field) : Prop :=
  f.base.present (structView d vals) .none none = .ok true ∧
  ∀ all : Dict, structToDict Γ n d vals = .ok all → f.base.present all.view ctx none = .ok true

/-- **C32** (struct) In a successful dump a present field that is not discarded is written with the value chosen by the documented
precedence (nested structs converted to dictionaries). -/
theorem C32_struct_dumps_chosen_value (Γ : Classes) (n : Nat) (d : StructDesc) (vals : Dict) (ctx v : Value) (bs : Bytes)
    (pre post : List Field) (f : Field) (hd : UniqueNames d) (hi : Instance d vals) (hf : d.components = pre ++ f :: post)
    (hdisc : f.base.discard = false) (hp : PresentFor Γ n d vals ctx f) (hv : Chosen f.base (structView d vals) v)
    (h1 : v ≠ .notPresent) (h2 : v ≠ .undefined) (h : structToStream Γ (n + 1) d vals ctx = (bs, .ok ())) :
    ∃ all before p after w, structToDict Γ n d vals = .ok all ∧ recursiveToDicts Γ n v = .ok w ∧
      Parts Γ n ctx all pre before ∧ fieldToStream Γ n f w ctx all = (p, .ok ()) ∧ Parts Γ n ctx all post after ∧
      bs = before.flatten ++ p ++ after.flatten := by
  obtain ⟨all, as, p, cs, h3, h4, h5, h6, h7⟩ := structToStream_part h hf
  have hfm : f ∈ d.components := by rw [hf]; simp
  have hcv : f.base.computeValueForDump (structView d vals) .none = .ok v := by
    rw [computeValueForDump_of_chosen hv, if_neg h1, hp.1]; simp [h2]
  obtain ⟨-, -, h8⟩ := structToDict_get hd hi h3
  rcases h8 f hfm with ⟨-, h9, -⟩ | ⟨-, v', w, h9, h10, h11⟩
  · rw [hdisc] at h9; simp at h9
  · have hvv : v' = v := by
      rcases h9 with h9 | ⟨e, h9, -⟩
      · rw [hcv] at h9; simp at h9; exact h9.symm
      · rw [hcv] at h9; simp at h9
    subst hvv
    have hcw : Chosen f.base all.view w := by
      apply Chosen.explicit
      · show Dict.contains all f.name = true
        rw [Dict.contains_eq, h11]; rfl
      · show (match Dict.get? all f.name with
          | some v => Except.ok v
          | none => .error (Err.keyErr f.name)) = .ok w
        rw [h11]
    obtain ⟨m1, m2, -, -⟩ := recursiveToDicts_marker h10
    refine ⟨all, as, p, cs, w, h3, h10, h5, ?_, h7, h4⟩
    rcases h6 with ⟨⟨u, hu, h6⟩, -⟩ | ⟨u, hu, h6⟩
    · have := Chosen.unique hu hcw; subst this
      rcases h6 with h6 | h6
      · exact absurd (m1 h6) h1
      · rw [hp.2 all h3] at h6; simp at h6
    · have := Chosen.unique hu.1 hcw; subst this; exact h6

/-- **C32** (struct) A present field without any value makes the dump raise, with nothing written. -/
theorem C32_struct_missing_value (Γ : Classes) (n : Nat) (d : StructDesc) (vals : Dict) (ctx : Value) (f : Field)
    (hd : UniqueNames d) (hi : Instance d vals) (hf : f ∈ d.components) (hdisc : f.base.discard = false)
    (hp : ∀ all ctx, f.base.present all ctx none = .ok true) (hset : Dict.get? vals f.name = none)
    (hdflt : f.base.dflt = .undefined) (hcomp : f.base.computeFn = none) :
    ∃ e, structToStream Γ (n + 1) d vals ctx = ([], .error e) := by
  simp only [structToStream, structToStreamWith]
  cases hv : validateContents d vals with
  | error e => exact ⟨e, rfl⟩
  | ok u =>
    simp only
    cases ha : structToDict Γ n d vals with
    | error e => exact ⟨e, rfl⟩
    | ok all =>
      exfalso
      obtain ⟨-, -, h8⟩ := structToDict_get hd hi ha
      have hnone : structContains vals f.name = false := by
        cases hc : structContains vals f.name with
        | false => rfl
        | true => obtain ⟨v, hv, -⟩ := (structContains_iff hi.1).1 hc; rw [hset] at hv; simp at hv
      have hc1 : Chosen f.base (structView d vals) .undefined := .nothing hnone hdflt hcomp
      rcases h8 f hf with ⟨-, h9, -⟩ | ⟨-, v', w, h9, h10, h11⟩
      · rw [hdisc] at h9; simp at h9
      · rcases h9 with h9 | ⟨e, -, -, ⟨h9, -⟩ | ⟨-, dct, -, h12, h13⟩⟩
        · rw [C32_missing_value _ _ _ hc1 (hp _ _)] at h9; simp at h9
        · rw [hnone] at h9; simp at h9
        · have hc2 : Chosen f.base (Dict.view dct) .undefined := by
            refine .nothing ?_ hdflt hcomp
            show Dict.contains dct f.name = false
            rw [Dict.contains_eq, h12]; rfl
          rw [C32_missing_value _ _ _ hc2 (hp _ _)] at h13; simp at h13

example : structToStream Sample.noClasses 3 Sample.point [("x", .int 5)] .none = ([], .error (.missingRequired "y")) := by
  decide

/-! ## C38: explicit values -/

/-- **C38** (refuted) An explicitly set value is not always the one that is dumped: `to_dict()`, which the dump uses, drops the
values of fields marked `discard`, so the default is written instead. -/
theorem C38_explicit_value_dumped_refuted :
    ¬ ∀ (Γ : Classes) (n : Nat) (d : StructDesc) (vals : Dict) (ctx v : Value) (bs p : Bytes) (f : Field),
      UniqueNames d → Instance d vals → d.components = [f] → f.base.computeFn = none →
      (∀ all ctx, f.base.present all ctx none = .ok true) → Dict.get? vals f.name = some v → NoStruct v →
      structToStream Γ (n + 1) d vals ctx = (bs, .ok ()) → fieldToStream Γ n f v ctx vals = (p, .ok ()) → bs = p := by
  intro h
  have := h Sample.noClasses 2
    { name := "S", components := [Sample.upd (Sample.u8 "x") ({ · with discard := true, dflt := .int 1 })] }
    [("x", .int 7)] .none (.int 7) [1] [7] (Sample.upd (Sample.u8 "x") ({ · with discard := true, dflt := .int 1 }))
    (by simp [UniqueNames, names]) ⟨by decide, by decide⟩ rfl rfl (fun _ _ => rfl) (by decide) (.int _) (by decide) (by decide)
  simp at this

/-- **C38** (partial: fields that are not discarded) In a successful dump, a present field with an explicitly set value is written with
that value; if the value contains no struct instance, with exactly that value. -/
theorem C38_explicit_value_dumped_partial (Γ : Classes) (n : Nat) (d : StructDesc) (vals : Dict) (ctx v : Value) (bs : Bytes)
    (pre post : List Field) (f : Field) (hd : UniqueNames d) (hi : Instance d vals) (hf : d.components = pre ++ f :: post)
    (hdisc : f.base.discard = false) (hp : PresentFor Γ n d vals ctx f) (hset : Dict.get? vals f.name = some v)
    (h1 : v ≠ .notPresent) (h2 : v ≠ .undefined) (h : structToStream Γ (n + 1) d vals ctx = (bs, .ok ())) :
    ∃ all before p after w, structToDict Γ n d vals = .ok all ∧ recursiveToDicts Γ n v = .ok w ∧ (NoStruct v → w = v) ∧
      Parts Γ n ctx all pre before ∧ fieldToStream Γ n f w ctx all = (p, .ok ()) ∧ Parts Γ n ctx all post after ∧
      bs = before.flatten ++ p ++ after.flatten := by
  have hc : Chosen f.base (structView d vals) v := by
    apply Chosen.explicit
    · exact (structContains_iff hi.1).2 ⟨v, hset, h2⟩
    · exact structGetItem_some (hi.2 _ (Dict.get?_some_key hset)) hset
  obtain ⟨all, as, p, cs, w, h3, h4, h5, h6, h7, h8⟩ :=
    C32_struct_dumps_chosen_value Γ n d vals ctx v bs pre post f hd hi hf hdisc hp hc h1 h2 h
  exact ⟨all, as, p, cs, w, h3, h4, (recursiveToDicts_spec h4).2, h5, h6, h7, h8⟩

/-! ## C19: const -/

/-- **C19** (refuted) A const field does not always dump its const value: the constructor accepts another value for it, and nothing
checks it when dumping. -/
theorem C19_const_always_dumped_refuted :
    ¬ ∀ (Γ : Classes) (n : Nat) (d : StructDesc) (kwargs vals : Dict) (ctx : Value) (bs p : Bytes) (f : Field),
      UniqueNames d → d.components = [f] → f.base.const ≠ .undefined → f.base.dflt = f.base.const →
      structInit d kwargs = .ok vals → structToStream Γ (n + 1) d vals ctx = (bs, .ok ()) →
      fieldToStream Γ n f f.base.const ctx vals = (p, .ok ()) → bs = p := by
  intro h
  have := h Sample.noClasses 2
    { name := "S", components := [Sample.upd (Sample.u8 "magic") ({ · with const := .int 1, dflt := .int 1 })] }
    [("magic", .int 7)] [("magic", .int 7)] .none [7] [1]
    (Sample.upd (Sample.u8 "magic") ({ · with const := .int 1, dflt := .int 1 }))
    (by simp [UniqueNames, names]) rfl (by decide) rfl (by decide) (by decide) (by decide)
  simp at this

/-- **C19** (partial: no value was stored for the field) A present const field for which the instance stores no value is dumped with its
const value.  (`default` and `factory` not given, so that the const is the default.) -/
theorem C19_const_dumped_partial (Γ : Classes) (n : Nat) (d : StructDesc) (vals : Dict) (ctx : Value) (bs : Bytes)
    (pre post : List Field) (f : Field) (hd : UniqueNames d) (hi : Instance d vals) (hf : d.components = pre ++ f :: post)
    (hp : PresentFor Γ n d vals ctx f) (hconst : f.base.const ≠ .undefined) (hdflt : f.base.dflt = f.base.const)
    (hfac : f.base.factory = none) (hset : Dict.get? vals f.name = none) (h1 : f.base.const ≠ .notPresent)
    (hns : NoStruct f.base.const) (h : structToStream Γ (n + 1) d vals ctx = (bs, .ok ())) :
    ∃ all before p after, structToDict Γ n d vals = .ok all ∧
      Parts Γ n ctx all pre before ∧ fieldToStream Γ n f f.base.const ctx all = (p, .ok ()) ∧
      Parts Γ n ctx all post after ∧ bs = before.flatten ++ p ++ after.flatten := by
  have hnone : structContains vals f.name = false := by
    cases hc : structContains vals f.name with
    | false => rfl
    | true => obtain ⟨v, hv, -⟩ := (structContains_iff hi.1).1 hc; rw [hset] at hv; simp at hv
  have hdef : f.base.default = .ok f.base.const := by simp [FieldBase.default, hfac, hdflt]
  have hc : Chosen f.base (structView d vals) f.base.const := .default hnone (by rw [hdflt]; exact hconst) hdef
  cases hdisc : f.base.discard with
  | false =>
    obtain ⟨all, as, p, cs, w, h3, h4, h5, h6, h7, h8⟩ :=
      C32_struct_dumps_chosen_value Γ n d vals ctx _ bs pre post f hd hi hf hdisc hp hc h1 hconst h
    rw [(recursiveToDicts_spec h4).2 hns] at h6
    exact ⟨all, as, p, cs, h3, h5, h6, h7, h8⟩
  | true =>
    obtain ⟨all, as, p, cs, h3, h4, h5, h6, h7⟩ := structToStream_part h hf
    obtain ⟨-, -, h8⟩ := structToDict_get hd hi h3
    rcases h8 f (by rw [hf]; simp) with ⟨-, -, h9⟩ | ⟨h9, -⟩
    · have hc2 : Chosen f.base all.view f.base.const := by
        refine .default ?_ (by rw [hdflt]; exact hconst) hdef
        show Dict.contains all f.name = false
        rw [Dict.contains_eq, h9]; rfl
      refine ⟨all, as, p, cs, h3, h5, ?_, h7, h4⟩
      rcases h6 with ⟨⟨u, hu, h6⟩, -⟩ | ⟨u, hu, h6⟩
      · have := Chosen.unique hu hc2; subst this
        rcases h6 with h6 | h6
        · exact absurd h6 h1
        · rw [hp.2 all h3] at h6; simp at h6
      · have := Chosen.unique hu.1 hc2; subst this; exact h6
    · simp [hdisc] at h9

example : structToStream Sample.noClasses 3
    { name := "S", components := [Sample.u8 "a", Sample.upd (Sample.u8 "magic") ({ · with const := .int 1, dflt := .int 1 })] }
    [("a", .int 4)] .none = ([4, 1], .ok ()) := by decide

/-! ## C33: factories -/

/-- **C33** (refuted) `factory` does not supply a value when a struct is dumped: `compute_value_for_dump` looks at the `default`
argument only, so a missing value is an error. -/
theorem C33_factory_default_refuted :
    ¬ ∀ (Γ : Classes) (n : Nat) (d : StructDesc) (vals : Dict) (ctx v : Value) (p : Bytes) (f : Field),
      UniqueNames d → Instance d vals → d.components = [f] → f.base.factory = some (.ok v) →
      (∀ all ctx, f.base.present all ctx none = .ok true) → Dict.get? vals f.name = none →
      fieldToStream Γ n f v ctx [] = (p, .ok ()) → ∃ bs, structToStream Γ (n + 1) d vals ctx = (bs, .ok ()) := by
  intro h
  have := h Sample.noClasses 2
    { name := "S", components := [Sample.upd (Sample.u8 "x") ({ · with factory := some (.ok (.int 5)) })] }
    [] .none (.int 5) [5] (Sample.upd (Sample.u8 "x") ({ · with factory := some (.ok (.int 5)) }))
    (by simp [UniqueNames, names]) ⟨by decide, by decide⟩ rfl rfl (fun _ _ => rfl) (by decide) (by decide)
  obtain ⟨bs, hbs⟩ := this
  have h2 : (structToStream Sample.noClasses 3
    { name := "S", components := [Sample.upd (Sample.u8 "x") ({ · with factory := some (.ok (.int 5)) })] }
    [] .none).2 = .error (.missingRequired "x") := by decide
  rw [hbs] at h2; simp at h2

/-- **C33** (refuted in general) No factory is ever consulted when dumping a struct: as long as no value is stored for a present field without
`default`, const or compute function, the dump raises whatever its factory. -/
theorem C33_factory_never_used (Γ : Classes) (n : Nat) (d : StructDesc) (vals : Dict) (ctx : Value) (f : Field)
    (hd : UniqueNames d) (hi : Instance d vals) (hf : f ∈ d.components) (hdisc : f.base.discard = false)
    (hp : ∀ all ctx, f.base.present all ctx none = .ok true) (hset : Dict.get? vals f.name = none)
    (hdflt : f.base.dflt = .undefined) (hcomp : f.base.computeFn = none) (v : Value)
    (_hfac : f.base.factory = some (.ok v)) : ∃ e, structToStream Γ (n + 1) d vals ctx = ([], .error e) :=
  C32_struct_missing_value Γ n d vals ctx f hd hi hf hdisc hp hset hdflt hcomp

/-- **C33** (partial: `Field.to_stream`) Dumping the `DEFAULT` marker through a field itself does use the factory. -/
theorem C33_factory_default_partial (Γ : Classes) (n : Nat) (f : Field) (v ctx : Value) (all : Dict)
    (hfac : f.base.factory = some (.ok v)) (hv : v ≠ .dflt) :
    fieldToStream Γ n f .dflt ctx all = fieldToStream Γ n f v ctx all := by
  cases n with
  | zero => cases f <;> rfl
  | succ n =>
    rw [fieldToStream_succ, fieldToStream_succ]
    simp only [toStreamWith, FieldBase.default, hfac, hv, if_true, if_false]

example : fieldToStream Sample.noClasses 2 (Sample.upd (Sample.u8 "x") ({ · with factory := some (.ok (.int 5)) })) .dflt
    .none [] = ([5], .ok ()) := by decide

/-! ## C37 (to_dict), C64 -/

/-- **C64** Nothing in the result of `to_dict` is a struct instance, at any depth. -/
theorem C64_to_dict_converted (Γ : Classes) (n : Nat) (d : StructDesc) (vals : Dict) (keep : Bool) (r : Dict)
    (h : structToDict Γ n d vals keep = .ok r) : NoStruct (.dict r) := by
  unfold structToDict at h
  split at h
  · simp at h
  · unfold mapDictE at h
    refine .dict (mapE_forall h ?_)
    intro p _ q hq
    obtain ⟨x, hx, rfl⟩ := Except.map_ok hq
    exact (recursiveToDicts_spec hx).1

/-- **C64** Values without struct instances are passed through unchanged. -/
theorem C64_plain_values_unchanged (Γ : Classes) (n : Nat) (v w : Value) (hv : NoStruct v)
    (h : recursiveToDicts Γ n v = .ok w) : w = v := (recursiveToDicts_spec h).2 hv

example : structToDict Sample.classes 4 Sample.packet
    [("n", .int 2), ("payload", .bytes [7, 8]), ("points", .list [.struct "Point" [("x", .int 1), ("y", .int 2)]])] =
    .ok [("n", .int 2), ("payload", .bytes [7, 8]), ("points", .list [.dict [("x", .int 1), ("y", .int 2)]])] := by decide

/-- **C37** (`to_dict`) The result of `to_dict()` has an entry for exactly the fields that are not discarded; with
`keep_discardable=True` for all fields. -/
theorem C37_to_dict_keys (Γ : Classes) (n : Nat) (d : StructDesc) (vals : Dict) (keep : Bool) (r : Dict)
    (hd : UniqueNames d) (hi : Instance d vals) (h : structToDict Γ n d vals keep = .ok r) (k : String) :
    k ∈ Dict.keys r ↔ ∃ f ∈ d.components, f.name = k ∧ (keep = true ∨ f.base.discard = false) := by
  obtain ⟨h1, h2, h3⟩ := structToDict_get hd hi h
  constructor
  · intro hk
    obtain ⟨f, hf, rfl⟩ := List.mem_map.1 (h2 k hk)
    refine ⟨f, hf, rfl, ?_⟩
    rcases h3 f hf with ⟨-, -, h4⟩ | ⟨h4, -⟩
    · exact absurd hk ((Dict.get?_none_iff r f.name).1 h4)
    · exact h4
  · rintro ⟨f, hf, rfl, h4⟩
    rcases h3 f hf with ⟨h5, h6, -⟩ | ⟨-, v, w, -, -, h5⟩
    · rcases h4 with h4 | h4 <;> simp_all
    · exact Dict.get?_some_key h5

end Verif
