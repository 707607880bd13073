import Verif.Proofs.Split
import Verif.Spec.Samples

/-!
# C123: how a class was declared leaves no trace in its format

* `C123_load`, `C123_dump`, `C123_partial`, `C123_inspect`: classes with the same fields and validators load and dump the same, whatever is
  recorded about the positions of the fields, their explicit arguments, the number of own fields and the options of the class;
* `C123_split`: a class may be split into a base class and a subclass;
* `C123_get_field_refuted`, `C123_get_field_partial`: `get_field` is the exception, as it goes to the recorded offset.
-/

namespace Verif
open Spec

theorem Spec.SameFormats.bare {Γ Δ : Classes} (h : SameFormats Γ Δ) : Γ.bare = Δ.bare := funext h

/-- Loading from a stream. -/
theorem C123_load (Γ Δ : Classes) (hΓ : SameFormats Γ Δ) (d e : StructDesc) (h : SameFormat d e) (n : Nat) (s : Stream) (ctx : Value) (kw : Dict) :
    structFromStream Γ n d s ctx kw = structFromStream Δ n e s ctx kw := by
  rw [← (loadBare Γ n).struct, ← (loadBare Δ n).struct, hΓ.bare, show d.bare = e.bare from h]

/-- Dumping to a stream. -/
theorem C123_dump (Γ Δ : Classes) (hΓ : SameFormats Γ Δ) (d e : StructDesc) (h : SameFormat d e) (n : Nat) (vals : Dict) (ctx : Value) :
    structToStream Γ n d vals ctx = structToStream Δ n e vals ctx := by
  rw [← (dumpBare Γ n).struct, ← (dumpBare Δ n).struct, hΓ.bare, show d.bare = e.bare from h]

/-- `partial_load` and `partial_dump`. -/
theorem C123_partial (Γ Δ : Classes) (hΓ : SameFormats Γ Δ) (d e : StructDesc) (h : SameFormat d e) (n : Nat) (last : Option String) (ctx : Value) :
    (∀ s, structPartialLoad Γ n d s last ctx = structPartialLoad Δ n e s last ctx) ∧
    ∀ vals, structPartialDump Γ n d vals last ctx = structPartialDump Δ n e vals last ctx := by
  refine ⟨fun s => ?_, fun vals => ?_⟩
  · rw [← partialLoad_bare Γ, ← partialLoad_bare Δ, hΓ.bare, show d.bare = e.bare from h]
  · rw [← partialDump_bare Γ, ← partialDump_bare Δ, hΓ.bare, show d.bare = e.bare from h]

/-- Creating an instance, its dictionary, its length, its fields, its validation, and comparing values. -/
theorem C123_inspect (Γ Δ : Classes) (hΓ : SameFormats Γ Δ) (d e : StructDesc) (h : SameFormat d e) (n : Nat) (vals : Dict) :
    structInit d vals = structInit e vals ∧ (∀ keep, structToDict Γ n d vals keep = structToDict Δ n e vals keep) ∧
    structLen Γ n d vals = structLen Δ n e vals ∧ (∀ name, structGetItem d vals name = structGetItem e vals name) ∧
    validateContents d vals = validateContents e vals ∧ ∀ v w, pyEq Γ n v w = pyEq Δ n v w := by
  have hb : d.bare = e.bare := h
  refine ⟨?_, fun keep => ?_, ?_, fun name => ?_, ?_, fun v w => ?_⟩
  · rw [← structInit_bare d, ← structInit_bare e, hb]
  · rw [← structToDict_bare Γ, ← structToDict_bare Δ, hΓ.bare, hb]
  · rw [← structLen_bare Γ, ← structLen_bare Δ, hΓ.bare, hb]
  · rw [← structGetItem_bare d, ← structGetItem_bare e, hb]
  · rw [← validateContents_bare d, ← validateContents_bare e, hb]
  · rw [← pyEq_bare Γ, ← pyEq_bare Δ, hΓ.bare]

/-- A class may be split: one with the fields and methods `own ++ more` has the same format as a subclass with `more` of a base class with `own`, which
has the options. -/
theorem C123_split (Γ : Classes) (n m : Nat) (name base : String) (own more : List (String × ClassItem)) (opts : Option (List (String × Endian)))
    (b d : StructDesc) (hb : fromClass Γ m { name := base, body := own, metaOpts := opts } = .ok b) (hΓ : Γ base = some b)
    (hd : fromClass Γ n { name := name, bases := [base], body := more } = .ok d) :
    ∃ e, fromClass Γ n { name := name, body := own ++ more, metaOpts := opts } = .ok e ∧ SameFormat d e := by
  rcases fromClass_ok hd with ⟨h1, -⟩ | ⟨base', b', size, h1, h2, -, h3⟩
  · cases h1
  · cases h1
    rw [hΓ] at h2
    cases h2
    exact fromClassWith_split hb h3

/-- `get_field` of two classes whose fields also have the same offsets. -/
theorem C123_get_field_partial (Γ Δ : Classes) (hΓ : SameFormats Γ Δ) (d e : StructDesc) (h : SameFormat d e)
    (ho : ∀ name f g, d.find? name = some f → e.find? name = some g → f.base.offset = g.base.offset) (n : Nat) (s : Stream) (name : String)
    (ctx : Value) : structGetField Γ n d s name ctx = structGetField Δ n e s name ctx := by
  have hb : d.bare = e.bare := h
  have hf := find?_bare d name
  rw [hb, find?_bare e name] at hf
  unfold structGetField
  cases h1 : d.find? name with
  | none =>
    rw [h1] at hf
    cases h2 : e.find? name with
    | none => rfl
    | some g => rw [h2] at hf; cases hf
  | some f =>
    rw [h1] at hf
    cases h2 : e.find? name with
    | none => rw [h2] at hf; cases hf
    | some g =>
      rw [h2] at hf
      simp only [Option.map_some, Option.some.injEq] at hf
      have hload : ∀ s, fieldFromStream Γ n f s ctx [] = fieldFromStream Δ n g s ctx [] := fun s => by
        rw [← fieldFromStream_bare Γ n f, ← fieldFromStream_bare Δ n g, hf, ← (loadBare Γ n).field, ← (loadBare Δ n).field, hΓ.bare]
      have hpl : ∀ s last, structPartialLoad Γ n d s last ctx = structPartialLoad Δ n e s last ctx := fun s last =>
        (C123_partial Γ Δ hΓ d e h n last ctx).1 s
      have hgi : ∀ vals, structGetItem d vals name = structGetItem e vals name := fun vals =>
        (C123_inspect Γ Δ hΓ d e h n vals).2.2.2.1 name
      simp only [ho name f g h1 h2, hload, hpl, hgi]

/-! ### Examples -/

namespace Sample

/-- `label = StringZ(default="ab")` -/
def labelItem : String × ClassItem := ("label", .field (upd (strz "") ({ · with dflt := .str [97, 98] })))
/-- `x = Int16()`, of the byte order of the class -/
def xItem : String × ClassItem := ("x", .field (upd (i16 "") ({ · with explicit := [] })))
/-- `y = UInt8()`, with a validator -/
def yItems : List (String × ClassItem) :=
  [("y", .field (u8 "")), ("check", .validator ["y", "x"] fun _ v => if v = .int 9 then .error .valueErr else .ok ())]

/-- ```
class Labelled(Struct):
    class Meta:
        argument_defaults = {"endian": "big"}
    label = StringZ(default="ab")
    x = Int16()
``` -/
def labelledDecl : ClassDecl := { name := "Labelled", body := [labelItem, xItem], metaOpts := some [("endian", .big)] }
/-- ```
class Tagged(Labelled):
    y = UInt8()
    @validates("y", "x")
    def check(self, field, value): …
``` -/
def taggedSub : ClassDecl := { name := "Tagged", bases := ["Labelled"], body := yItems }
/-- All in one class. -/
def taggedFlat : ClassDecl := { name := "Tagged", body := [labelItem, xItem] ++ yItems, metaOpts := some [("endian", .big)] }

/-- The base class. -/
def labelledBase : StructDesc := (fromClass noClasses 3 labelledDecl).toOption.getD { name := "", components := [] }
/-- The classes of the program. -/
def labelledOnly : Classes := Classes.add noClasses labelledBase
/-- The subclass. -/
def tagged : StructDesc := (fromClass labelledOnly 3 taggedSub).toOption.getD { name := "", components := [] }
/-- The class with all fields. -/
def taggedAll : StructDesc := (fromClass labelledOnly 3 taggedFlat).toOption.getD { name := "", components := [] }

theorem tagged_same : SameFormat tagged taggedAll := by
  obtain ⟨e, h1, h2⟩ := C123_split labelledOnly 3 3 "Tagged" "Labelled" [labelItem, xItem] yItems (some [("endian", .big)]) labelledBase tagged rfl rfl rfl
  have : taggedAll = e := by
    unfold taggedAll taggedFlat
    rw [h1]
    rfl
  rw [this]
  exact h2

end Sample

-- what was recorded about the two is not the same
example : Sample.tagged.numOwnFields = 1 ∧ Sample.taggedAll.numOwnFields = 3 ∧
    (Sample.tagged.components.map (·.base.offset)) = [some 0, none, some 5] ∧ (Sample.taggedAll.components.map (·.base.offset)) = [some 0, none, none] := by
  decide

-- but they load the same
example : structFromStream Sample.labelledOnly 6 Sample.tagged ⟨[120, 0, 1, 2, 7], 0⟩ .none [] =
    structFromStream Sample.labelledOnly 6 Sample.taggedAll ⟨[120, 0, 1, 2, 7], 0⟩ .none [] ∧
    structFromStream Sample.labelledOnly 6 Sample.tagged ⟨[120, 0, 1, 2, 7], 0⟩ .none [] =
      (.ok [("label", .str [120]), ("x", .int 258), ("y", .int 7)], ⟨[120, 0, 1, 2, 7], 5⟩) :=
  ⟨C123_load _ _ (fun _ => rfl) _ _ Sample.tagged_same _ _ _ _, by decide +kernel⟩

/-- **C123** refuted for `get_field`, which goes to the recorded offset: the offsets of a subclass are counted with the defaults of the fields of the base
class that have no size. -/
theorem C123_get_field_refuted : ∃ (Γ : Classes) (d e : StructDesc) (s : Stream) (name : String), SameFormat d e ∧
    fromClass Γ 3 Sample.taggedSub = .ok d ∧ fromClass Γ 3 Sample.taggedFlat = .ok e ∧
    structGetField Γ 6 e s name .none = (.ok (.int 7), s) ∧ structGetField Γ 6 d s name .none ≠ (.ok (.int 7), s) :=
  ⟨Sample.labelledOnly, Sample.tagged, Sample.taggedAll, ⟨[120, 0, 1, 2, 7], 0⟩, "y", Sample.tagged_same, rfl, rfl, by decide +kernel, by decide +kernel⟩

-- dumping, and looking at an instance
example : structToStream Sample.labelledOnly 6 Sample.tagged [("label", .str [120]), ("x", .int 258), ("y", .int 7)] .none = ([120, 0, 1, 2, 7], .ok ()) ∧
    structToStream Sample.labelledOnly 6 Sample.taggedAll [("label", .str [120]), ("x", .int 258), ("y", .int 7)] .none = ([120, 0, 1, 2, 7], .ok ()) :=
  ⟨by decide +kernel, (C123_dump _ _ (fun _ => rfl) _ _ Sample.tagged_same 6 _ _).symm.trans (by decide +kernel)⟩

example : structLen Sample.labelledOnly 6 Sample.taggedAll [("label", .str [120]), ("x", .int 258), ("y", .int 7)] = .ok 5 :=
  (C123_inspect Sample.labelledOnly Sample.labelledOnly (fun _ => rfl) _ _ Sample.tagged_same 6 _).2.2.1.symm.trans (by decide +kernel)

example : (structPartialLoad Sample.labelledOnly 6 Sample.taggedAll ⟨[120, 0, 1, 2, 7], 0⟩ (some "x") .none).1 = .ok [("label", .str [120]), ("x", .int 258)] := by
  rw [← (C123_partial Sample.labelledOnly Sample.labelledOnly (fun _ => rfl) _ _ Sample.tagged_same 6 (some "x") .none).1]
  decide +kernel

example : structGetField Sample.labelledOnly 6 { Sample.taggedAll with numOwnFields := 0 } ⟨[120, 0, 1, 2, 7], 0⟩ "y" .none =
    (.ok (.int 7), ⟨[120, 0, 1, 2, 7], 0⟩) :=
  (C123_get_field_partial Sample.labelledOnly Sample.labelledOnly (fun _ => rfl) { Sample.taggedAll with numOwnFields := 0 } Sample.taggedAll rfl
    (fun name f g h1 h2 => by
      rw [show ({ Sample.taggedAll with numOwnFields := 0 } : StructDesc).find? name = Sample.taggedAll.find? name from rfl, h2] at h1
      cases h1
      rfl) 6 _ "y" .none).trans (by decide +kernel)

end Verif
