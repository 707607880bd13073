import Verif.Proofs.RenamingDecl
import Verif.Spec.Samples

/-!
# C124: the names of the fields are not part of the format

`Renamed ρ d e` (Spec/Renaming): the class `e` is the class `d` with every field `x` called `ρ x`.

* `C124_dump`, `C124_load`: it writes the same bytes, and reads the same data, with the values under the new names; when it fails, it fails at
  the same place with the same exception, which may name other fields;
* `C124_files`: so what was written by programs that used the old names can be read, and written again, with the new ones;
* `C124_partial`: also with `partial_load` and `partial_dump`;
* `C124_measure`, `C124_get_field`: `len`, `get_size`, `get_field`;
* `C124_declared`: classes that are declared by the same class statement up to the names are related in this way;
* `C124_use`: creating, validating and converting instances, and getting and setting fields;
* `C124_reference_refuted`: but the names in `size` and `count` arguments must be changed, too.
-/

namespace Verif
open Spec

/-- Dumping to a stream. -/
theorem C124_dump (Γ : Classes) (ρ : String → String) (hρ : Renaming ρ) (d e : StructDesc) (h : Renamed ρ d e) (n : Nat) (vals : Dict) (ctx : Value) :
    SameW (structToStream Γ n d vals ctx) (structToStream Γ n e (Dict.rename ρ vals) ctx) :=
  structToStream_renamed hρ Γ n h vals ctx

/-- Loading from a stream. -/
theorem C124_load (Γ : Classes) (ρ : String → String) (hρ : Renaming ρ) (d e : StructDesc) (h : Renamed ρ d e) (n : Nat) (s : Stream) (ctx : Value)
    (kw : Dict) :
    AlikeR (fun old new => new = Dict.rename ρ old) (structFromStream Γ n d s ctx kw) (structFromStream Γ n e s ctx (Dict.rename ρ kw)) :=
  structFromStream_renamed hρ Γ n h s ctx kw

/-- The files of the one class are the files of the other. -/
theorem C124_files (Γ : Classes) (ρ : String → String) (hρ : Renaming ρ) (d e : StructDesc) (h : Renamed ρ d e) (n : Nat) (ctx : Value) :
    (∀ vals bs, structToStream Γ n d vals ctx = (bs, .ok ()) ↔ structToStream Γ n e (Dict.rename ρ vals) ctx = (bs, .ok ())) ∧
    ∀ s t, (∀ vals, structFromStream Γ n d s ctx [] = (.ok vals, t) → structFromStream Γ n e s ctx [] = (.ok (Dict.rename ρ vals), t)) ∧
      ∀ vals', structFromStream Γ n e s ctx [] = (.ok vals', t) →
        ∃ vals, vals' = Dict.rename ρ vals ∧ structFromStream Γ n d s ctx [] = (.ok vals, t) := by
  refine ⟨fun vals bs => ?_, fun s t => ?_⟩
  · have hs := C124_dump Γ ρ hρ d e h n vals ctx
    generalize structToStream Γ n d vals ctx = a at hs ⊢
    generalize structToStream Γ n e (Dict.rename ρ vals) ctx = b at hs ⊢
    obtain ⟨a1, a2⟩ := a
    obtain ⟨b1, b2⟩ := b
    obtain ⟨h1, h2⟩ := hs
    simp only at h1 h2
    subst h1
    cases h2 with
    | ok hab => subst hab; exact Iff.rfl
    | error _ => constructor <;> intro hc <;> cases hc
  · have hs := C124_load Γ ρ hρ d e h n s ctx []
    rw [show Dict.rename ρ [] = [] from rfl] at hs
    generalize structFromStream Γ n d s ctx [] = a at hs ⊢
    generalize structFromStream Γ n e s ctx [] = b at hs ⊢
    obtain ⟨a1, a2⟩ := a
    obtain ⟨b1, b2⟩ := b
    obtain ⟨h1, h2⟩ := hs
    simp only at h1 h2
    subst h1
    cases h2 with
    | ok hab =>
      subst hab
      refine ⟨fun vals hv => by cases hv; rfl, fun vals' hv => ?_⟩
      cases hv
      exact ⟨_, rfl, rfl⟩
    | error _ => exact ⟨nofun, nofun⟩

/-- `partial_load` and `partial_dump`. -/
theorem C124_partial (Γ : Classes) (ρ : String → String) (hρ : Renaming ρ) (d e : StructDesc) (h : Renamed ρ d e) (n : Nat) (last : Option String)
    (ctx : Value) :
    (∀ s, AlikeR (fun old new => new = Dict.rename ρ old) (structPartialLoad Γ n d s last ctx) (structPartialLoad Γ n e s (last.map ρ) ctx)) ∧
    ∀ vals, SameW (structPartialDump Γ n d vals last ctx) (structPartialDump Γ n e (Dict.rename ρ vals) (last.map ρ) ctx) :=
  ⟨fun s => structPartialLoad_renamed hρ Γ n h s last ctx, fun vals => structPartialDump_renamed hρ Γ n h vals last ctx⟩

/-- Creating an instance, validating it, its dictionary, its fields, and assignments. -/
theorem C124_use (Γ : Classes) (ρ : String → String) (hρ : Renaming ρ) (d e : StructDesc) (h : Renamed ρ d e) (n : Nat) (vals : Dict) :
    AlikeE (fun old new => new = Dict.rename ρ old) (structInit d vals) (structInit e (Dict.rename ρ vals)) ∧
    SameE (validateContents d vals) (validateContents e (Dict.rename ρ vals)) ∧
    (∀ keep, AlikeE (fun old new => new = Dict.rename ρ old) (structToDict Γ n d vals keep) (structToDict Γ n e (Dict.rename ρ vals) keep)) ∧
    (∀ x, SameE (structGetItem d vals x) (structGetItem e (Dict.rename ρ vals) (ρ x))) ∧
    ∀ x v, SameE (structSetItem d vals x v).1 (structSetItem e (Dict.rename ρ vals) (ρ x) v).1 ∧
      (structSetItem e (Dict.rename ρ vals) (ρ x) v).2 = Dict.rename ρ (structSetItem d vals x v).2 :=
  ⟨structInit_renamed hρ h.components vals, validateContents_renamed hρ h vals, fun keep => structToDict_renamed hρ Γ n h.components vals keep,
    structGetItem_renamed hρ h.components vals, structSetItem_renamed hρ h vals⟩

/-- `len` and `get_size`. -/
theorem C124_measure (Γ : Classes) (ρ : String → String) (hρ : Renaming ρ) (d e : StructDesc) (h : Renamed ρ d e) (n : Nat) (vals : Dict) :
    SameE (structLen Γ n d vals) (structLen Γ n e (Dict.rename ρ vals)) ∧
    SameE (structGetSize Γ n d vals) (structGetSize Γ n e (Dict.rename ρ vals)) :=
  ⟨structLen_renamed hρ Γ n h vals, structGetSize_renamed hρ Γ n h vals⟩

/-- `get_field`. -/
theorem C124_get_field (Γ : Classes) (ρ : String → String) (hρ : Renaming ρ) (d e : StructDesc) (h : ClassRenamed ρ d e) (n : Nat) (s : Stream)
    (x : String) (ctx : Value) :
    AlikeR Eq (structGetField Γ n d s x ctx) (structGetField Γ n e s (ρ x) ctx) :=
  structGetField_renamed hρ Γ n h.renamed s x (find?_offset hρ h.renamed.components h.offsets x) ctx

/-- Changing the names in the class statement does this: the statements are both accepted, and then the classes are the same up to the
names, or both rejected, with the same exception. -/
theorem C124_declared (Γ : Classes) (ρ : String → String) (hρ : Renaming ρ) (n : Nat) (decl decl' : ClassDecl) (h : DeclRenamed ρ Γ decl decl') :
    AlikeE (ClassRenamed ρ) (fromClass Γ n decl) (fromClass Γ n decl') :=
  fromClass_renamed hρ Γ n h

/-! ### Non-vacuity -/

/-- `n` ↔ `length`, `payload` ↔ `body` -/
def Sample.newNames (x : String) : String :=
  if x = "n" then "length" else if x = "length" then "n" else if x = "payload" then "body" else if x = "body" then "payload" else x

theorem Sample.newNames_back (x : String) : Sample.newNames (Sample.newNames x) = x := by
  unfold newNames
  by_cases h1 : x = "n"
  · subst h1; rfl
  by_cases h2 : x = "length"
  · subst h2; rfl
  by_cases h3 : x = "payload"
  · subst h3; rfl
  by_cases h4 : x = "body"
  · subst h4; rfl
  simp only [h1, h2, h3, h4, if_false]

theorem Sample.newNames_renaming : Renaming Sample.newNames where
  inj x y h := by rw [← Sample.newNames_back x, h, Sample.newNames_back]
  empty := by decide

/-- `len(all_fields[key])` -/
def Sample.bodyLength (key : String) (V : View) : Except Err Value :=
  match V.get key with
  | .ok (.bytes bs) => .ok (.int bs.length)
  | .ok _ => .error .typeErr
  | .error e => .error e

/-- A validator method: at most 9 bytes. -/
def Sample.shortOnly (key : String) (V : View) : Except Err Unit :=
  match Sample.bodyLength key V with
  | .ok (.int n) => if n ≤ 9 then .ok () else .error (.validation key)
  | .ok _ => .error .typeErr
  | .error e => .error e

/-- A frame whose fields are named `n` and `payload`:

```
class Frame(Struct):
    n = UInt8()
    payload = Bytes(size=n)
    marks = Array(UInt8(), count=n)

    @n.computes
    def _n(self, all_fields): return len(all_fields[payload])

    @validates_struct
    def _short(self): ...
``` -/
def Sample.frameOf (n payload : String) : StructDesc :=
  { name := "Frame"
    components := [Sample.upd (Sample.u8 n) ({ · with computeFn := some (Sample.bodyLength payload) }), Sample.bytesRef payload n,
      Sample.array "marks" (Sample.u8 "") (.ref n)]
    fieldValidators := [(n, []), (payload, []), ("marks", [])]
    structValidators := [Sample.shortOnly payload] }

theorem Sample.bodyLength_renamed {ρ : String → String} (key : String) {V V' : View} (h : ViewAlike ρ V V') :
    SameE (Sample.bodyLength key V) (Sample.bodyLength (ρ key) V') := by
  have h1 := (h key).2
  simp only [bodyLength]
  generalize V.get key = q at h1
  generalize V'.get (ρ key) = q' at h1
  cases h1 with
  | error h => exact .error h
  | ok h => subst h; exact SameE.refl _

theorem Sample.shortOnly_renamed {ρ : String → String} (key : String) {V V' : View} (h : ViewAlike ρ V V') :
    SameE (Sample.shortOnly key V) (Sample.shortOnly (ρ key) V') := by
  have h1 := Sample.bodyLength_renamed key h
  simp only [shortOnly]
  generalize Sample.bodyLength key V = q at h1
  generalize Sample.bodyLength (ρ key) V' = q' at h1
  cases h1 with
  | error h => exact .error h
  | @ok v _ h =>
    subst h
    cases v <;> first
      | exact .error rfl
      | (simp only; split
         · exact .ok rfl
         · exact .error rfl)

theorem Sample.frame_renamed : Renamed Sample.newNames (Sample.frameOf "n" "payload") (Sample.frameOf "length" "body") where
  components := by
    refine .cons (.leaf ?_ (.same nofun)) (.cons (.leaf ?_ (.same nofun)) (.cons (.array ?_ (.leaf ?_ (.same nofun)) .none) .nil))
    · exact { name := by decide, const := rfl, dflt := rfl, factory := rfl, discard := rfl, nullValue := rfl, size := rfl, validators := rfl
              present := fun _ _ _ _ _ => .ok rfl, notPresentValue := rfl
              computeFn := .some fun V V' hV => Sample.bodyLength_renamed "payload" hV }
    · exact { name := by decide, const := rfl, dflt := rfl, factory := rfl, discard := rfl, nullValue := rfl, size := by decide, validators := rfl
              present := fun _ _ _ _ _ => .ok rfl, notPresentValue := rfl, computeFn := .none }
    · exact { name := by decide, const := rfl, dflt := rfl, factory := rfl, discard := rfl, nullValue := rfl, size := rfl, validators := rfl
              present := fun _ _ _ _ _ => .ok rfl, notPresentValue := rfl, computeFn := .none }
    · exact { name := by decide, const := rfl, dflt := rfl, factory := rfl, discard := rfl, nullValue := rfl, size := rfl, validators := rfl
              present := fun _ _ _ _ _ => .ok rfl, notPresentValue := rfl, computeFn := .none }
  fieldValidators := .cons ⟨by decide, .nil⟩ (.cons ⟨by decide, .nil⟩ (.cons ⟨by decide, .nil⟩ .nil))
  structValidators := .cons (fun V V' hV => Sample.shortOnly_renamed "payload" hV) .nil

-- the old class writes a frame …
example : structToStream Sample.noClasses 9 (Sample.frameOf "n" "payload") [("payload", .bytes [7, 8]), ("marks", .list [.int 5, .int 6])] .none =
    ([2, 7, 8, 5, 6], .ok ()) := by decide +kernel

-- … and the new one reads it
example : structFromStream Sample.noClasses 9 (Sample.frameOf "length" "body") ⟨[2, 7, 8, 5, 6], 0⟩ .none [] =
    (.ok [("length", .int 2), ("body", .bytes [7, 8]), ("marks", .list [.int 5, .int 6])], ⟨[2, 7, 8, 5, 6], 5⟩) := by decide +kernel

-- as the theorem says, whatever is in the file
example (s t : Stream) (vals : Dict)
    (h : structFromStream Sample.noClasses 9 (Sample.frameOf "n" "payload") s .none [] = (.ok vals, t)) :
    structFromStream Sample.noClasses 9 (Sample.frameOf "length" "body") s .none [] = (.ok (Dict.rename Sample.newNames vals), t) :=
  ((C124_files Sample.noClasses Sample.newNames Sample.newNames_renaming _ _ Sample.frame_renamed 9 .none).2 s t).1 vals h

-- exceptions may name other fields
example : (structFromStream Sample.noClasses 9 (Sample.frameOf "n" "payload") ⟨[2, 7], 0⟩ .none []).1 = .error (.eof (some "payload") 2 1) ∧
    (structFromStream Sample.noClasses 9 (Sample.frameOf "length" "body") ⟨[2, 7], 0⟩ .none []).1 = .error (.eof (some "body") 2 1) := by
  decide +kernel

-- a field at a fixed offset
example : (structGetField Sample.noClasses 9 (Sample.frameOf "n" "payload") ⟨[2, 7, 8, 5, 6], 0⟩ "payload" .none).1 = .ok (.bytes [7, 8]) ∧
    (structGetField Sample.noClasses 9 (Sample.frameOf "length" "body") ⟨[2, 7, 8, 5, 6], 0⟩ "body" .none).1 = .ok (.bytes [7, 8]) := by
  decide +kernel

/-- The class statement of a frame, with a validator method for the payload and one for the struct. -/
def Sample.frameStatement (n payload : String) : ClassDecl :=
  { name := "Frame"
    body := [(n, .field (Sample.upd (Sample.u8 "") ({ · with computeFn := some (Sample.bodyLength payload) }))),
      (payload, .field (Sample.bytesRef "" n)), ("_check", .validator [payload] fun _ v => if v = .bytes [] then .error (.validation payload) else .ok ()),
      ("_short", .structValidator (Sample.shortOnly payload))] }

theorem Sample.frameStatement_renamed (Γ : Classes) :
    DeclRenamed Sample.newNames Γ (Sample.frameStatement "n" "payload") (Sample.frameStatement "length" "body") where
  body := by
    refine .cons (.field (x := "n") (.leaf ?_ (.same nofun)) rfl rfl) (.cons (.field (x := "payload") (.leaf ?_ (.same nofun)) rfl rfl)
      (.cons (.validator (names := ["payload"]) fun V V' v _ => ?_) (.cons (.structValidator fun V V' hV => Sample.shortOnly_renamed "payload" hV) .nil)))
    · exact { name := by decide, const := rfl, dflt := rfl, factory := rfl, discard := rfl, nullValue := rfl, size := rfl, validators := rfl
              present := fun _ _ _ _ _ => .ok rfl, notPresentValue := rfl
              computeFn := .some fun V V' hV => Sample.bodyLength_renamed "payload" hV }
    · exact { name := by decide, const := rfl, dflt := rfl, factory := rfl, discard := rfl, nullValue := rfl, size := by decide, validators := rfl
              present := fun _ _ _ _ _ => .ok rfl, notPresentValue := rfl, computeFn := .none }
    · split
      · exact .error rfl
      · exact .ok rfl
  metaOpts := rfl
  bases := .nil

-- both statements are accepted
example : ((fromClass Sample.noClasses 9 (Sample.frameStatement "n" "payload")).toOption.map (·.components.map (fun f => (f.name, f.base.offset)))) =
      some [("n", some 0), ("payload", some 1)] ∧
    ((fromClass Sample.noClasses 9 (Sample.frameStatement "length" "body")).toOption.map (·.components.map (fun f => (f.name, f.base.offset)))) =
      some [("length", some 0), ("body", some 1)] := by decide +kernel

/-- The frame when only the field `n` was renamed, and not the `size` that refers to it. -/
def Sample.halfRenamed : StructDesc :=
  { name := "Frame", components := [Sample.u8 "length", Sample.bytesRef "body" "n"], fieldValidators := [("length", []), ("body", [])] }

/-- A `size` that still refers to the old name: the bytes that the old class loads cannot be loaded. -/
theorem C124_reference_refuted :
    structFromStream Sample.noClasses 9
        { Sample.halfRenamed with
          components := [Sample.u8 "n", Sample.bytesRef "payload" "n"], fieldValidators := [("n", []), ("payload", [])] }
        ⟨[2, 7, 8], 0⟩ .none [] =
      (.ok [("n", .int 2), ("payload", .bytes [7, 8])], ⟨[2, 7, 8], 3⟩) ∧
    structFromStream Sample.noClasses 9 Sample.halfRenamed ⟨[2, 7, 8], 0⟩ .none [] = (.error (.missingRequired "n"), ⟨[2, 7, 8], 1⟩) := by
  decide +kernel

end Verif
