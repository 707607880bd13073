import Verif.Props.Field
import Verif.Props.StructDump

/-! # C103: `None` is written as the declared null, or refused -/
namespace Verif
open Verif.Spec

/-- What dumping `None` comes down to. -/
theorem fieldToStream_none {Γ : Classes} {n : Nat} {f : Field} {ctx : Value} {all : Dict} (hval : ∀ c ∈ f.base.validators, c .none = .ok ()) :
    fieldToStream Γ (n + 1) f .none ctx all = W.ofExcept (fieldNullRepr Γ n f all) := by
  rw [fieldToStream_succ]
  simp [toStreamWith, (runValidators_ok_iff _ _).2 hval]

/-- **C103** A field that was not given a `null_value` refuses `None`: `UnserializableValueError`, and nothing is written. -/
theorem C103_not_nullable {Γ : Classes} {n : Nat} {f : Field} {ctx : Value} {all : Dict} (hnull : f.base.nullValue = .undefined)
    (hval : ∀ c ∈ f.base.validators, c .none = .ok ()) :
    fieldToStream Γ (n + 1) f .none ctx all = ([], .error (.unserializable f.name)) := by
  rw [fieldToStream_none hval]
  cases f <;>
  · simp only [Field.base] at hnull
    simp [fieldNullRepr, leafNullRepr, containerNullRepr, FieldBase.nullReprWith, hnull, Field.base, Field.name, W.ofExcept, W.fail]

/-- **C103** `null_value=b"…"`: `None` is written as these bytes, whatever the size of the field. -/
theorem C103_null_bytes {Γ : Classes} {n : Nat} {f : Field} {ctx : Value} {all : Dict} {bs : Bytes} (hnull : f.base.nullValue = .bytes bs)
    (hval : ∀ c ∈ f.base.validators, c .none = .ok ()) : fieldToStream Γ (n + 1) f .none ctx all = (bs, .ok ()) := by
  rw [fieldToStream_none hval]
  cases f <;>
  · simp only [Field.base] at hnull
    simp [fieldNullRepr, leafNullRepr, containerNullRepr, FieldBase.nullReprWith, hnull, Field.base, W.ofExcept, W.ok]

/-- **C103** `null_value=DEFAULT` and a declared size: `None` is written as this many zero bytes. -/
theorem C103_zeroes {Γ : Classes} {n : Nat} {f : Field} {ctx : Value} {all : Dict} {k : Int} (hnull : f.base.nullValue = .dflt)
    (hsize : DeclaredSize f all k) (hval : ∀ c ∈ f.base.validators, c .none = .ok ()) :
    fieldToStream Γ (n + 1) f .none ctx all = (List.replicate k.toNat 0, .ok ()) := by
  rw [fieldToStream_none hval]
  have h := fieldExpectedSize_declared (Γ := Γ) (n := n) hsize
  cases f <;>
  · simp only [Field.base] at hnull
    simp only [fieldExpectedSize, Field.base] at h
    simp [fieldNullRepr, leafNullRepr, containerNullRepr, FieldBase.nullReprWith, hnull, Field.base, h, W.ofExcept, W.ok]

/-- **C103** `null_value=DEFAULT` on a field of no particular size, dumped by itself: `UnserializableValueError`. -/
theorem C103_alone {Γ : Classes} {n : Nat} {f : Field} {ctx : Value} {all : Dict} (hnull : f.base.nullValue = .dflt)
    (hsize : f.base.size = .none) (hdefault : f.base.default = .ok .undefined) (hall : all.get? f.name = none)
    (hval : ∀ c ∈ f.base.validators, c .none = .ok ()) :
    fieldToStream Γ (n + 1) f .none ctx all = ([], .error (.unserializable f.name)) := by
  rw [fieldToStream_none hval]
  cases f <;>
  · simp only [Field.base, Field.name] at hnull hsize hall hdefault
    simp [fieldNullRepr, leafNullRepr, containerNullRepr, leafExpectedSize, containerExpectedSize, FieldBase.expectedSizeWith,
      FieldBase.sizingValue, FieldBase.nullReprWith, hnull, Field.base, Field.name, hsize, hall, hdefault, W.ofExcept, W.fail]

/-- **C103** The same field in a struct where its value is `None`: `BuggyFieldImplementationError`.  To find out how many zero bytes
to write, `_get_null_repr` asks `get_expected_size`, which finds the value `None` and asks `_get_null_repr`. -/
theorem C103_in_struct {Γ : Classes} {n : Nat} {f : Field} {ctx : Value} {all : Dict} (hnull : f.base.nullValue = .dflt)
    (hsize : f.base.size = .none) (hall : all.get? f.name = some .none) (hval : ∀ c ∈ f.base.validators, c .none = .ok ()) :
    fieldToStream Γ (n + 1) f .none ctx all = ([], .error (.buggyField f.name)) := by
  rw [fieldToStream_none hval]
  cases f <;>
  · simp only [Field.base, Field.name] at hnull hsize hall
    simp [fieldNullRepr, leafNullRepr, containerNullRepr, leafExpectedSize, containerExpectedSize, FieldBase.expectedSizeWith,
      FieldBase.sizingValue, FieldBase.nullReprWith, hnull, Field.base, Field.name, hsize, hall, W.ofExcept, W.fail, Except.map]

/-- `None` has no representation in the field: it was not given a `null_value`, or it was given `DEFAULT` and has no size. -/
def Spec.NoNull (f : Field) : Prop := f.base.nullValue = .undefined ∨ (f.base.nullValue = .dflt ∧ f.base.size = .none)

/-- **C103** A struct that has `None` for a field in which `None` has no representation is never dumped. -/
theorem C103_struct_refuses {Γ : Classes} {n : Nat} {d : StructDesc} {f : Field} {vals : Dict} {ctx : Value} (hd : UniqueNames d)
    (hi : Instance d vals) (hf : f ∈ d.components) (hnone : vals.get? f.name = some .none) (hnull : NoNull f)
    (hdiscard : f.base.discard = false) (hpresent : PresentFor Γ n d vals ctx f) :
    ¬ ∃ bs, structToStream Γ (n + 1) d vals ctx = (bs, .ok ()) := by
  rintro ⟨bs, h⟩
  obtain ⟨pre, post, hsplit⟩ := List.append_of_mem hf
  obtain ⟨all, _, p, _, w, hall, hw, hsame, -, hdump, -, -⟩ := C38_explicit_value_dumped_partial Γ n d vals ctx .none bs pre post f hd hi hsplit
    hdiscard hpresent hnone (by simp) (by simp) h
  obtain rfl := hsame .none
  cases n with
  | zero => simp [fieldToStream, W.fail] at hdump
  | succ n =>
    have hval : ∀ c ∈ f.base.validators, c .none = .ok () := by
      rw [fieldToStream_succ] at hdump
      obtain ⟨w, hw, -, -, hv, -⟩ := toStreamWith_ok hdump
      simp at hw; subst hw
      exact hv
    rcases hnull with hn | ⟨hn, hsz⟩
    · rw [C103_not_nullable hn hval] at hdump; simp at hdump
    · have hget : all.get? f.name = some .none := by
        obtain ⟨-, -, h8⟩ := structToDict_get hd hi hall
        have hc : Chosen f.base (structView d vals) .none := .explicit ((structContains_iff hi.1).2 ⟨_, hnone, by simp⟩)
          (structGetItem_some (hi.2 _ (Dict.get?_some_key hnone)) hnone)
        have hcv : f.base.computeValueForDump (structView d vals) .none = .ok .none := by
          rw [computeValueForDump_of_chosen hc, if_neg (by simp), hpresent.1]; simp
        rcases h8 f hf with ⟨-, h9, -⟩ | ⟨-, v, w, h9, h10, h11⟩
        · rw [hdiscard] at h9; simp at h9
        · have hvv : v = .none := by
            rcases h9 with h9 | ⟨e, h9, -⟩
            · rw [hcv] at h9; simp at h9; exact h9.symm
            · rw [hcv] at h9; simp at h9
          subst hvv
          rw [hw, Except.ok.injEq] at h10
          rw [h11, ← h10]
      rw [C103_in_struct hn hsz hget hval] at hdump; simp at hdump

namespace Sample

/-- `name = StringZ(null_value=DEFAULT)` -/
def alias : Field := upd (strz "alias") ({ · with nullValue := .dflt })

/-- ```
class Person(Struct):
    age = UInt8()
    alias = StringZ(null_value=DEFAULT)
``` -/
def person : StructDesc :=
  { name := "Person", components := [u8 "age", upd alias ({ · with index := 1 })]
    fieldValidators := [("age", []), ("alias", [])], numOwnFields := 2 }

end Sample

/-- `Person(age=7, alias=None)` meets the hypotheses of `C103_struct_refuses`, and so does `Person(age=None, alias="x")`. -/
example {n : Nat} : (¬ ∃ bs, structToStream Sample.noClasses (n + 1) Sample.person [("age", .int 7), ("alias", .none)] .none = (bs, .ok ())) ∧
    ¬ ∃ bs, structToStream Sample.noClasses (n + 1) Sample.person [("age", .none), ("alias", .str [120])] .none = (bs, .ok ()) := by
  constructor
  · exact C103_struct_refuses (f := Sample.upd Sample.alias ({ · with index := 1 })) (by unfold UniqueNames; decide) (by unfold Instance; decide)
      (by simp [Sample.person]) (by decide) (.inr ⟨rfl, rfl⟩) rfl ⟨rfl, fun _ _ => rfl⟩
  · exact C103_struct_refuses (f := Sample.u8 "age") (by unfold UniqueNames; decide) (by unfold Instance; decide)
      (by simp [Sample.person]) (by decide) (.inl rfl) rfl ⟨rfl, fun _ _ => rfl⟩

/-- `UInt8(null_value=DEFAULT).to_bytes(None) == b"\0"`; `StringZ(null_value=b"-\0").to_bytes(None) == b"-\0"`. -/
example : fieldToStream Sample.noClasses 1 (Sample.upd (Sample.u8 "x") ({ · with nullValue := .dflt })) .none .none [] = ([0], .ok ()) ∧
    fieldToStream Sample.noClasses 1 (Sample.upd (Sample.strz "x") ({ · with nullValue := .bytes [45, 0] })) .none .none [] = ([45, 0], .ok ()) :=
  ⟨C103_zeroes (k := 1) rfl (.inl rfl) (by decide), C103_null_bytes rfl (by decide)⟩

/-- **Refuted**: that in a struct a field refuses `None` with the error with which it does so alone.  `StringZ(null_value=DEFAULT)
.to_bytes(None)` raises `UnserializableValueError` (a test in the repository says so); `Person(age=7, alias=None).to_bytes()`
recurses until Python gives up and raises `BuggyFieldImplementationError`, which is not a `SerializationError`, and says that
`StringZ` has a bug in its implementation. -/
theorem C103_same_error_refuted :
    ¬ ∀ (Γ : Classes) (n : Nat) (d : StructDesc) (f : Field) (vals : Dict) (ctx : Value) (e e' : Err), UniqueNames d → Instance d vals →
      f ∈ d.components → vals.get? f.name = some .none → (∀ g ∈ d.components, g.name ≠ f.name → ∃ v bs, vals.get? g.name = some v ∧
        fieldToBytes Γ n g v ctx = .ok bs) → fieldToBytes Γ n f .none ctx = .error e →
      structToBytes Γ (n + 1) d vals ctx = .error e' → e' = e := by
  intro h
  have := h Sample.noClasses 3 Sample.person (Sample.upd Sample.alias ({ · with index := 1 })) [("age", .int 7), ("alias", .none)] .none
    (.unserializable "alias") (.buggyField "alias") (by unfold UniqueNames; decide) (by unfold Instance; decide)
    (by simp [Sample.person]) (by decide) (fun g hg hne => by
      simp only [Sample.person, List.mem_cons, List.not_mem_nil, or_false] at hg
      rcases hg with rfl | rfl
      · exact ⟨.int 7, [7], by decide, by decide⟩
      · exact absurd rfl hne) (by decide) (by decide)
  simp at this

end Verif
