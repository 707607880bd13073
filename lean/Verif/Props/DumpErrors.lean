import Verif.Proofs.DumpErrors
import Verif.Props.Halting
import Verif.Props.Robust
import Verif.Props.Optional

/-!
# C76: what dumping values of the right type raises
-/

namespace Verif
open Spec

/-- **C76** (partial: encoding text and narrowing floats raise exceptions of their own, and so may the user's callables; `E` is the set of
these, and the refutations below show that they do occur.  User-defined field types are not covered.)

In a class whose fields all resolve their references, dumping an instance whose values have the right type either succeeds or raises a
`SerializationError`, a `ValidationError` or a member of `E`, whatever the values' size or range: never a `TypeError`, an
`AttributeError`, a `FieldReferenceError` or an `UndefinedSizeError`.  The value of a union has to have the type of every choice that the decider
may take, given the values of the struct's plain fields. -/
theorem C76_documented_partial (Γ : Classes) (E : Err → Prop) (hΓ : ∀ c d, Γ c = some d → DumpableClass Γ E d) (d : StructDesc)
    (hd : DumpableClass Γ E d) (vals : Dict) (hi : Instance d vals)
    (ht : ∀ f ∈ d.components, ∀ v, Dict.get? vals f.name = some v → OfType Γ false (TagsKept d vals) f v) (n : Nat) (ctx : Value) (out : Bytes) (e : Err)
    (he : e ≠ .outOfFuel) (h : structToStream Γ n d vals ctx = (out, .error e)) :
    e.isSerialization = true ∨ (∃ name, e = .validation name) ∨ E e :=
  ((dump_declared hΓ n).2 hd hi ht (by rw [h])).resolve_right he

/-- **C76** The same for `to_bytes`. -/
theorem C76_to_bytes_partial (Γ : Classes) (E : Err → Prop) (hΓ : ∀ c d, Γ c = some d → DumpableClass Γ E d) (d : StructDesc)
    (hd : DumpableClass Γ E d) (vals : Dict) (hi : Instance d vals)
    (ht : ∀ f ∈ d.components, ∀ v, Dict.get? vals f.name = some v → OfType Γ false (TagsKept d vals) f v) (n : Nat) (ctx : Value) (e : Err)
    (he : e ≠ .outOfFuel) (h : structToBytes Γ n d vals ctx = .error e) :
    e.isSerialization = true ∨ (∃ name, e = .validation name) ∨ E e := by
  unfold structToBytes W.toExcept at h
  split at h
  · rename_i e' h'
    cases h
    exact C76_documented_partial Γ E hΓ d hd vals hi ht n ctx _ e he (Prod.ext rfl h')
  · simp at h

/-- **C76** The same for `to_dict`, which converts no values: a `SerializationError`, a `ValidationError`, or what the user's callables
raise. -/
theorem C76_to_dict_partial (Γ : Classes) (E : Err → Prop) (hΓ : ∀ c d, Γ c = some d → DumpableClass Γ E d) (d : StructDesc)
    (hd : DumpableClass Γ E d) (vals : Dict) (hi : Instance d vals)
    (ht : ∀ f ∈ d.components, ∀ v, Dict.get? vals f.name = some v → OfType Γ false (TagsKept d vals) f v) (n : Nat) (keep : Bool) (e : Err)
    (he : e ≠ .outOfFuel) (h : structToDict Γ n d vals keep = .error e) :
    e.isSerialization = true ∨ (∃ name, e = .validation name) ∨ E e :=
  (structToDict_declared hΓ hd hi ht h).resolve_right he

/-- **C76** A field on its own (`Field.to_bytes`): every field of which the size is known. -/
theorem C76_field_partial (Γ : Classes) (E : Err → Prop) (hΓ : ∀ c d, Γ c = some d → DumpableClass Γ E d) (f : Field)
    (hf : Dumpable E [] false f) (v : Value) (all : Dict) (hv : OfType Γ true (· = all) f v) (hnp : v ≠ .notPresent) (n : Nat) (ctx : Value) (out : Bytes)
    (e : Err) (he : e ≠ .outOfFuel) (h : fieldToStream Γ n f v ctx all = (out, .error e)) :
    e.isSerialization = true ∨ (∃ name, e = .validation name) ∨ E e :=
  ((dump_declared hΓ n).1 (tags := (· = all)) (CountsKnown.nil all) rfl hf hv hnp (fun h => by simp at h) (by rw [h])).resolve_right he

/-- **C76**, **C75** Together: every dump of values of the right type ends, with the bytes or with a documented exception, and more steps
change nothing about it. -/
theorem C76_total_partial (Γ : Classes) (E : Err → Prop) (rank : String → Nat)
    (hΓ : ∀ c d, Γ c = some d → DumpableClass Γ E d ∧ Founded rank (rank c) d) (d : StructDesc) (r : Nat)
    (hd : DumpableClass Γ E d) (hr : Founded rank r d) (vals : Dict) (hi : Instance d vals)
    (ht : ∀ f ∈ d.components, ∀ v, Dict.get? vals f.name = some v → OfType Γ false (TagsKept d vals) f v) (ctx : Value) :
    ∃ n, (∃ out, ∀ m, n ≤ m → structToStream Γ m d vals ctx = (out, .ok ())) ∨
      ∃ out e, Declared E e ∧ ∀ m, n ≤ m → structToStream Γ m d vals ctx = (out, .error e) := by
  obtain ⟨n, ⟨out, res⟩, h1, h2⟩ := C75_dump_ends rank Γ (fun c d h => (hΓ c d h).2) r d hr vals ctx
  refine ⟨n, ?_⟩
  cases res with
  | ok u => exact .inl ⟨out, h2⟩
  | error e =>
    refine .inr ⟨out, e, ?_, h2⟩
    exact C76_documented_partial Γ E (fun c d h => (hΓ c d h).1) d hd vals hi ht n ctx out e (by rintro rfl; exact h1 rfl) (h2 n (Nat.le_refl _))

/-- **C76** What the conversions raise: encoding text `UnicodeEncodeError`; a float that does not fit (`OverflowError`) is one that is not
stored with 8 bytes; and no `datetime` is out of range for the conversion to seconds, milliseconds and so on. -/
theorem C76_conversions :
    (∀ (c : CharCodec) t e, c.encode t = .error e → e = .unicodeErr) ∧
    (∀ en bits, floatPack binary64 en bits ≠ none) ∧
    ∀ res us aware, datetimeMin ≤ us → us ≤ datetimeMax → ∃ i, tsStored res us aware = .ok i := by
  refine ⟨fun c t e h => ?_, by simp [floatPack, packBits], fun res us aware h1 h2 => tsStored_ok res h1 h2 aware⟩
  induction t with
  | nil => simp [CharCodec.encode] at h
  | cons x t ih =>
    simp only [CharCodec.encode] at h
    split at h
    · cases h; rfl
    · split at h
      · rename_i e' he; cases h; exact ih he
      · simp at h

/-! ### Refutations -/

/-- `class A(Struct): text = String(size=1)` -/
def Sample.latinOnly : StructDesc :=
  { name := "A", components := [.leaf { name := "text", size := .fixed 1 } (.string latin1Codec none)], fieldValidators := [("text", [])] }
/-- `class A(Struct): x = Float32()` -/
def Sample.single : StructDesc :=
  { name := "A", components := [.leaf { name := "x", size := .fixed 4 } (.float binary32 .little)], fieldValidators := [("x", [])] }

/-- **C76** Neither a `SerializationError` nor a `ValidationError`: text that the encoding does not have (`UnicodeEncodeError`), a float that
is too big for 32 bits (`OverflowError`). -/
theorem C76_refuted :
    structToBytes Sample.noClasses 3 Sample.latinOnly [("text", .str [0x20AC])] .none = .error .unicodeErr ∧
    structToBytes Sample.noClasses 3 Sample.single [("x", .float 0x7FE0000000000000)] .none = .error .overflowErr ∧
    ∀ e : Err, (e = .unicodeErr ∨ e = .overflowErr) → e.isSerialization = false ∧ ∀ name, e ≠ .validation name := by
  refine ⟨by decide +kernel, by decide +kernel, ?_⟩
  rintro e (rfl | rfl) <;> exact ⟨rfl, by simp⟩

/-- `class A(Struct): t = Timestamp64()` -/
def Sample.naive : StructDesc :=
  { name := "A", components := [.leaf { name := "t", size := .fixed 8 } (.timestamp .s false true .little)], fieldValidators := [("t", [])] }

/-- **C76** Dumping `datetime.min`, or any other naive datetime of the first day of the year 1, raises a bare `ValueError`. -/
theorem C76_first_day_refuted :
    structToBytes Sample.noClasses 3 Sample.naive [("t", .datetime datetimeMin false)] .none = .error .valueErr ∧
    Err.valueErr.isSerialization = false ∧ (∀ name, Err.valueErr ≠ .validation name) ∧
    ∀ us, us < datetimeMin + 86400000000 → tsDump .s us false = .error .valueErr := by
  refine ⟨by decide +kernel, rfl, by simp, fun us h => ?_⟩
  rw [tsDump, localTime, if_pos (by simpa [datetimeFirst] using h)]
  rfl

/-- `len(all_fields["data"])` -/
def Sample.dataLength (w : View) : Except Err Value :=
  match w.get "data" with
  | .error e => .error e
  | .ok (.str t) => .ok (.int t.length)
  | .ok _ => .error .typeErr

/-- ```
class Inner(Struct):
    n = UInt8()
    data = StringZ()
    @n.computes
    def _n(self, all_fields):
        return len(all_fields["data"])

class Outer(Struct):
    inner = Nested(Inner)
``` -/
def Sample.measured : StructDesc :=
  { name := "Inner"
    components := [Sample.upd (Sample.u8 "n") ({ · with computeFn := some Sample.dataLength }), Sample.strz "data"]
    fieldValidators := [("n", []), ("data", [])] }
@[inherit_doc Sample.measured]
def Sample.measuredOuter : StructDesc :=
  { name := "Outer", components := [Sample.nested "inner" "Inner"], fieldValidators := [("inner", [])] }

/-- **C76** The same mistake (a required value that was not set) is a `MissingRequiredValueError` when the struct is dumped on its own and a
bare `KeyError` when it is nested in another: `to_dict` calls the compute function with a dictionary that lacks the value. -/
theorem C76_missing_nested_refuted :
    structToBytes (Classes.add Sample.noClasses Sample.measured) 5 Sample.measured [] .none = .error (.missingRequired "data") ∧
    structToBytes (Classes.add Sample.noClasses Sample.measured) 7 Sample.measuredOuter [("inner", .struct "Inner" [])] .none =
      .error (.keyErr "data") := by
  decide +kernel

/-- `class A(Struct): n = UInt8(default=1); data = Bytes(size=n)` -/
def Sample.defaultSize : StructDesc :=
  { name := "A", components := [Sample.upd (Sample.u8 "n") ({ · with dflt := .int 1 }), Sample.bytesRef "data" "n"]
    fieldValidators := [("n", []), ("data", [])] }

/-- **C76** `DEFAULT` can be assigned to a field and is dumped as the default; as the size of another field it is a `TypeError`. -/
theorem C76_default_size_refuted :
    structToBytes Sample.noClasses 3 Sample.defaultSize [("data", .bytes [7])] .none = .ok [1, 7] ∧
    structToBytes Sample.noClasses 3 Sample.defaultSize [("n", .dflt), ("data", .bytes [7])] .none = .error .typeErr := by
  decide +kernel

/-- `class A(Struct): n = UInt8(discard=True, default=1); xs = Array(UInt8(), count=n)` -/
def Sample.discardedCount : StructDesc :=
  { name := "A", components := [Sample.upd (Sample.u8 "n") ({ · with discard := true, dflt := .int 1 }), Sample.array "xs" (Sample.u8 "") (.ref "n")]
    fieldValidators := [("n", []), ("xs", [])] }

/-- **C76** A class whose array is counted by a discarded field can be loaded, but never be dumped: the count is not found. -/
theorem C76_discarded_count_refuted :
    (structFromStream Sample.noClasses 6 Sample.discardedCount ⟨[1, 7], 0⟩ .none []).1 = .ok [("xs", .list [.int 7])] ∧
    structToBytes Sample.noClasses 6 Sample.discardedCount [("xs", .list [.int 7])] .none = .error (.fieldReference "n") ∧
    structToBytes Sample.noClasses 6 Sample.discardedCount [("n", .int 1), ("xs", .list [.int 7])] .none = .error (.fieldReference "n") := by
  decide +kernel

/-- `{0: StringZ, 1: UInt16, 2: Point}[fields["kind"]]` -/
def Sample.kindOf (fields : Dict) : Except Err Nat :=
  match Dict.get? fields "kind" with
  | some (.int i) => if 0 ≤ i ∧ i < 3 then .ok i.toNat else .error (.keyErr "kind")
  | _ => .error (.keyErr "kind")

/-- A union of a string, a number and a struct, decided by the field `kind`. -/
def Sample.variant (name : String) : Field :=
  .union { name := name } Sample.cellChoices (fun _ _ loaded => Sample.kindOf loaded) (fun _ _ all => Sample.kindOf all)

/-- `class Variant(Struct): kind = UInt8(); value = Union(…)` -/
def Sample.variantStruct : StructDesc :=
  { name := "Variant", components := [Sample.u8 "kind", Sample.variant "value"], fieldValidators := [("kind", []), ("value", [])] }
/-- `class Variants(Struct): kind = UInt8(); values = Array(Union(…))` -/
def Sample.variants : StructDesc :=
  { name := "Variants", components := [Sample.u8 "kind", Sample.array "values" (Sample.variant "") .none]
    fieldValidators := [("kind", []), ("values", [])] }

/-- **C76** A union accepts struct instances in a list, as `to_dict` turns them into dictionaries; those that an iterator yields are a `TypeError`
after part of the struct has been written. -/
theorem C76_iterator_union_refuted :
    structToStream Sample.cellClasses 9 Sample.variants
      [("kind", .int 2), ("values", .list [.struct "Point" [("x", .int 3), ("y", .int (-2))]])] .none = ([2, 3, 0, 254, 255], .ok ()) ∧
    structToStream Sample.cellClasses 9 Sample.variants
      [("kind", .int 2), ("values", .iter [.struct "Point" [("x", .int 3), ("y", .int (-2))]])] .none = ([2], .error .typeErr) := by
  decide +kernel

/-! ### Examples -/

theorem mild_plain {E : Err → Prop} {b : FieldBase} (h1 : b.present = fun _ _ _ => .ok true) (h2 : b.validators = []) (h3 : b.factory = none)
    (h4 : b.computeFn = none) : Mild E b where
  present := by simp [h1]
  validators := by simp [h2]
  default := by simp [FieldBase.default, h3]
  compute := by simp [h4]

theorem settled_plain {E : Err → Prop} {pre : List Field} {b : FieldBase} (h1 : b.present = fun _ _ _ => .ok true) (h2 : b.validators = [])
    (h3 : b.factory = none) (h4 : b.computeFn = none) (h5 : b.nullValue = .undefined) (h6 : ∀ r, b.size ≠ .ref r) : Settled E pre b :=
  { mild_plain h1 h2 h3 h4 with null := .inl h5, size := fun r h => absurd h (h6 r) }

theorem supplies_nothing {Γ : Classes} {f : Field} (h1 : f.base.dflt = .undefined) (h2 : f.base.computeFn = none) : SuppliesType Γ f :=
  ⟨fun _ h => absurd h1 h, by simp [h2]⟩

/-- What encoding text and looking up fields that are not there raises. -/
def Sample.dumpErrors (e : Err) : Prop := e = .unicodeErr ∨ (∃ k, e = .keyErr k) ∨ e = .recursionErr ∨ e = .typeErr

theorem Sample.dataLength_declared (w : View) (e : Err) (hw : Lookups Sample.dumpErrors w) (h : Sample.dataLength w = .error e) :
    Declared Sample.dumpErrors e := by
  unfold Sample.dataLength at h
  split at h
  · rename_i e' he
    cases h
    rcases hw _ _ he with h | h | h
    · exact h
    · exact .inr (.inr (.inr (.inl h)))
    · exact .inr (.inr (.inr (.inr (.inl h))))
  · simp at h
  · cases h; exact .inr (.inr (.inr (.inr (.inr rfl))))

/-- `Inner` above, and `Chunk` of `Verif/Props/Robust.lean`. -/
def Sample.dumpClasses : Classes := Classes.add Sample.archiveClasses Sample.measured

theorem Sample.chunk_dumpable : DumpableClass Sample.dumpClasses Sample.dumpErrors Sample.chunk where
  unique := by unfold UniqueNames; decide
  fields := by
    refine fields_of_take (Q := fun pre f => Dumpable Sample.dumpErrors pre true f ∧ SuppliesType Sample.dumpClasses f) ?_
    intro i hi
    match i, hi with
    | 0, _ => exact ⟨.integer (n := 1) (settled_plain rfl rfl rfl rfl rfl (by simp)) rfl, supplies_nothing rfl rfl⟩
    | 1, _ =>
      have hr : Referable (Sample.chunk.components.take 1) "size" :=
        ⟨Sample.u8 "size", by simp [Sample.chunk], rfl, ⟨_, _, rfl, Or.inl ⟨_, _, rfl⟩, fun _ _ _ => rfl, rfl⟩, rfl⟩
      refine ⟨.bytes { mild_plain rfl rfl rfl rfl with null := .inl rfl, size := fun r h => ?_ } (.inl (.inr ⟨"size", rfl, hr⟩)),
        supplies_nothing rfl rfl⟩
      cases h; exact hr
  methods := by simp [Sample.chunk]; decide
  validators := by simp [Sample.chunk]

theorem Sample.measured_settled {pre : List Field} {b : FieldBase} (h1 : b.present = fun _ _ _ => .ok true) (h2 : b.validators = [])
    (h3 : b.factory = none) (h4 : b.computeFn = some Sample.dataLength) (h5 : b.nullValue = .undefined) (h6 : b.size = .fixed 1) :
    Settled Sample.dumpErrors pre b where
  present := by simp [h1]
  validators := by simp [h2]
  default := by simp [FieldBase.default, h3]
  compute := by intro fn w e h hw he; rw [h4] at h; cases h; exact Sample.dataLength_declared w e hw he
  null := .inl h5
  size := by intro r h; rw [h6] at h; cases h

theorem Sample.measured_dumpable : DumpableClass Sample.dumpClasses Sample.dumpErrors Sample.measured where
  unique := by unfold UniqueNames; decide
  fields := by
    refine fields_of_take (Q := fun pre f => Dumpable Sample.dumpErrors pre true f ∧ SuppliesType Sample.dumpClasses f) ?_
    intro i hi
    match i, hi with
    | 0, _ =>
      refine ⟨.integer (n := 1) (Sample.measured_settled rfl rfl rfl rfl rfl rfl) rfl, fun _ h => absurd rfl h, ?_⟩
      intro fn w v h hv
      cases h
      unfold Sample.dataLength at hv
      split at hv <;> cases hv
      exact .leaf trivial
    | 1, _ =>
      exact ⟨.stringz (settled_plain rfl rfl rfl rfl rfl (by simp)) fun t e h => .inl (C76_conversions.1 _ t e h), supplies_nothing rfl rfl⟩
  methods := by simp [Sample.measured]; decide
  validators := by simp [Sample.measured]

theorem Sample.archive_dumpable : DumpableClass Sample.dumpClasses Sample.dumpErrors Sample.archive where
  unique := by unfold UniqueNames; decide
  fields := by
    refine fields_of_take (Q := fun pre f => Dumpable Sample.dumpErrors pre true f ∧ SuppliesType Sample.dumpClasses f) ?_
    intro i hi
    match i, hi with
    | 0, _ => exact ⟨.bytes (settled_plain rfl rfl rfl rfl rfl (fun r h => nomatch h)) (.inl (.inl ⟨2, rfl⟩)), supplies_nothing rfl rfl⟩
    | 1, _ => exact ⟨.varint (settled_plain rfl rfl rfl rfl rfl (by simp)), supplies_nothing rfl rfl⟩
    | 2, _ =>
      have hr : Referable (Sample.archive.components.take 2) "n" :=
        ⟨Sample.vlq "n", by simp [Sample.archive], rfl, ⟨_, _, rfl, Or.inr ⟨_, _, rfl⟩, fun _ _ _ => rfl, rfl⟩, rfl⟩
      refine ⟨.string { mild_plain rfl rfl rfl rfl with null := .inl rfl, size := fun r h => ?_ } (.inl (.inr ⟨"n", rfl, hr⟩))
        fun t e h => .inl (C76_conversions.1 _ t e h), supplies_nothing rfl rfl⟩
      cases h; exact hr
    | 3, _ =>
      exact ⟨.stringz (settled_plain rfl rfl rfl rfl rfl (by simp)) fun t e h => .inl (C76_conversions.1 _ t e h), supplies_nothing rfl rfl⟩
    | 4, _ =>
      exact ⟨.uuid { mild_plain rfl rfl rfl rfl with null := .inr (.inl ⟨_, rfl⟩), size := fun r h => nomatch h }, supplies_nothing rfl rfl⟩
    | 5, _ =>
      exact ⟨.timestamp { mild_plain rfl rfl rfl rfl with null := .inr (.inr ⟨rfl, .inl ⟨4, rfl⟩⟩), size := fun r h => nomatch h }
        (.inl ⟨4, rfl⟩), supplies_nothing rfl rfl⟩
    | 6, _ =>
      exact ⟨.array (settled_plain rfl rfl rfl rfl rfl (by simp)) (by simp) (.nested (settled_plain rfl rfl rfl rfl rfl (by simp))),
        supplies_nothing rfl rfl⟩
  methods := by simp [Sample.archive]; decide
  validators := by simp [Sample.archive]

theorem Sample.dumpClasses_dumpable (c : String) (d : StructDesc) (h : Sample.dumpClasses c = some d) :
    DumpableClass Sample.dumpClasses Sample.dumpErrors d := by
  unfold Sample.dumpClasses Sample.archiveClasses Classes.add at h
  split at h
  · cases h; exact Sample.measured_dumpable
  · split at h
    · cases h; exact Sample.chunk_dumpable
    · simp [Sample.noClasses] at h

-- whatever the size, the text and the list of chunks
example (magic title comment : List Nat) (n us : Int) (id : Nat) (chunks : List (Int × Bytes)) (ctx : Value) (k : Nat) (e : Err) (he : e ≠ .outOfFuel)
    (hus : datetimeMin ≤ us ∧ us ≤ datetimeMax)
    (h : structToBytes Sample.dumpClasses k Sample.archive [("magic", .bytes (magic.map UInt8.ofNat)), ("n", .int n), ("title", .str title),
      ("comment", .str comment), ("id", .uuid id), ("when", .datetime us true),
      ("chunks", .iter (chunks.map fun c => .struct "Chunk" [("size", .int c.1), ("data", .bytes c.2)]))] ctx = .error e) :
    e.isSerialization = true ∨ (∃ name, e = .validation name) ∨ Sample.dumpErrors e := by
  refine C76_to_bytes_partial _ _ Sample.dumpClasses_dumpable _ Sample.archive_dumpable _ ?_ ?_ k ctx e he h
  · constructor
    · show List.Nodup ["magic", "n", "title", "comment", "id", "when", "chunks"]; decide
    · show ∀ k ∈ ["magic", "n", "title", "comment", "id", "when", "chunks"], k ∈ names Sample.archive; decide
  · intro f hf v hv
    simp only [Sample.archive, List.mem_cons, List.not_mem_nil, or_false] at hf
    rcases hf with rfl | rfl | rfl | rfl | rfl | rfl | rfl <;> cases hv
    · exact .leaf trivial
    · exact .leaf trivial
    · exact .leaf trivial
    · exact .leaf trivial
    · exact .leaf trivial
    · exact .leaf hus
    · refine .iter (fun w hw => ?_) (by simp)
      obtain ⟨c, -, rfl⟩ := List.mem_map.1 hw
      refine .struct (d := Sample.chunk) rfl 
        ⟨by show List.Nodup ["size", "data"]; decide, by show ∀ k ∈ ["size", "data"], k ∈ names Sample.chunk; decide⟩ fun g hg w hw => ?_
      simp only [Sample.chunk, List.mem_cons, List.not_mem_nil, or_false] at hg
      rcases hg with rfl | rfl <;> cases hw
      · exact .leaf trivial
      · exact .leaf trivial

-- success, the wrong length, a missing value, a number out of range
example : structToBytes Sample.dumpClasses 6 Sample.archive [("magic", .bytes [79, 75]), ("n", .int 1), ("title", .str [65]), ("comment", .str []),
      ("id", .none), ("when", .none), ("chunks", .iter [.struct "Chunk" [("size", .int 1), ("data", .bytes [9])]])] .none =
      .ok [79, 75, 1, 65, 0, 45, 0, 0, 0, 0, 1, 9] ∧
    structToBytes Sample.dumpClasses 6 Sample.chunk [("size", .int 1), ("data", .bytes [])] .none = .error (.valueSize "data") ∧
    structToBytes Sample.dumpClasses 6 Sample.chunk [("size", .int 1)] .none = .error (.missingRequired "data") ∧
    structToBytes Sample.dumpClasses 6 Sample.chunk [("size", .int 256), ("data", .bytes [])] .none = .error (.unserializable "size") ∧
    structToBytes Sample.dumpClasses 6 Sample.measured [("data", .str [65])] .none = .ok [1, 65, 0] := by
  decide +kernel

theorem Sample.point_dumpable (Γ : Classes) : DumpableClass Γ Sample.dumpErrors Sample.point where
  unique := by unfold UniqueNames; decide
  fields := by
    refine fields_of_take (Q := fun pre f => Dumpable Sample.dumpErrors pre true f ∧ SuppliesType Γ f) ?_
    intro i hi
    match i, hi with
    | 0, _ => exact ⟨.integer (n := 2) (settled_plain rfl rfl rfl rfl rfl (fun r h => nomatch h)) rfl, supplies_nothing rfl rfl⟩
    | 1, _ => exact ⟨.integer (n := 2) (settled_plain rfl rfl rfl rfl rfl (fun r h => nomatch h)) rfl, supplies_nothing rfl rfl⟩
  methods := by simp [Sample.point]; decide
  validators := by simp [Sample.point]

theorem Sample.variantStruct_dumpable (Γ : Classes) : DumpableClass Γ Sample.dumpErrors Sample.variantStruct where
  unique := by unfold UniqueNames; decide
  fields := by
    refine fields_of_take (Q := fun pre f => Dumpable Sample.dumpErrors pre true f ∧ SuppliesType Γ f) ?_
    intro i hi
    match i, hi with
    | 0, _ => exact ⟨.integer (n := 1) (settled_plain rfl rfl rfl rfl rfl (by simp)) rfl, supplies_nothing rfl rfl⟩
    | 1, _ =>
      refine ⟨.union (settled_plain rfl rfl rfl rfl rfl (by simp)) (fun v ctx all e h => ?_) (fun v ctx all i h => ?_) (fun g hg => ?_),
        supplies_nothing rfl rfl⟩
      · simp only [Sample.kindOf] at h
        split at h
        · split at h <;> cases h
          exact .inr (.inr (.inr (.inl ⟨_, rfl⟩)))
        · cases h; exact .inr (.inr (.inr (.inl ⟨_, rfl⟩)))
      · simp only [Sample.kindOf] at h
        split at h
        · split at h <;> cases h
          simp only [Sample.cellChoices, List.length_cons, List.length_nil]
          omega
        · cases h
      · have : g = Sample.strz "" ∨ g = Sample.u16 "" := by simpa [Sample.cellChoices] using hg
        rcases this with rfl | rfl
        · exact .stringz (settled_plain rfl rfl rfl rfl rfl (by simp)) fun t e h => .inl (C76_conversions.1 _ t e h)
        · exact .integer (n := 2) (settled_plain rfl rfl rfl rfl rfl (by simp)) rfl
  methods := by simp [Sample.variantStruct]; decide
  validators := by simp [Sample.variantStruct]

def Sample.variantClasses : Classes := Classes.add Sample.pointClasses Sample.variantStruct

theorem Sample.variantClasses_dumpable (c : String) (d : StructDesc) (h : Sample.variantClasses c = some d) :
    DumpableClass Sample.variantClasses Sample.dumpErrors d := by
  unfold Sample.variantClasses Sample.pointClasses Classes.add at h
  split at h
  · cases h; exact Sample.variantStruct_dumpable _
  · split at h
    · cases h; exact Sample.point_dumpable _
    · simp [Sample.noClasses] at h

-- a union with any struct instance
example (x y : Int) (ctx : Value) (n : Nat) (e : Err) (he : e ≠ .outOfFuel)
    (h : structToBytes Sample.variantClasses n Sample.variantStruct
      [("kind", .int 2), ("value", .struct "Point" [("x", .int x), ("y", .int y)])] ctx = .error e) :
    e.isSerialization = true ∨ (∃ name, e = .validation name) ∨ Sample.dumpErrors e := by
  refine C76_to_bytes_partial _ _ Sample.variantClasses_dumpable _ (Sample.variantStruct_dumpable _) _ ?_ ?_ n ctx e he h
  · constructor
    · show List.Nodup ["kind", "value"]; decide
    · show ∀ k ∈ ["kind", "value"], k ∈ names Sample.variantStruct; decide
  · intro f hf v hv
    simp only [Sample.variantStruct, List.mem_cons, List.not_mem_nil, or_false] at hf
    rcases hf with rfl | rfl
    · cases hv; exact .leaf trivial
    · cases hv
      have hp : OfType Sample.variantClasses false (TagsKept Sample.variantStruct
          [("kind", .int 2), ("value", .struct "Point" [("x", .int x), ("y", .int y)])]) (.nested {} "Point")
          (.struct "Point" [("x", .int x), ("y", .int y)]) := by
        refine .struct (d := Sample.point) rfl
          ⟨by show List.Nodup ["x", "y"]; decide, by show ∀ k ∈ ["x", "y"], k ∈ names Sample.point; decide⟩ fun g hg w hw => ?_
        simp only [Sample.point, List.mem_cons, List.not_mem_nil, or_false] at hg
        rcases hg with rfl | rfl <;> cases hw <;> exact .leaf trivial
      have hk : ∀ all i, TagsKept Sample.variantStruct [("kind", .int 2), ("value", .struct "Point" [("x", .int x), ("y", .int y)])] all →
          Sample.kindOf all = .ok i → i = 2 := by
        intro all i ht hi
        have := ht _ _ (.int 2) (.head _) ⟨fun _ _ _ => rfl, rfl⟩ rfl rfl trivial rfl
        unfold Sample.kindOf at hi
        rw [show Dict.get? all "kind" = some (.int 2) from this] at hi
        simp at hi
        exact hi.symm
      refine .unionStruct (cls := "Point") (by simp [Sample.cellChoices]) hp ?_ ?_ (by simp)
      · intro v ctx all i g _ ht hd hi
        obtain rfl := hk all i ht hd
        simp [Sample.cellChoices] at hi
      · intro v ctx all i c _ ht hd hi
        obtain rfl := hk all i ht hd
        simp [Sample.cellChoices] at hi
        subst hi
        exact hp

-- success, and a number out of range
example : structToBytes Sample.variantClasses 9 Sample.variantStruct
      [("kind", .int 2), ("value", .struct "Point" [("x", .int 3), ("y", .int (-2))])] .none = .ok [2, 3, 0, 254, 255] ∧
    structToBytes Sample.variantClasses 9 Sample.variantStruct
      [("kind", .int 2), ("value", .struct "Point" [("x", .int 3), ("y", .int 40000)])] .none = .error (.unserializable "y") ∧
    structToBytes Sample.variantClasses 9 Sample.variantStruct [("kind", .int 3), ("value", .int 5)] .none = .error (.keyErr "kind") := by
  decide +kernel

end Verif
