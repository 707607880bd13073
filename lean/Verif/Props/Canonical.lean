import Verif.Proofs.Canonical
import Verif.Props.RoundTrip
import Verif.Props.Optional

/-!
# C27: dumping what was loaded
-/

namespace Verif
open Spec

/-- **C27** (partial: UUIDs in the two binary formats only; the refutation below shows why.)

A struct of a canonical class (fixed-size integers, bytes, strings of every supported encoding with a size, null-terminated strings, binary
UUIDs, doubles, timestamps in seconds, arrays, structs in structs to any depth, and unions whose choice depends on earlier fields; sizes and counts are numbers or earlier unsigned
integer fields; fields may be left out depending on earlier fields, and may be `None` if that has one encoding; discarded
fields are constants), loaded from anywhere in a stream: dumping it succeeds and reproduces exactly the bytes that were consumed. -/
theorem C27_load_dump_partial (Γ : Classes) (hΓ : ∀ c d, Γ c = some d → CanonicalClass Γ d) (n : Nat) (d : StructDesc) (s s' : Stream)
    (ctx : Value) (r : Dict) (hd : CanonicalClass Γ d) (h : structFromStream Γ n d s ctx [] = (.ok r, s')) :
    ∃ bs m, Consumed s s' bs ∧ structToStream Γ m d r ctx = (bs, .ok ()) := by
  obtain ⟨bs, h1, -, m, inner, -, -, -, -, h2, -⟩ := (canonical_redumps hΓ ctx n).2.1 d s s' r hd h
  exact ⟨bs, m, h1, h2⟩

/-- **C27** With `from_bytes`/`to_bytes`: if all the bytes were consumed, they are what is dumped. -/
theorem C27_bytes_partial (Γ : Classes) (hΓ : ∀ c d, Γ c = some d → CanonicalClass Γ d) (n : Nat) (d : StructDesc) (data : Bytes)
    (ctx : Value) (r : Dict) (hd : CanonicalClass Γ d)
    (h : structFromStream Γ n d ⟨data, 0⟩ ctx [] = (.ok r, ⟨data, data.length⟩)) :
    ∃ m, structToBytes Γ m d r ctx = .ok data := by
  obtain ⟨bs, m, ⟨h1, -, -⟩, h2⟩ := C27_load_dump_partial Γ hΓ n d _ _ ctx r hd h
  have : bs = data := by simpa [Stream.rest] using h1.symm
  subst this
  exact ⟨m, by simp [structToBytes, h2, W.toExcept]⟩

/-- **C27** Consequently no two byte strings are loaded as the same struct. -/
theorem C27_injective_partial (Γ : Classes) (hΓ : ∀ c d, Γ c = some d → CanonicalClass Γ d) (n n' : Nat) (d : StructDesc)
    (data data' : Bytes) (ctx : Value) (r : Dict) (hd : CanonicalClass Γ d)
    (h : structFromStream Γ n d ⟨data, 0⟩ ctx [] = (.ok r, ⟨data, data.length⟩))
    (h' : structFromStream Γ n' d ⟨data', 0⟩ ctx [] = (.ok r, ⟨data', data'.length⟩)) : data = data' := by
  obtain ⟨bs, m, ⟨h1, -, -⟩, h2⟩ := C27_load_dump_partial Γ hΓ n d _ _ ctx r hd h
  obtain ⟨bs', m', ⟨h1', -, -⟩, h2'⟩ := C27_load_dump_partial Γ hΓ n' d _ _ ctx r hd h'
  have e : bs = data := by simpa [Stream.rest] using h1.symm
  have e' : bs' = data' := by simpa [Stream.rest] using h1'.symm
  subst e; subst e'
  have a := structToStream_of_le (Nat.le_max_left m m') h2
  have a' := structToStream_of_le (Nat.le_max_right m m') h2'
  rw [a] at a'
  cases a'; rfl

/-! ### Examples -/

/-- A class without checks of its own is fair to dictionaries. -/
theorem unchecked_fair {d : StructDesc} (h1 : ∀ p ∈ d.fieldValidators, p.2 = [] ∧ p.1 ∈ names d)
    (h2 : ∀ f ∈ d.components, f.base.validators = []) (h3 : d.structValidators = []) (hu : UniqueNames d) (r r' : Dict)
    (_ : Instance d r) (_ : Instance d r')
    (_ : ∀ f ∈ d.components, f.base.discard = false → ∃ v w, Dict.get? r f.name = some v ∧ Dict.get? r' f.name = some w ∧ Stands v w)
    (hr : ∀ f ∈ d.components, ∃ v, structGetItem d r' f.name = .ok v) (_ : Valid d r) : Valid d r' :=
  unchecked_accepts h1 h2 h3 hu hr

theorem fields_of_take {fs : List Field} {Q : List Field → Field → Prop}
    (h : ∀ i (hi : i < fs.length), Q (fs.take i) fs[i]) (pre : List Field) (f : Field) (post : List Field)
    (hd : fs = pre ++ f :: post) : Q pre f := by
  subst hd
  have := h pre.length (by simp)
  simpa using this

/-- A field that is always there and never `None`. -/
theorem Spec.CanonicalField.plain {Γ : Classes} {pre : List Field} {f : Field} (h : Canonical Γ pre f) (ha : Always f.base)
    (hk : f.base.discard = false) (ho : f.base.notPresentValue = .notPresent) : CanonicalField Γ pre f :=
  ⟨h, Or.inl hk, Or.inl ha.2, ⟨[], by simp, fun _ _ _ _ _ _ _ => by rw [ha.1, ha.1]⟩, ho⟩

theorem Spec.Fair.unchecked {b : FieldBase} (h : b.validators = []) : Fair b := by intro v w _ _; simp [h]

/-- The recursive class `Tree`. -/
theorem Sample.tree_canonical : CanonicalClass Sample.treeClasses Sample.tree where
  unique := by unfold UniqueNames; decide
  checks := unchecked_fair (by decide) (by simp [Sample.tree, Sample.upd, Sample.u16, Sample.u8, Sample.array, Field.withBase, Field.base])
    rfl (by unfold UniqueNames; decide)
  fields := by
    refine fields_of_take (Q := CanonicalField Sample.treeClasses) ?_
    intro i hi
    match i, hi with
    | 0, _ => exact .plain (.integer (n := 2) rfl (by decide)) ⟨fun _ _ _ => rfl, rfl⟩ rfl rfl
    | 1, _ => exact .plain (.integer (n := 1) rfl (by decide)) ⟨fun _ _ _ => rfl, rfl⟩ rfl rfl
    | 2, _ =>
      exact .plain (.array (.unchecked rfl) (Or.inl rfl) (Or.inr ⟨"n", ⟨_, _, .tail _ (.head _), rfl, ⟨fun _ _ _ => rfl, rfl⟩, rfl⟩, by decide, rfl⟩)
        (fun _ _ _ => rfl) (Or.inl rfl) (.nested (.unchecked rfl) (Or.inl rfl))) ⟨fun _ _ _ => rfl, rfl⟩ rfl rfl

theorem Sample.treeClasses_canonical (c : String) (d : StructDesc) (h : Sample.treeClasses c = some d) :
    CanonicalClass Sample.treeClasses d := by
  unfold Sample.treeClasses Classes.add at h
  split at h
  · cases h; exact Sample.tree_canonical
  · simp [Sample.noClasses] at h

-- a tree of depth 3 in the middle of a stream
example : ∃ bs m, Consumed ⟨[9, 0, 1, 2, 1, 44, 0, 0, 7, 1, 0, 5, 0, 8], 1⟩ ⟨[9, 0, 1, 2, 1, 44, 0, 0, 7, 1, 0, 5, 0, 8], 13⟩ bs ∧
    structToStream Sample.treeClasses m Sample.tree [("label", .int 1), ("n", .int 2), ("children", .list [Sample.leafTree 300,
      .struct "Tree" [("label", .int 7), ("n", .int 1), ("children", .list [Sample.leafTree 5])]])] .none = (bs, .ok ()) :=
  C27_load_dump_partial _ Sample.treeClasses_canonical 14 Sample.tree _ _ .none _ Sample.tree_canonical (by decide)

/-- ```
class Ledger(Struct):
    n = UInt8()
    data = Bytes(size=n)
    name = String(size=3, encoding="utf-8", pad_byte=b" ")
    comment = StringZ(encoding="utf-16-le")
    id = UUID4(stored_as=UUIDFormat.BINARY_VARIANT_2)
    value = Float64(endian="big")
    when = Timestamp32(endian="big")
    points = Array(Nested(Point), count=2)
``` -/
def Sample.ledger : StructDesc :=
  { name := "Ledger"
    components := [Sample.u8 "n", Sample.bytesRef "data" "n",
      .leaf { name := "name", size := .fixed 3 } (.string utf8Codec (some 32)),
      .leaf { name := "comment" } (.stringz (utf16Codec .little) none),
      .leaf { name := "id", size := .fixed 16 } (.uuid .binaryVariant2),
      .leaf { name := "value", size := .fixed 8 } (.float binary64 .big),
      .leaf { name := "when", size := .fixed 4 } (.timestamp .s true true .big),
      Sample.upd (Sample.array "points" (Sample.upd (Sample.nested "" "Point") ({ · with size := .fixed 4 })) (.fixed 2))
        ({ · with size := .fixed 8 })]
    fieldValidators := [("n", []), ("data", []), ("name", []), ("comment", []), ("id", []), ("value", []), ("when", []), ("points", [])]
    numOwnFields := 8 }

theorem Sample.point_canonical : CanonicalClass Sample.pointClasses Sample.point where
  unique := by unfold UniqueNames; decide
  checks := unchecked_fair (by decide) (by simp [Sample.point, Sample.upd, Sample.i16, Field.withBase, Field.base])
    rfl (by unfold UniqueNames; decide)
  fields := by
    refine fields_of_take (Q := CanonicalField Sample.pointClasses) ?_
    intro i hi
    match i, hi with
    | 0, _ => exact .plain (.integer (n := 2) rfl (by decide)) ⟨fun _ _ _ => rfl, rfl⟩ rfl rfl
    | 1, _ => exact .plain (.integer (n := 2) rfl (by decide)) ⟨fun _ _ _ => rfl, rfl⟩ rfl rfl

theorem Sample.pointClasses_canonical (c : String) (d : StructDesc) (h : Sample.pointClasses c = some d) :
    CanonicalClass Sample.pointClasses d := by
  unfold Sample.pointClasses Classes.add at h
  split at h
  · cases h; exact Sample.point_canonical
  · simp [Sample.noClasses] at h

/-- A `Point` takes up four bytes. -/
theorem Sample.point_extent (b : FieldBase) : Extent Sample.pointClasses (.nested b "Point") 4 := by
  refine .nested (d := Sample.point) (ns := [2, 2]) rfl ?_ rfl fun i f n hf hn => ?_
  · intro f hf
    simp only [Sample.point, List.mem_cons, List.not_mem_nil, or_false] at hf
    rcases hf with rfl | rfl <;> exact ⟨fun _ _ _ => rfl, rfl⟩
  match i with
  | 0 => cases hf; cases hn; exact .leaf rfl
  | 1 => cases hf; cases hn; exact .leaf rfl
  | i + 2 => simp at hn

theorem Sample.ledger_canonical : CanonicalClass Sample.pointClasses Sample.ledger where
  unique := by unfold UniqueNames; decide
  checks := unchecked_fair (by decide)
    (by simp [Sample.ledger, Sample.upd, Sample.u8, Sample.bytesRef, Sample.array, Field.withBase, Field.base])
    rfl (by unfold UniqueNames; decide)
  fields := by
    refine fields_of_take (Q := CanonicalField Sample.pointClasses) ?_
    intro i hi
    match i, hi with
    | 0, _ => exact .plain (.integer (n := 1) rfl (by decide)) ⟨fun _ _ _ => rfl, rfl⟩ rfl rfl
    | 1, _ => exact .plain (.bytes (Or.inr ⟨"n", ⟨_, _, .head _, rfl, ⟨fun _ _ _ => rfl, rfl⟩, rfl⟩, rfl⟩)) ⟨fun _ _ _ => rfl, rfl⟩ rfl rfl
    | 2, _ => exact .plain (.string .utf8 (Or.inl ⟨3, rfl⟩)) ⟨fun _ _ _ => rfl, rfl⟩ rfl rfl
    | 3, _ => exact .plain (.stringz (.utf16 _) rfl) ⟨fun _ _ _ => rfl, rfl⟩ rfl rfl
    | 4, _ => exact .plain (.uuid rfl (Or.inr rfl)) ⟨fun _ _ _ => rfl, rfl⟩ rfl rfl
    | 5, _ => exact .plain (.double rfl) ⟨fun _ _ _ => rfl, rfl⟩ rfl rfl
    | 6, _ => exact .plain (.timestamp (n := 4) rfl (by decide)) ⟨fun _ _ _ => rfl, rfl⟩ rfl rfl
    | 7, _ =>
      exact .plain (.array (.unchecked rfl) (Or.inr ⟨8, rfl, .array (n := 4) rfl (Sample.point_extent _)⟩) (Or.inl ⟨2, rfl⟩)
        (fun _ _ _ => rfl) (Or.inl rfl) (.nested (.unchecked rfl) (Or.inr ⟨4, rfl, Sample.point_extent _⟩))) ⟨fun _ _ _ => rfl, rfl⟩ rfl rfl

-- every way of reading a ledger, from any stream
example (n : Nat) (s s' : Stream) (r : Dict) (h : structFromStream Sample.pointClasses n Sample.ledger s .none [] = (.ok r, s')) :
    ∃ bs m, Consumed s s' bs ∧ structToStream Sample.pointClasses m Sample.ledger r .none = (bs, .ok ()) :=
  C27_load_dump_partial _ Sample.pointClasses_canonical n Sample.ledger s s' .none r Sample.ledger_canonical h

/-- 46 bytes that can be loaded as a `Ledger`. -/
def Sample.ledgerBytes : Bytes :=
  [2, 0xDE, 0xAD] ++ [0xC3, 0xA9, 33] ++ [65, 0, 0, 0] ++ [0, 1, 2, 3, 4, 5, 6, 7, 8, 9, 10, 11, 12, 13, 14, 15] ++
    [0x3F, 0xF8, 0, 0, 0, 0, 0, 0] ++ [0xFF, 0xFF, 0xFF, 0xFE] ++ [1, 0, 2, 0, 3, 0, 4, 0]

theorem Sample.ledger_loads : ∃ r, structFromStream Sample.pointClasses 8 Sample.ledger ⟨Sample.ledgerBytes, 0⟩ .none [] =
    (.ok r, ⟨Sample.ledgerBytes, 46⟩) :=
  ⟨[("n", .int 2), ("data", .bytes [222, 173]), ("name", .str [233, 33]), ("comment", .str [65]),
    ("id", .uuid 0x0302010005040706_08090a0b0c0d0e0f), ("value", .float 0x3FF8000000000000), ("when", .datetime (-2000000) true),
    ("points", .list [.struct "Point" [("x", .int 1), ("y", .int 2)], .struct "Point" [("x", .int 3), ("y", .int 4)]])],
    by decide +kernel⟩

example : ∃ r m, structToBytes Sample.pointClasses m Sample.ledger r .none = .ok Sample.ledgerBytes := by
  obtain ⟨r, hr⟩ := Sample.ledger_loads
  obtain ⟨m, hm⟩ := C27_bytes_partial _ Sample.pointClasses_canonical 8 Sample.ledger _ .none r Sample.ledger_canonical hr
  exact ⟨r, m, hm⟩

theorem Sample.cell_canonical : CanonicalClass Sample.cellClasses Sample.cell where
  unique := by unfold UniqueNames; decide
  checks := unchecked_fair (by decide) (by simp [Sample.cell, Sample.cellValue, Sample.u8, Field.base]) rfl (by unfold UniqueNames; decide)
  fields := by
    refine fields_of_take (Q := CanonicalField Sample.cellClasses) ?_
    intro i hi
    match i, hi with
    | 0, _ => exact .plain (.integer (n := 1) rfl (by decide)) ⟨fun _ _ _ => rfl, rfl⟩ rfl rfl
    | 1, _ =>
      have hch : ∀ g, .inl g ∈ Sample.cellChoices → g = Sample.strz "" ∨ g = Sample.u16 "" := by
        intro g hg
        simpa [Sample.cellChoices] using hg
      refine .plain (.union (refs := ["kind"]) (.unchecked rfl) rfl ?_ Sample.byKind_decided ?_ ?_) ⟨fun _ _ _ => rfl, rfl⟩ rfl rfl
      · intro r hr
        simp only [List.mem_singleton] at hr
        subst hr
        exact ⟨_, _, .head _, rfl, rfl⟩
      · intro g hg
        rcases hch g hg with rfl | rfl <;> exact ⟨⟨fun _ _ _ => rfl, rfl⟩, rfl⟩
      · intro g hg
        rcases hch g hg with rfl | rfl
        · exact .stringz .utf8 rfl
        · exact .integer (n := 2) rfl (by decide)

theorem Sample.point_canonical_in (Γ : Classes) : CanonicalClass Γ Sample.point where
  unique := by unfold UniqueNames; decide
  checks := unchecked_fair (by decide) (by simp [Sample.point, Sample.upd, Sample.i16, Field.withBase, Field.base])
    rfl (by unfold UniqueNames; decide)
  fields := by
    refine fields_of_take (Q := CanonicalField Γ) ?_
    intro i hi
    match i, hi with
    | 0, _ => exact .plain (.integer (n := 2) rfl (by decide)) ⟨fun _ _ _ => rfl, rfl⟩ rfl rfl
    | 1, _ => exact .plain (.integer (n := 2) rfl (by decide)) ⟨fun _ _ _ => rfl, rfl⟩ rfl rfl

theorem Sample.cellClasses_canonical (c : String) (d : StructDesc) (h : Sample.cellClasses c = some d) : CanonicalClass Sample.cellClasses d := by
  unfold Sample.cellClasses Sample.pointClasses Classes.add at h
  split at h
  · cases h; exact Sample.cell_canonical
  · split at h
    · cases h; exact Sample.point_canonical_in _
    · simp [Sample.noClasses] at h

-- whatever the kind: a string, a number or a point
example (n : Nat) (s s' : Stream) (r : Dict) (h : structFromStream Sample.cellClasses n Sample.cell s .none [] = (.ok r, s')) :
    ∃ bs m, Consumed s s' bs ∧ structToStream Sample.cellClasses m Sample.cell r .none = (bs, .ok ()) :=
  C27_load_dump_partial _ Sample.cellClasses_canonical n Sample.cell s s' .none r Sample.cell_canonical h

example :
    (structFromStream Sample.cellClasses 9 Sample.cell ⟨[0, 65, 66, 0], 0⟩ .none []).1 = .ok [("kind", .int 0), ("value", .str [65, 66])] ∧
    (structFromStream Sample.cellClasses 9 Sample.cell ⟨[2, 3, 0, 254, 255], 0⟩ .none []).1 =
      .ok [("kind", .int 2), ("value", .struct "Point" [("x", .int 3), ("y", .int (-2))])] ∧
    structToBytes Sample.cellClasses 9 Sample.cell [("kind", .int 2), ("value", .struct "Point" [("x", .int 3), ("y", .int (-2))])] .none =
      .ok [2, 3, 0, 254, 255] := by
  decide +kernel

/-! ### Layouts with more than one encoding of a value -/

/-- **C27** fails for UUIDs stored as text: upper-case digits are loaded, and dumped in lower case. -/
theorem C27_text_uuid_refuted :
    ∃ (d : StructDesc) (data bs : Bytes) (r : Dict), UniqueNames d ∧
      structFromStream Sample.noClasses 4 d ⟨data, 0⟩ .none [] = (.ok r, ⟨data, data.length⟩) ∧
      structToStream Sample.noClasses 4 d r .none = (bs, .ok ()) ∧ bs ≠ data :=
  ⟨{ name := "U", components := [.leaf { name := "u", size := .fixed 32 } (.uuid .hexString)], fieldValidators := [("u", [])] },
    List.replicate 31 48 ++ [65], List.replicate 31 48 ++ [97], [("u", .uuid 10)], by unfold UniqueNames; decide, by decide +kernel,
    by decide +kernel, by decide⟩

/-- **C27** does not extend to UUIDs stored as text: 30 digits after `0x` or `0X` are loaded too. -/
theorem C27_prefixed_uuid_refuted :
    ∃ d : StructDesc, UniqueNames d ∧ ∀ x ∈ ([120, 88] : List UInt8), ∃ (data bs : Bytes) (r : Dict), data.take 2 = [48, x] ∧
      structFromStream Sample.noClasses 4 d ⟨data, 0⟩ .none [] = (.ok r, ⟨data, data.length⟩) ∧
      structToStream Sample.noClasses 4 d r .none = (bs, .ok ()) ∧ bs ≠ data := by
  refine ⟨{ name := "U", components := [.leaf { name := "u", size := .fixed 32 } (.uuid .hexString)], fieldValidators := [("u", [])] },
    by unfold UniqueNames; decide, fun x hx => ⟨[48, x] ++ List.replicate 30 49, [48, 48] ++ List.replicate 30 49,
      [("u", .uuid 0x111111111111111111111111111111)], by simp, ?_⟩⟩
  simp only [List.mem_cons, List.not_mem_nil, or_false] at hx
  rcases hx with rfl | rfl
  · exact ⟨by decide +kernel, by decide +kernel, by decide⟩
  · exact ⟨by decide +kernel, by decide +kernel, by decide⟩

/-- **C27** does not extend to UUIDs stored as text: 32 digits after `urn:`, or in braces with two hyphens, or with the hyphens in other places, are
loaded too. -/
theorem C27_spelled_uuid_refuted :
    ∃ d : StructDesc, UniqueNames d ∧ ∀ data ∈ ([[117, 114, 110, 58] ++ List.replicate 32 49, [123] ++ List.replicate 32 49 ++ [45, 45, 125],
        [45, 45, 45, 45] ++ List.replicate 32 49] : List Bytes), ∃ (bs : Bytes) (r : Dict),
      structFromStream Sample.noClasses 4 d ⟨data, 0⟩ .none [] = (.ok r, ⟨data, data.length⟩) ∧
      structToStream Sample.noClasses 4 d r .none = (bs, .ok ()) ∧ bs ≠ data := by
  refine ⟨{ name := "U", components := [.leaf { name := "u", size := .fixed 36 } (.uuid .canonicalString)], fieldValidators := [("u", [])] },
    by unfold UniqueNames; decide, fun x hx => ⟨List.replicate 8 49 ++ [45] ++ List.replicate 4 49 ++ [45] ++ List.replicate 4 49 ++ [45] ++
      List.replicate 4 49 ++ [45] ++ List.replicate 12 49, [("u", .uuid 0x11111111111111111111111111111111)], ?_⟩⟩
  simp only [List.mem_cons, List.not_mem_nil, or_false] at hx
  rcases hx with rfl | rfl | rfl
  · exact ⟨by decide +kernel, by decide +kernel, by decide⟩
  · exact ⟨by decide +kernel, by decide +kernel, by decide⟩
  · exact ⟨by decide +kernel, by decide +kernel, by decide⟩

/-- **C27** does not extend to variable-length integers: leading zero groups are loaded, and not dumped. -/
theorem C27_varint_refuted :
    ∃ (d : StructDesc) (data bs : Bytes) (r : Dict), UniqueNames d ∧
      structFromStream Sample.noClasses 4 d ⟨data, 0⟩ .none [] = (.ok r, ⟨data, data.length⟩) ∧
      structToStream Sample.noClasses 4 d r .none = (bs, .ok ()) ∧ bs ≠ data :=
  ⟨{ name := "V", components := [Sample.vlq "v"], fieldValidators := [("v", [])] },
    [0x80, 5], [5], [("v", .int 5)], by unfold UniqueNames; decide, by decide +kernel, by decide +kernel, by decide⟩

/-- **C27** does not extend to single-precision floats: a signalling NaN becomes quiet. -/
theorem C27_signalling_nan_refuted :
    ∃ (d : StructDesc) (data bs : Bytes) (r : Dict), UniqueNames d ∧
      structFromStream Sample.noClasses 4 d ⟨data, 0⟩ .none [] = (.ok r, ⟨data, data.length⟩) ∧
      structToStream Sample.noClasses 4 d r .none = (bs, .ok ()) ∧ bs ≠ data :=
  ⟨{ name := "F", components := [.leaf { name := "x", size := .fixed 4 } (.float binary32 .big)], fieldValidators := [("x", [])] },
    [0x7F, 0x80, 0, 1], [0x7F, 0xC0, 0, 1], [("x", .float 0x7FF8000020000000)], by unfold UniqueNames; decide, by decide +kernel,
    by decide +kernel, by decide⟩

/-- **C27** does not extend to null-terminated strings with a declared size: what follows the terminator is not consumed, and dumping
pads (or raises). -/
theorem C27_sized_stringz_refuted :
    ∃ (d : StructDesc) (data bs : Bytes) (r : Dict) (s' : Stream), UniqueNames d ∧
      structFromStream Sample.noClasses 4 d ⟨data, 0⟩ .none [] = (.ok r, s') ∧
      structToStream Sample.noClasses 4 d r .none = (bs, .ok ()) ∧ ¬ Consumed ⟨data, 0⟩ s' bs :=
  ⟨{ name := "S", components := [.leaf { name := "s", size := .fixed 4 } (.stringz utf8Codec (some 32))], fieldValidators := [("s", [])] },
    [65, 0, 66, 67], [65, 0, 32, 32], [("s", .str [65])], ⟨[65, 0, 66, 67], 2⟩, by unfold UniqueNames; decide, by decide +kernel,
    by decide +kernel, by simp [Consumed]⟩

/-- **C27** does not extend to discarded fields other than constants: their values are gone. -/
theorem C27_discard_refuted :
    ∃ (d : StructDesc) (data : Bytes) (e : Err) (r : Dict), UniqueNames d ∧
      structFromStream Sample.noClasses 4 d ⟨data, 0⟩ .none [] = (.ok r, ⟨data, data.length⟩) ∧
      (structToStream Sample.noClasses 4 d r .none).2 = .error e :=
  ⟨{ name := "D", components := [Sample.upd (Sample.u8 "a") ({ · with discard := true })], fieldValidators := [("a", [])] },
    [5], .missingRequired "a", [], by unfold UniqueNames; decide, by decide +kernel, by decide +kernel⟩

/-- **C27** does not extend to unions whose choices have validators: loading does not run them, dumping does. -/
theorem C27_union_validator_refuted :
    ∃ (d : StructDesc) (data : Bytes) (r : Dict), UniqueNames d ∧
      structFromStream Sample.noClasses 5 d ⟨data, 0⟩ .none [] = (.ok r, ⟨data, data.length⟩) ∧
      (structToStream Sample.noClasses 5 d r .none).2 = .error (.validation "small") :=
  ⟨{ name := "U"
     components := [.union { name := "u" }
       [.inl (Sample.upd (Sample.u8 "small") ({ · with validators := [fun v => if v = .int 200 then .error (.validation "small") else .ok ()] }))]
       (fun _ _ _ => .ok 0) (fun _ _ _ => .ok 0)]
     fieldValidators := [("u", [])] },
    [200], [("u", .int 200)], by unfold UniqueNames; decide, by decide +kernel, by decide +kernel⟩

end Verif
