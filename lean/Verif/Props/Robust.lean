import Verif.Proofs.Robust
import Verif.Props.Canonical

/-!
# C66, C67: loading bytes that were not written by the library
-/

namespace Verif
open Spec

/-- **C66** (partial: the conversions of text, UUIDs in text form and timestamps raise `ValueError`s and `OverflowError`s of their own,
which the refutations below show; `E` is the set of these.)

In a class whose fields all resolve their references, loading whatever bytes either succeeds or raises a `DeserializationError`, a
`ValidationError` or a member of `E`: never a `TypeError`, `KeyError`, `AttributeError`, or an error about the class itself. -/
theorem C66_documented_partial (Γ : Classes) (E : Err → Prop) (hΓ : ∀ c d, Γ c = some d → RobustClass Γ E d) (d : StructDesc)
    (hd : RobustClass Γ E d) (n : Nat) (s t : Stream) (ctx : Value) (e : Err) (he : e ≠ .outOfFuel)
    (h : structFromStream Γ n d s ctx [] = (.error e, t)) :
    e.isDeserialization = true ∨ (∃ name, e = .validation name) ∨ E e :=
  ((load_documented hΓ n).2.2 d hd s ctx e t h).resolve_right he

/-- **C66** The same for `from_bytes`, whether or not it insists on using up the data. -/
theorem C66_from_bytes_partial (Γ : Classes) (E : Err → Prop) (hΓ : ∀ c d, Γ c = some d → RobustClass Γ E d) (d : StructDesc)
    (hd : RobustClass Γ E d) (n : Nat) (data : Bytes) (ctx : Value) (exact : Bool) (e : Err) (he : e ≠ .outOfFuel)
    (h : structFromBytes Γ n d data ctx exact [] = .error e) :
    e.isDeserialization = true ∨ (∃ name, e = .validation name) ∨ E e := by
  unfold structFromBytes at h
  split at h
  · rename_i e' t h'
    simp only [Except.error.injEq] at h; subst h
    exact C66_documented_partial Γ E hΓ d hd n _ _ ctx _ he h'
  · simp only at h
    split at h
    · simp only [Except.error.injEq] at h; rw [← h]; exact Or.inl rfl
    · simp at h

/-- **C66** What the conversions raise: decoding text `UnicodeDecodeError`, parsing a UUID `ValueError` or `UnicodeDecodeError`, making a
`datetime` `ValueError` or `OverflowError`.  ISO 8859-1 (the default encoding) decodes everything, and so do the binary UUID formats. -/
theorem C66_conversions :
    (∀ (c : CharCodec) bs e, c.decode bs = .error e → e = .unicodeErr) ∧ (∀ bs e, latin1Codec.decode bs ≠ .error e) ∧
    (∀ fmt raw e, uuidParse fmt raw = .error e → e = .valueErr ∨ e = .unicodeErr) ∧
    (∀ fmt raw e, (fmt = .binaryVariant1 ∨ fmt = .binaryVariant2) → uuidParse fmt raw ≠ .error e) ∧
    ∀ res aware i e, tsLoad res aware i = .error e → e = .valueErr ∨ e = .overflowErr := by
  refine ⟨fun c bs e h => codec_error h, fun bs e h => ?_, fun fmt raw e h => uuid_error h, ?_, fun res aware i e h => ts_error h⟩
  · obtain ⟨cs, hcs⟩ := latin1_decodes bs.length bs (Nat.le_refl _)
    simp [CharCodec.decode, CharCodec.feed, hcs] at h
  · rintro fmt raw e (rfl | rfl) <;> simp [uuidParse]

/-- **C67** (partial: classes that refer to themselves must have read something by then, and arrays must not repeat an empty element; the
refutations here and in C41 show why.)

Loading comes to an end, on every input: with enough steps the result is a struct or an exception. -/
theorem C67_terminates_partial (Γ : Classes) (E : Err → Prop) (hE : ¬ E .outOfFuel) (rank : String → Nat)
    (hΓ : ∀ c d, Γ c = some d → RobustClass Γ E d ∧ Guarded Γ rank (rank c) d) (d : StructDesc) (k : Nat) (hd : RobustClass Γ E d)
    (hg : Guarded Γ rank k d) (s : Stream) (hs : s.pos ≤ s.data.length) (ctx : Value) :
    ∃ n, (structFromStream Γ n d s ctx []).1 ≠ .error .outOfFuel :=
  structFromStream_ends hE (fun c d h => (hΓ c d h).1) hd hg hs
    (fun c e he t ht _ => classes_end hE hΓ ctx _ t (by rw [ht.1]; exact ht.2.2) (Nat.le_refl _) (rank c) c e he (Nat.le_refl _))
    (fun c e he _ t ht => classes_end hE hΓ ctx _ t (by rw [ht.1]; exact ht.2.2) (Nat.le_refl _) (rank c) c e he (Nat.le_refl _))

/-- **C66**, **C67** Together: every byte string either is loaded or is rejected with a documented exception, and more steps change
nothing about it. -/
theorem C67_total_partial (Γ : Classes) (E : Err → Prop) (hE : ¬ E .outOfFuel) (rank : String → Nat)
    (hΓ : ∀ c d, Γ c = some d → RobustClass Γ E d ∧ Guarded Γ rank (rank c) d) (d : StructDesc) (k : Nat) (hd : RobustClass Γ E d)
    (hg : Guarded Γ rank k d) (data : Bytes) (ctx : Value) :
    ∃ n, (∃ r t, ∀ m, n ≤ m → structFromStream Γ m d ⟨data, 0⟩ ctx [] = (.ok r, t)) ∨
      ∃ e t, Documented E e ∧ ∀ m, n ≤ m → structFromStream Γ m d ⟨data, 0⟩ ctx [] = (.error e, t) := by
  obtain ⟨n, hn⟩ := C67_terminates_partial Γ E hE rank hΓ d k hd hg ⟨data, 0⟩ (Nat.zero_le _) ctx
  have hm : ∀ m, n ≤ m → structFromStream Γ m d ⟨data, 0⟩ ctx [] = structFromStream Γ n d ⟨data, 0⟩ ctx [] :=
    fun m hm => Ended.mono hn (structFromStream_mono Γ hm d ⟨data, 0⟩ ctx [])
  refine ⟨n, ?_⟩
  rcases hx : structFromStream Γ n d ⟨data, 0⟩ ctx [] with ⟨r, t⟩
  rw [hx] at hn hm
  cases r with
  | ok r => exact Or.inl ⟨r, t, hm⟩
  | error e =>
    refine Or.inr ⟨e, t, ?_, hm⟩
    exact C66_documented_partial Γ E (fun c d h => (hΓ c d h).1) d hd n _ t ctx e (by rintro rfl; exact hn rfl) hx

/-! ### Refutations -/

/-- `class A(Struct): text = String(size=1, encoding="utf-8")` -/
def Sample.utf8Only : StructDesc :=
  { name := "A", components := [.leaf { name := "text", size := .fixed 1 } (.string utf8Codec none)], fieldValidators := [("text", [])] }
/-- `class A(Struct): id = UUID4(stored_as=UUIDFormat.HEX_STRING)` -/
def Sample.hexOnly : StructDesc :=
  { name := "A", components := [.leaf { name := "id", size := .fixed 32 } (.uuid .hexString)], fieldValidators := [("id", [])] }
/-- `class A(Struct): when = Timestamp64(endian="big")` -/
def Sample.stampOnly : StructDesc :=
  { name := "A", components := [.leaf { name := "when", size := .fixed 8 } (.timestamp .s true true .big)]
    fieldValidators := [("when", [])] }

/-- **C66** Neither a `DeserializationError` nor a `ValidationError`: text that is not UTF-8 (`UnicodeDecodeError`), hexadecimal digits that
are none (`ValueError`), a time after the year 9999 (`ValueError`). -/
theorem C66_refuted :
    (structFromStream Sample.noClasses 3 Sample.utf8Only ⟨[0xFF], 0⟩ .none []).1 = .error .unicodeErr ∧
    (structFromStream Sample.noClasses 3 Sample.hexOnly ⟨List.replicate 32 0x7A, 0⟩ .none []).1 = .error .valueErr ∧
    (structFromStream Sample.noClasses 3 Sample.stampOnly ⟨[0, 1, 0, 0, 0, 0, 0, 0], 0⟩ .none []).1 = .error .valueErr ∧
    ∀ e : Err, (e = .unicodeErr ∨ e = .valueErr) → e.isDeserialization = false ∧ ∀ name, e ≠ .validation name := by
  refine ⟨by decide +kernel, by decide +kernel, by decide +kernel, ?_⟩
  rintro e (rfl | rfl) <;> exact ⟨rfl, by simp⟩

/-- `class A(Struct): a = Nested("A"); b = UInt8()` -/
def Sample.selfFirst : StructDesc :=
  { name := "A", components := [Sample.nested "a" "A", Sample.u8 "b"], fieldValidators := [("a", []), ("b", [])] }

/-- **C67** A class that starts with itself is never done loading, whatever the input (Python: `RecursionError`). -/
theorem C67_self_first_refuted (n : Nat) (s : Stream) (ctx : Value) :
    (structFromStream (Classes.add Sample.noClasses Sample.selfFirst) n Sample.selfFirst s ctx []).1 = .error .outOfFuel := by
  induction n using Nat.strongRecOn generalizing s ctx with
  | ind n ih =>
    match n with
    | 0 => rfl
    | 1 => rfl
    | 2 => rfl
    | n + 3 =>
      have := ih n (by omega) s ctx
      rcases hx : structFromStream (Classes.add Sample.noClasses Sample.selfFirst) n Sample.selfFirst s ctx [] with ⟨r, t⟩
      rw [hx] at this
      simp only at this
      subst this
      have hΓ : Classes.add Sample.noClasses Sample.selfFirst "A" = some Sample.selfFirst := rfl
      have h1 : fieldDoLoad (Classes.add Sample.noClasses Sample.selfFirst) (n + 1) (Sample.nested "a" "A") s ctx [] =
          (.error .outOfFuel, t) := by
        simp only [Sample.nested, fieldDoLoad, containerLoad, loadStruct, hΓ, hx]; rfl
      have h2 : fieldFromStream (Classes.add Sample.noClasses Sample.selfFirst) (n + 2) (Sample.nested "a" "A") s ctx [] =
          (.error .outOfFuel, t) := by
        rw [fieldFromStream, fromStreamWith_plain rfl (Or.inl rfl), loadAndFinish, h1]; rfl
      rw [structFromStream, structFromStreamWith]
      simp only [show Sample.selfFirst.components = [Sample.nested "a" "A", Sample.u8 "b"] from rfl, loadFields, h2]

/-! ### Examples -/

theorem steady_plain {E : Err → Prop} {pre : List Field} {b : FieldBase} (h1 : b.present = fun _ _ _ => .ok true) (h2 : b.validators = [])
    (h3 : b.const = .undefined) (h4 : b.nullValue = .undefined) : Steady E pre b where
  present := by simp [h1]
  validators := by simp [h2]
  const := by simp [h3]
  null := Or.inl h4

theorem calm_plain {E : Err → Prop} {b : FieldBase} (h1 : b.present = fun _ _ _ => .ok true) (h2 : b.validators = []) : Calm E b where
  present := by simp [h1]
  validators := by simp [h2]

theorem Sample.tree_robust : RobustClass Sample.treeClasses (fun _ => False) Sample.tree where
  unique := by unfold UniqueNames; decide
  fields := by
    refine fields_of_take (Q := fun pre f => Robust Sample.treeClasses (fun _ => False) pre f) ?_
    intro i hi
    match i, hi with
    | 0, _ => exact .integer (n := 2) (steady_plain rfl rfl rfl rfl) rfl
    | 1, _ => exact .integer (n := 1) (steady_plain rfl rfl rfl rfl) rfl
    | 2, _ =>
      refine .array (calm_plain rfl rfl) rfl rfl ?_ (.nested (calm_plain rfl rfl) rfl rfl rfl)
      rintro r hr
      cases hr
      exact ⟨by decide, Sample.u8 "n", by simp [Sample.tree], rfl, _, _, rfl, Or.inl ⟨_, _, rfl⟩, fun _ _ _ => rfl, rfl⟩
  methods := by simp [Sample.tree]; decide
  validators := by simp [Sample.tree]

theorem Sample.tree_guarded : Guarded Sample.treeClasses (fun _ => 0) 0 Sample.tree := by
  refine fields_of_take (Q := fun pre f => Bounded Sample.treeClasses f ∧ ((∃ g ∈ pre, Eats Sample.treeClasses g) ∨
    ∀ c, Mentions f c → 0 < 0)) ?_
  intro i hi
  match i, hi with
  | 0, _ => exact ⟨.leaf, Or.inr fun c h => nomatch h⟩
  | 1, _ => exact ⟨.leaf, Or.inr fun c h => nomatch h⟩
  | 2, _ =>
    refine ⟨.counted .nested (by simp) (fun _ _ _ => rfl), Or.inl ⟨Sample.u8 "n", by simp [Sample.tree], ?_⟩⟩
    exact eats_fixed (n := 1) ⟨fun _ _ _ => rfl, rfl⟩ trivial rfl (by decide) (by simp)

theorem Sample.treeClasses_robust (c : String) (d : StructDesc) (h : Sample.treeClasses c = some d) :
    RobustClass Sample.treeClasses (fun _ => False) d ∧ Guarded Sample.treeClasses (fun _ => 0) 0 d := by
  unfold Sample.treeClasses Classes.add at h
  split at h
  · cases h; exact ⟨Sample.tree_robust, Sample.tree_guarded⟩
  · simp [Sample.noClasses] at h

-- any bytes whatsoever, read as a tree: a tree, or a `DeserializationError` or `ValidationError`
example (data : Bytes) : ∃ n, (∃ r t, ∀ m, n ≤ m → structFromStream Sample.treeClasses m Sample.tree ⟨data, 0⟩ .none [] = (.ok r, t)) ∨
    ∃ e t, Documented (fun _ => False) e ∧ ∀ m, n ≤ m → structFromStream Sample.treeClasses m Sample.tree ⟨data, 0⟩ .none [] = (.error e, t) :=
  C67_total_partial _ _ (by simp) _ Sample.treeClasses_robust Sample.tree 0 Sample.tree_robust Sample.tree_guarded data .none

-- both happen
example : structFromStream Sample.treeClasses 14 Sample.tree ⟨[0, 1, 1, 0, 2, 0], 0⟩ .none [] =
      (.ok [("label", .int 1), ("n", .int 1), ("children", .list [.struct "Tree" [("label", .int 2), ("n", .int 0), ("children", .list [])]])],
        ⟨[0, 1, 1, 0, 2, 0], 6⟩) ∧
    (structFromStream Sample.treeClasses 14 Sample.tree ⟨[0, 1, 1, 0, 2, 3], 0⟩ .none []).1 = .error (.eof (some "children") 2 6) := by
  decide +kernel

/-- ```
class Chunk(Struct):
    size = UInt8()
    data = Bytes(size=size)

class Archive(Struct):
    magic = Bytes(size=2, const=b"OK")
    n = VariableLengthInteger(vli_format=VLQ)
    title = String(size=n, encoding="utf-8")
    comment = StringZ(encoding="utf-8")
    id = UUID4(stored_as=UUIDFormat.CANONICAL_STRING, null_value=b"-")
    when = Timestamp32(null_value=DEFAULT)
    chunks = Array(Nested(Chunk))
``` -/
def Sample.chunk : StructDesc :=
  { name := "Chunk", components := [Sample.u8 "size", Sample.bytesRef "data" "size"], fieldValidators := [("size", []), ("data", [])] }
@[inherit_doc Sample.chunk]
def Sample.archive : StructDesc :=
  { name := "Archive"
    components := [Sample.upd (Sample.bytes "magic" 2) ({ · with const := .bytes [79, 75] }), Sample.vlq "n",
      .leaf { name := "title", size := .ref "n" } (.string utf8Codec none), Sample.strz "comment",
      .leaf { name := "id", size := .fixed 36, nullValue := .bytes [45] } (.uuid .canonicalString),
      .leaf { name := "when", size := .fixed 4, nullValue := .dflt } (.timestamp .s true true .little),
      Sample.array "chunks" (Sample.nested "" "Chunk") .none]
    fieldValidators := [("magic", []), ("n", []), ("title", []), ("comment", []), ("id", []), ("when", []), ("chunks", [])] }
/-- The classes above. -/
def Sample.archiveClasses : Classes := Classes.add Sample.noClasses Sample.chunk

/-- What the conversions raise. -/
def Sample.conversion (e : Err) : Prop := e = .unicodeErr ∨ e = .valueErr ∨ e = .overflowErr

theorem Sample.chunk_robust : RobustClass Sample.archiveClasses Sample.conversion Sample.chunk where
  unique := by unfold UniqueNames; decide
  fields := by
    refine fields_of_take (Q := fun pre f => Robust Sample.archiveClasses Sample.conversion pre f) ?_
    intro i hi
    match i, hi with
    | 0, _ => exact .integer (n := 1) (steady_plain rfl rfl rfl rfl) rfl
    | 1, _ =>
      exact .bytes (steady_plain rfl rfl rfl rfl) (Or.inr ⟨"size", rfl, Sample.u8 "size", by simp [Sample.chunk], rfl, _, _, rfl,
        Or.inl ⟨_, _, rfl⟩, fun _ _ _ => rfl, rfl⟩)
  methods := by simp [Sample.chunk]; decide
  validators := by simp [Sample.chunk]

theorem Sample.archive_robust : RobustClass Sample.archiveClasses Sample.conversion Sample.archive where
  unique := by unfold UniqueNames; decide
  fields := by
    refine fields_of_take (Q := fun pre f => Robust Sample.archiveClasses Sample.conversion pre f) ?_
    intro i hi
    match i, hi with
    | 0, _ =>
      exact .bytes { present := by simp [Sample.bytes, Field.base]
                     validators := by simp [Sample.bytes, Field.base]
                     const := by simp
                     null := Or.inl rfl } (Or.inl ⟨2, rfl⟩)
    | 1, _ => exact .varint (steady_plain rfl rfl rfl rfl)
    | 2, _ =>
      exact .string (steady_plain rfl rfl rfl rfl) (Or.inr ⟨"n", rfl, Sample.vlq "n", by simp [Sample.archive], rfl, _, _, rfl,
        Or.inr ⟨_, _, rfl⟩, fun _ _ _ => rfl, rfl⟩) (fun bs e h => Or.inl (C66_conversions.1 _ bs e h))
    | 3, _ =>
      exact .stringz (steady_plain rfl rfl rfl rfl) (Or.inr ⟨rfl, rfl, by decide⟩) (fun bs e h => Or.inl (C66_conversions.1 _ bs e h))
    | 4, _ =>
      exact .uuid { present := by simp, validators := by simp, const := by simp, null := Or.inr (Or.inl ⟨_, rfl⟩) }
        (fun raw e h => (C66_conversions.2.2.1 _ raw e h).elim (fun h => Or.inr (Or.inl h)) Or.inl)
    | 5, _ =>
      exact .timestamp { present := by simp, validators := by simp, const := by simp, null := Or.inr (Or.inr ⟨rfl, Or.inl ⟨4, rfl⟩⟩) }
        (Or.inl ⟨4, rfl⟩) (fun i e h => Or.inr (C66_conversions.2.2.2.2 _ _ i e h))
    | 6, _ => exact .array (calm_plain rfl rfl) rfl rfl (by simp) (.nested (calm_plain rfl rfl) rfl rfl rfl)
  methods := by simp [Sample.archive]; decide
  validators := by simp [Sample.archive]

theorem Sample.archiveClasses_guarded (c : String) (d : StructDesc) (h : Sample.archiveClasses c = some d) :
    RobustClass Sample.archiveClasses Sample.conversion d ∧ Guarded Sample.archiveClasses (fun _ => 0) 0 d := by
  unfold Sample.archiveClasses Classes.add at h
  split at h
  · cases h
    refine ⟨Sample.chunk_robust, ?_⟩
    refine fields_of_take (Q := fun pre f => Bounded Sample.archiveClasses f ∧ ((∃ g ∈ pre, Eats Sample.archiveClasses g) ∨
      ∀ c, Mentions f c → 0 < 0)) ?_
    intro i hi
    match i, hi with
    | 0, _ => exact ⟨.leaf, Or.inr fun c h => nomatch h⟩
    | 1, _ => exact ⟨.leaf, Or.inr fun c h => nomatch h⟩
  · simp [Sample.noClasses] at h

theorem Sample.archive_guarded : Guarded Sample.archiveClasses (fun _ => 0) 1 Sample.archive := by
  refine fields_of_take (Q := fun pre f => Bounded Sample.archiveClasses f ∧ ((∃ g ∈ pre, Eats Sample.archiveClasses g) ∨
    ∀ c, Mentions f c → 0 < 1)) ?_
  intro i hi
  refine ⟨?_, Or.inr fun _ _ => by decide⟩
  match i, hi with
  | 0, _ => exact .leaf
  | 1, _ => exact .leaf
  | 2, _ => exact .leaf
  | 3, _ => exact .leaf
  | 4, _ => exact .leaf
  | 5, _ => exact .leaf
  | 6, _ =>
    refine .unsized .nested (eats_nested (d := Sample.chunk) (f := Sample.u8 "size") (fun c d h => (Sample.archiveClasses_guarded c d h).1.forward)
      ⟨fun _ _ _ => rfl, rfl⟩ rfl (by simp [Sample.chunk]) ?_)
    exact eats_fixed (n := 1) ⟨fun _ _ _ => rfl, rfl⟩ trivial rfl (by decide) (by simp)

example (data : Bytes) (ctx : Value) : ∃ n, (structFromStream Sample.archiveClasses n Sample.archive ⟨data, 0⟩ ctx []).1 ≠ .error .outOfFuel :=
  C67_terminates_partial _ _ (by simp [Sample.conversion]) _ Sample.archiveClasses_guarded _ 1 Sample.archive_robust Sample.archive_guarded _
    (Nat.zero_le _) ctx

-- the constant, a truncated chunk, and text that is not UTF-8
example : (structFromStream Sample.archiveClasses 9 Sample.archive ⟨[79, 76, 0], 0⟩ .none []).1 = .error (.validation "magic") ∧
    (structFromStream Sample.archiveClasses 9 Sample.archive ⟨[79, 75, 0, 0, 45, 0, 0, 0, 0, 1, 7, 2, 8], 0⟩ .none []).1 =
      .error (.eof (some "chunks") 2 12) ∧
    (structFromStream Sample.archiveClasses 9 Sample.archive ⟨[79, 75, 1, 255], 0⟩ .none []).1 = .error .unicodeErr := by
  decide +kernel

end Verif
