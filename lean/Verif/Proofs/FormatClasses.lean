import Verif.Proofs.Formats
import Verif.Props.Resave

/-!
# The classes of the example formats
-/

namespace Verif
open Spec Conformance
open Formats (le)

theorem Formats.le_length (k : Nat) (i : Int) : (le k i).length = k := by
  induction k generalizing i with
  | zero => rfl
  | succ k ih => simp [Formats.le, ih]

theorem Formats.fatBytes_length {oemCode labelCode fsCode boot : Bytes} {bps spc res nf mre tls md spf spt nh hid tll dn vid : Int} (ho : oemCode.length ≤ 8) (hl : labelCode.length = 11)
    (hf : fsCode.length ≤ 8) (hb : boot.length = 448) :
    (Formats.fatBytes oemCode bps spc res nf mre tls md spf spt nh hid tll dn vid labelCode fsCode boot).flatten.length = 512 := by
  simp only [Formats.fatBytes, List.length_flatten, List.map_cons, List.map_nil, List.sum_cons, List.sum_nil]
  simp only [Formats.le_length, List.length_append, List.length_replicate, hl, hb]
  rw [Nat.add_sub_cancel' ho, Nat.add_sub_cancel' hf]
  rfl

theorem whateverLoop_step {d : StructDesc} {vals : Dict} {f : Field} {fs : List Field} {acc r : Dict} (v : Value)
    (h : f.base.computeValueForDump (structView d vals) .none = .ok v) (hr : whateverLoop d vals fs (acc.set f.name v) = .ok r) :
    whateverLoop d vals (f :: fs) acc = .ok r := by
  simp only [whateverLoop, h, hr]

/-- A computed field without value. -/
theorem computed_int {b : FieldBase} {all : View} {ctx : Value} {fn : View → Except Err Value} {i : Int} (hc : all.contains b.name = false)
    (hd : b.dflt = .undefined) (hf : b.computeFn = some fn) (hp : b.present all ctx none = .ok true) (h : fn all = .ok (.int i)) :
    b.computeValueForDump all ctx = .ok (.int i) := by
  simp [FieldBase.computeValueForDump, hc, hd, hf, hp, h]

theorem Formats.nameSize_ok {t : List Nat} {code : Bytes} (h : utf8Codec.encode t = .ok code) {v : View} (hv : v.get "filename" = .ok (.str t)) :
    nameSize v = .ok (.int (code.length + 1 : Nat)) := by
  obtain ⟨term, h1, -, h2⟩ := encode_terminated .utf8 h
  have h3 : utf8Codec.encode [0] = .ok [0] := by decide
  rw [h3] at h1; cases h1
  simp [nameSize, hv, Except.bind, h2, Except.map]

theorem Formats.cpioPadding_present {v : View} {ctx : Value} {s : Option Stream} {k : Nat} (h : v.get "name_size" = .ok (.int k)) :
    Formats.cpioPadding.present v ctx s = .ok (decide (k % 2 ≠ 0)) := by
  simp only [Formats.cpioPadding, intField, h, Except.bind, Except.map]
  congr 1
  simp only [decide_eq_decide]
  omega

theorem Formats.cpioPadding_value {v : View} {ctx : Value} {k : Nat} (hc : v.contains "_filename_padding" = false)
    (h : v.get "name_size" = .ok (.int k)) :
    Formats.cpioPadding.computeValueForDump v ctx = .ok (if k % 2 = 0 then .notPresent else .bytes [0]) := by
  have hp := cpioPadding_present (ctx := ctx) (s := none) h
  have hc' : v.contains Formats.cpioPadding.name = false := hc
  have hd : Formats.cpioPadding.default = .ok (.bytes [0]) := rfl
  have hd' : Formats.cpioPadding.dflt = .bytes [0] := rfl
  by_cases hk : k % 2 = 0 <;> simp [FieldBase.computeValueForDump, hc', hd, hd', hp, hk]

theorem Formats.cpio_nameSize (now : Value) (dev ino mode uid gid links ver time : Int) {name : List Nat} {code : Bytes} (data : Bytes)
    (h : utf8Codec.encode name = .ok code) (n : Nat) :
    structGet (Formats.cpio now) (Formats.cpioArgs dev ino mode uid gid links ver time name data) (n + 2) "name_size" =
      .ok (.int (code.length + 1 : Nat)) :=
  computed_int (ctx := .none) (b := { name := "name_size", typeName := "UInt16", size := .fixed 2, index := 9, offset := some 20,
                                      computeFn := some Conformance.nameSize }) rfl rfl rfl rfl (nameSize_ok h rfl)

theorem Formats.cpio_accepts (now : Value) (dev ino mode uid gid links ver time : Int) {name : List Nat} {code : Bytes} (data : Bytes)
    (hname : utf8Codec.encode name = .ok code) :
    validateContents (Formats.cpio now) (Formats.cpioArgs dev ino mode uid gid links ver time name data) = .ok () := by
  refine validateContents_ok_iff.2 (unchecked_accepts (d := Formats.cpio now)
    (show ∀ p ∈ (Formats.cpio .none).fieldValidators, p.2 = [] ∧ p.1 ∈ names (Formats.cpio .none) by decide)
    (by simp [Formats.cpio, Field.base, Formats.cpioPadding]) rfl (show (names (Formats.cpio .none)).Nodup by decide) ?_)
  have hns := Formats.cpio_nameSize now dev ino mode uid gid links ver time data hname
  intro f hf
  obtain ⟨i, hi, rfl⟩ := List.mem_iff_getElem.1 hf
  match i, hi with
  | 0, _ | 1, _ | 2, _ | 3, _ | 4, _ | 5, _ | 6, _ | 7, _ | 8, _ | 10, _ | 11, _ | 13, _ => exact ⟨_, rfl⟩
  | 9, _ => exact ⟨_, hns _⟩
  | 12, _ => 
    refine ⟨_, Formats.cpioPadding_value (v := ⟨structContains (Formats.cpioArgs dev ino mode uid gid links ver time name data),
      structGet (Formats.cpio now) (Formats.cpioArgs dev ino mode uid gid links ver time name data) 14⟩) (ctx := .none) rfl (hns _)⟩

theorem Formats.cpio_toDict (Γ : Classes) (n : Nat) (now : Value) (dev ino mode uid gid links ver time : Int) (name : List Nat) (code data : Bytes)
    (h : utf8Codec.encode name = .ok code) :
    structToDict Γ (n + 1) (Formats.cpio now) (Formats.cpioArgs dev ino mode uid gid links ver time name data) =
      .ok (Formats.cpioArgs dev ino mode uid gid links ver time name data ++
        [("name_size", .int (code.length + 1 : Nat)), ("file_size", .int data.length)]) := by
  have hl : whateverLoop (Formats.cpio now) (Formats.cpioArgs dev ino mode uid gid links ver time name data) (Formats.cpio now).components [] =
      .ok [("magic", .int 29127), ("device_id", .int dev), ("inumber", .int ino), ("mode", .int mode), ("owner_uid", .int uid),
        ("owner_gid", .int gid), ("n_links", .int links), ("device_version", .int ver), ("modified_time", .datetime (time * 1000000) true),
        ("name_size", .int (code.length + 1 : Nat)), ("file_size", .int data.length), ("filename", .str name),
        ("_filename_padding", if (code.length + 1) % 2 = 0 then .notPresent else .bytes [0]), ("data", .bytes data)] := by
    refine whateverLoop_step _ rfl (whateverLoop_step _ rfl (whateverLoop_step _ rfl (whateverLoop_step _ rfl (whateverLoop_step _ rfl
      (whateverLoop_step _ rfl (whateverLoop_step _ rfl (whateverLoop_step _ rfl (whateverLoop_step _ rfl (whateverLoop_step
        (.int (code.length + 1 : Nat)) ?_ (whateverLoop_step _ rfl (whateverLoop_step _ rfl (whateverLoop_step
          (if (code.length + 1) % 2 = 0 then .notPresent else .bytes [0]) ?_ (whateverLoop_step _ rfl (by kernel_rfl))))))))))))))
    · exact computed_int rfl rfl rfl rfl (nameSize_ok h rfl)
    · refine cpioPadding_value rfl ?_
      exact cpio_nameSize now dev ino mode uid gid links ver time data h _
  unfold structToDict toDictShallow whateverPossible
  simp only [hl]
  show _ = _
  kernel_rfl

theorem Formats.wavData_canonical (Γ : Classes) : CanonicalClass Γ Formats.wavData where
  unique := show (names Formats.wavData).Nodup by decide
  checks := unchecked_fair (d := Formats.wavData) (show ∀ p ∈ Formats.wavData.fieldValidators, p.2 = [] ∧ p.1 ∈ names Formats.wavData by decide)
    (by simp [Formats.wavData, Field.base]) rfl (show (names Formats.wavData).Nodup by decide)
  fields := by
    refine fields_of_take (Q := CanonicalField Γ) ?_
    intro i hi
    change i < 3 at hi
    match i, hi with
    | 0, _ => exact .plain (.bytes (Or.inl ⟨4, rfl⟩)) ⟨fun _ _ _ => rfl, rfl⟩ rfl rfl
    | 1, _ => exact .plain (.integer (n := 4) rfl (by decide)) ⟨fun _ _ _ => rfl, rfl⟩ rfl rfl
    | 2, _ => exact .plain (.bytes (Or.inr ⟨"size", ⟨_, _, .tail _ (.head _), rfl, ⟨fun _ _ _ => rfl, rfl⟩, rfl⟩, rfl⟩)) ⟨fun _ _ _ => rfl, rfl⟩ rfl rfl

theorem Formats.wavFormat_canonical (Γ : Classes) : CanonicalClass Γ Formats.wavFormat where
  unique := show (names Formats.wavFormat).Nodup by decide
  checks := unchecked_fair (d := Formats.wavFormat) (show ∀ p ∈ Formats.wavFormat.fieldValidators, p.2 = [] ∧ p.1 ∈ names Formats.wavFormat by decide)
    (by simp [Formats.wavFormat, Field.base]) rfl (show (names Formats.wavFormat).Nodup by decide)
  fields := by
    refine fields_of_take (Q := CanonicalField Γ) ?_
    intro i hi
    change i < 8 at hi
    match i, hi with
    | 0, _ => exact .plain (.bytes (Or.inl ⟨4, rfl⟩)) ⟨fun _ _ _ => rfl, rfl⟩ rfl rfl
    | 1, _ | 4, _ | 5, _ => exact .plain (.integer (n := 4) rfl (by decide)) ⟨fun _ _ _ => rfl, rfl⟩ rfl rfl
    | 2, _ | 3, _ | 6, _ | 7, _ => exact .plain (.integer (n := 2) rfl (by decide)) ⟨fun _ _ _ => rfl, rfl⟩ rfl rfl

theorem Formats.wavFile_canonical (Γ : Classes) : CanonicalClass Γ Formats.wavFile where
  unique := show (names Formats.wavFile).Nodup by decide
  checks := unchecked_fair (d := Formats.wavFile) (show ∀ p ∈ Formats.wavFile.fieldValidators, p.2 = [] ∧ p.1 ∈ names Formats.wavFile by decide)
    (by simp [Formats.wavFile, Field.base]) rfl (show (names Formats.wavFile).Nodup by decide)
  fields := by
    refine fields_of_take (Q := CanonicalField Γ) ?_
    intro i hi
    change i < 3 at hi
    match i, hi with
    | 0, _ | 2, _ => exact .plain (.bytes (Or.inl ⟨4, rfl⟩)) ⟨fun _ _ _ => rfl, rfl⟩ rfl rfl
    | 1, _ => exact .plain (.integer (n := 4) rfl (by decide)) ⟨fun _ _ _ => rfl, rfl⟩ rfl rfl

theorem Formats.cpio_canonical (Γ : Classes) (now : Value) : CanonicalClass Γ (Formats.cpio now) where
  unique := show (names (Formats.cpio .none)).Nodup by decide
  checks := unchecked_fair (d := (Formats.cpio now)) (show ∀ p ∈ (Formats.cpio .none).fieldValidators, p.2 = [] ∧ p.1 ∈ names (Formats.cpio .none) by decide)
    (by simp [Formats.cpio, Field.base, Formats.cpioPadding]) rfl (show (names (Formats.cpio .none)).Nodup by decide)
  fields := by
    refine fields_of_take (Q := CanonicalField Γ) ?_
    intro i hi
    change i < 14 at hi
    match i, hi with
    | 0, _ => exact ⟨.integer (n := 2) rfl (by decide), Or.inr ⟨_, _, _, rfl, rfl, rfl, rfl, rfl, Or.inr (Or.inr ⟨_, _, _, rfl, rfl⟩)⟩, Or.inl rfl, ⟨[], by simp, fun _ _ _ _ _ _ _ => rfl⟩, rfl⟩
    | 1, _ | 2, _ | 3, _ | 4, _ | 5, _ | 6, _ | 7, _ | 9, _ => exact .plain (.integer (n := 2) rfl (by decide)) ⟨fun _ _ _ => rfl, rfl⟩ rfl rfl
    | 8, _ => exact .plain (.timestamp (n := 4) rfl (by decide)) ⟨fun _ _ _ => rfl, rfl⟩ rfl rfl
    | 10, _ => exact .plain (.integer (n := 4) rfl (by decide)) ⟨fun _ _ _ => rfl, rfl⟩ rfl rfl
    | 11, _ => exact .plain (.stringz .utf8 rfl) ⟨fun _ _ _ => rfl, rfl⟩ rfl rfl
    | 12, _ =>
      refine ⟨.bytes (Or.inl ⟨1, rfl⟩), Or.inr ⟨_, _, _, rfl, rfl, rfl, rfl, rfl, Or.inl ⟨_, rfl⟩⟩, Or.inl rfl, ⟨["name_size"], ?_, ?_⟩, rfl⟩
      · intro r hr
        simp only [List.mem_singleton] at hr
        subst hr
        exact ⟨_, _, .tail _ (.tail _ (.tail _ (.tail _ (.tail _ (.tail _ (.tail _ (.tail _ (.tail _ (.head _))))))))), rfl, rfl⟩
      · intro v₁ v₂ _ _ _ _ h
        show Formats.cpioPadding.present v₁ .none none = Formats.cpioPadding.present v₂ .none none
        simp only [Formats.cpioPadding, Conformance.intField, h "name_size" (by simp)]
    | 13, _ => exact .plain (.bytes (Or.inr ⟨"file_size", ⟨_, _, .tail _ (.tail _ (.tail _ (.tail _ (.tail _ (.tail _ (.tail _ (.tail _ (.tail _ (.tail _ (.head _)))))))))), rfl, ⟨fun _ _ _ => rfl, rfl⟩, rfl⟩, rfl⟩)) ⟨fun _ _ _ => rfl, rfl⟩ rfl rfl

theorem Formats.bmp_canonical (Γ : Classes) : CanonicalClass Γ Formats.bmp where
  unique := show (names Formats.bmp).Nodup by decide
  checks := unchecked_fair (d := Formats.bmp) (show ∀ p ∈ Formats.bmp.fieldValidators, p.2 = [] ∧ p.1 ∈ names Formats.bmp by decide)
    (by simp [Formats.bmp, Field.base]) rfl (show (names Formats.bmp).Nodup by decide)
  fields := by
    refine fields_of_take (Q := CanonicalField Γ) ?_
    intro i hi
    change i < 15 at hi
    match i, hi with
    | 0, _ => exact ⟨.bytes (Or.inl ⟨2, rfl⟩), Or.inr ⟨_, _, _, rfl, rfl, rfl, rfl, rfl, Or.inl ⟨_, rfl⟩⟩, Or.inl rfl, ⟨[], by simp, fun _ _ _ _ _ _ _ => rfl⟩, rfl⟩
    | 1, _ | 3, _ | 5, _ | 6, _ | 9, _ | 10, _ | 11, _ | 12, _ | 13, _ | 14, _ => exact .plain (.integer (n := 4) rfl (by decide)) ⟨fun _ _ _ => rfl, rfl⟩ rfl rfl
    | 2, _ => exact ⟨.bytes (Or.inl ⟨4, rfl⟩), Or.inr ⟨_, _, _, rfl, rfl, rfl, rfl, rfl, Or.inl ⟨_, rfl⟩⟩, Or.inl rfl, ⟨[], by simp, fun _ _ _ _ _ _ _ => rfl⟩, rfl⟩
    | 4, _ => exact ⟨.integer (n := 4) rfl (by decide), Or.inr ⟨_, _, _, rfl, rfl, rfl, rfl, rfl, Or.inr (Or.inr ⟨_, _, _, rfl, rfl⟩)⟩, Or.inl rfl, ⟨[], by simp, fun _ _ _ _ _ _ _ => rfl⟩, rfl⟩
    | 7, _ | 8, _ => exact .plain (.integer (n := 2) rfl (by decide)) ⟨fun _ _ _ => rfl, rfl⟩ rfl rfl

theorem Formats.fat12_canonical (Γ : Classes) : CanonicalClass Γ Formats.fat12 where
  unique := show (names Formats.fat12).Nodup by decide
  checks := unchecked_fair (d := Formats.fat12) (show ∀ p ∈ Formats.fat12.fieldValidators, p.2 = [] ∧ p.1 ∈ names Formats.fat12 by decide)
    (by simp [Formats.fat12, Field.base, -List.reduceReplicate]) rfl (show (names Formats.fat12).Nodup by decide)
  fields := by
    refine fields_of_take (Q := CanonicalField Γ) ?_
    intro i hi
    change i < 22 at hi
    match i, hi with
    | 0, _ => exact .plain (.bytes (Or.inl ⟨3, rfl⟩)) ⟨fun _ _ _ => rfl, rfl⟩ rfl rfl
    | 1, _ | 19, _ => exact .plain (.string .ascii (Or.inl ⟨8, rfl⟩)) ⟨fun _ _ _ => rfl, rfl⟩ rfl rfl
    | 2, _ | 4, _ | 6, _ | 7, _ | 9, _ | 10, _ | 11, _ => exact .plain (.integer (n := 2) rfl (by decide)) ⟨fun _ _ _ => rfl, rfl⟩ rfl rfl
    | 3, _ | 5, _ | 8, _ | 14, _ => exact .plain (.integer (n := 1) rfl (by decide)) ⟨fun _ _ _ => rfl, rfl⟩ rfl rfl
    | 12, _ | 13, _ | 17, _ => exact .plain (.integer (n := 4) rfl (by decide)) ⟨fun _ _ _ => rfl, rfl⟩ rfl rfl
    | 15, _ | 16, _ => exact ⟨.bytes (Or.inl ⟨1, rfl⟩), Or.inr ⟨_, _, _, rfl, rfl, rfl, rfl, rfl, Or.inl ⟨_, rfl⟩⟩, Or.inl rfl, ⟨[], by simp, fun _ _ _ _ _ _ _ => rfl⟩, rfl⟩
    | 18, _ => exact .plain (.string .latin1 (Or.inl ⟨11, rfl⟩)) ⟨fun _ _ _ => rfl, rfl⟩ rfl rfl
    | 20, _ => exact .plain (.bytes (Or.inl ⟨448, rfl⟩)) ⟨fun _ _ _ => rfl, rfl⟩ rfl rfl
    | 21, _ => exact .plain (.bytes (Or.inl ⟨2, rfl⟩)) ⟨fun _ _ _ => rfl, rfl⟩ rfl rfl
    | j + 22, h => exact absurd h (by omega)

theorem Formats.classes_canonical (now : Value) (c : String) (d : StructDesc) (h : Formats.classes now c = some d) :
    CanonicalClass (Formats.classes now) d := by
  have := List.mem_of_find?_eq_some h
  simp only [List.mem_cons, List.not_mem_nil, or_false] at this
  rcases this with rfl | rfl | rfl | rfl | rfl | rfl
  · exact Formats.wavFile_canonical _
  · exact Formats.wavFormat_canonical _
  · exact Formats.wavData_canonical _
  · exact Formats.cpio_canonical _ now
  · exact Formats.bmp_canonical _
  · exact Formats.fat12_canonical _

/-- The dump of a struct up to the first field that fails. -/
theorem structToStream_fails {Γ : Classes} {n : Nat} {d : StructDesc} {vals all : Dict} {ctx v : Value} {pre post : List Field} {f : Field}
    {ps : List Bytes} {e : Err} (hv : validateContents d vals = .ok ()) (ha : structToDict Γ n d vals = .ok all)
    (hd : d.components = pre ++ f :: post) (hp : Parts Γ n ctx all pre ps) (hf : f.base.computeValueForDump all.view ctx = .ok v)
    (hv' : v ≠ .notPresent) (h : fieldToStream Γ n f v ctx all = ([], .error e)) :
    structToStream Γ (n + 1) d vals ctx = (ps.flatten, .error e) := by
  rw [structToStream, structToStreamWith]
  simp only [hv, ha, hd]
  clear hd hv ha
  induction hp with
  | nil => simp [dumpFields, hf, hv', h, W.seq]
  | @cons g fs p ps hg _ ih =>
    obtain ⟨w, h1, h2⟩ := part_iff.1 hg
    rcases h2 with ⟨rfl, rfl⟩ | ⟨h2, h3⟩
    · simp [dumpFields, h1, ih]
    · simp [dumpFields, h1, h2, h3, ih, W.seq]

theorem int_overflow {Γ : Classes} {n : Nat} {ctx : Value} {all : Dict} {b : FieldBase} {sg : Bool} {en : Endian} (k : Nat) (i : Int)
    (hs : b.size = .fixed k) (hk : 0 < k) (hv : b.validators = []) (hi : ¬ InRange k sg i) :
    fieldToStream Γ (n + 1) (.leaf b (.integer sg en)) (.int i) ctx all = ([], .error (.unserializable b.name)) := by
  have hw := (intToBytes_eq i k hk en sg).2 hi
  simp [fieldToStream, toStreamWith, leafDump, hs, writeInt, hw, unserializableOnRange, W.ofExcept, hv, runValidators, W.fail, W.toExcept]

end Verif
