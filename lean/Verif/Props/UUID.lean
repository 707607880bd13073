import Verif.Proofs.UUID
import Verif.Spec.Samples

/-!
# Properties of UUID fields

C50.
-/

namespace Verif
open Spec

/-- **C50** Every UUID round-trips through a `UUID4` field in every storage format, taking 16, 16, 36 and 32 bytes. -/
theorem C50_uuid_round_trip (Γ : Classes) (m : Nat) (b : FieldBase) (fmt : UUIDFormat) (u : Nat) (ctx : Value)
    (all loaded : Dict) (hu : u < 2 ^ 128) (hplain : Plain b (.uuid u)) (hsize : b.size = .fixed fmt.size) :
    ∃ bs, fieldToStream Γ (m + 1) (.leaf b (.uuid fmt)) (.uuid u) ctx all = (bs, .ok ()) ∧
      bs.length = (match fmt with
        | .binaryVariant1 => 16
        | .binaryVariant2 => 16
        | .canonicalString => 36
        | .hexString => 32) ∧
      ∀ pre rest, fieldFromStream Γ (m + 2) (.leaf b (.uuid fmt)) ⟨pre ++ bs ++ rest, pre.length⟩ ctx loaded =
        (.ok (.uuid u), ⟨pre ++ bs ++ rest, pre.length + bs.length⟩) := by
  refine ⟨uuidDump fmt u, ?_, ?_, ?_⟩
  · apply fieldToStream_plain (f := .leaf b (.uuid fmt)) (by simp) (by simp) (by simp) hplain.2.2.2
      (Or.inr (Or.inl (by rw [uuidDump_length]; exact hsize)))
    rfl
  · have := uuidDump_length fmt u
    generalize uuidDump fmt u = x at this
    cases fmt <;> simp only [UUIDFormat.size] at this ⊢ <;> omega
  · intro pre rest
    apply fieldFromStream_plain (f := .leaf b (.uuid fmt)) hplain
    have hr : (⟨pre ++ uuidDump fmt u ++ rest, pre.length⟩ : Stream).rest = uuidDump fmt u ++ rest := by
      simp [Stream.rest, List.append_assoc]
    simp only [fieldDoLoad, leafLoad, ← uuidDump_length fmt u, Stream.read_nat, hr]
    rw [List.take_left, if_neg (by simp), uuidParse_dump fmt hu]
    simp [Except.map]

/-- **C50** The two binary formats differ only in the byte order of the first three groups (of 4, 2 and 2 bytes). -/
theorem C50_binary_formats (u : Nat) : ∃ a b c d : Bytes, a.length = 4 ∧ b.length = 2 ∧ c.length = 2 ∧ d.length = 8 ∧
    uuidDump .binaryVariant1 u = a ++ b ++ c ++ d ∧
    uuidDump .binaryVariant2 u = a.reverse ++ b.reverse ++ c.reverse ++ d := by
  obtain ⟨a, b, c, d, h, ha, hb, hc, hd⟩ := groups_of_length (uuidBytes_length u)
  exact ⟨a, b, c, d, ha, hb, hc, hd, h, by rw [uuidDump, h, uuidSwap_groups ha hb hc]⟩

/-- **C50** The binary format is the UUID's number in big-endian order. -/
theorem C50_binary_is_big_endian (u : Nat) (hu : u < 2 ^ 128) : intOfBytes (uuidDump .binaryVariant1 u) .big false = u := by
  simp [intOfBytes, uuidDump, uuidBytes_val hu]

/-- **C50** The canonical string is the hexadecimal string with dashes after 8, 12, 16 and 20 digits. -/
theorem C50_text_formats (u : Nat) : ∃ a b c d e : Bytes, a.length = 8 ∧ b.length = 4 ∧ c.length = 4 ∧ d.length = 4 ∧
    e.length = 12 ∧ uuidDump .hexString u = a ++ b ++ c ++ d ++ e ∧
    uuidDump .canonicalString u = a ++ [0x2D] ++ b ++ [0x2D] ++ c ++ [0x2D] ++ d ++ [0x2D] ++ e := by
  refine ⟨(uuidHex u).take 8, ((uuidHex u).drop 8).take 4, ((uuidHex u).drop 12).take 4, ((uuidHex u).drop 16).take 4,
    (uuidHex u).drop 20, ?_, ?_, ?_, ?_, ?_, ?_, rfl⟩
  all_goals first
    | (simp [uuidHex, hexDigits_length]; done)
    | (rw [uuidDump]; simp only [List.append_assoc]; exact (take_drop_join _).symm)

/-- **C50** Every 16 bytes are a UUID in both binary formats, and dumping it again gives the same bytes. -/
theorem C50_binary_load_dump (fmt : UUIDFormat) (hfmt : fmt = .binaryVariant1 ∨ fmt = .binaryVariant2) (raw : Bytes)
    (h : raw.length = 16) : ∃ u, uuidParse fmt raw = .ok u ∧ u < 2 ^ 128 ∧ uuidDump fmt u = raw := by
  rcases hfmt with rfl | rfl
  · exact ⟨_, rfl, natOfLE_lt16 (by simpa using h), uuidBytes_of h⟩
  · refine ⟨_, rfl, natOfLE_lt16 (by simpa using uuidSwap_length h), ?_⟩
    rw [uuidDump, uuidBytes_of (uuidSwap_length h), uuidSwap_swap h]

/-- **C50** Both text formats load the 32 hexadecimal digits of a UUID in upper or lower case, with dashes anywhere. -/
theorem C50_text_load (fmt : UUIDFormat) (hfmt : fmt = .canonicalString ∨ fmt = .hexString) (raw : Bytes) (u : Nat) (hu : u < 2 ^ 128)
    (h : (raw.filter (· ≠ 0x2D)).map asciiLower = uuidDump .hexString u) : uuidParse fmt raw = .ok u := by
  have hx : ∀ c ∈ raw, IsHex c ∨ c = 45 := by
    intro c hc
    by_cases h45 : c = 45
    · exact Or.inr h45
    · refine Or.inl (isHex_lower c (uuidHex_isHex u _ ?_))
      have : asciiLower c ∈ (raw.filter (· ≠ 0x2D)).map asciiLower :=
        List.mem_map_of_mem (List.mem_filter.2 ⟨hc, by simpa using h45⟩)
      rw [h] at this
      exact this
  have hp : uuidOfHex raw = some u := uuidOfHex_text hx rfl h hu
  rcases hfmt with rfl | rfl <;> simp only [uuidParse, ascii_all hx, if_true, hp]

-- "4FCD056D-f29b-4cb88e3799ab1b56a5-55"
example : uuidParse .hexString [0x34, 0x46, 0x43, 0x44, 0x30, 0x35, 0x36, 0x44, 0x2D, 0x66, 0x32, 0x39, 0x62, 0x2D, 0x34, 0x63, 0x62, 0x38,
    0x38, 0x65, 0x33, 0x37, 0x39, 0x39, 0x61, 0x62, 0x31, 0x62, 0x35, 0x36, 0x61, 0x35, 0x2D, 0x35, 0x35] =
    .ok 0x4fcd056df29b4cb88e3799ab1b56a555 := C50_text_load _ (Or.inr rfl) _ _ (by decide) (by decide +kernel)

-- 4fcd056d-f29b-4cb8-8e37-99ab1b56a555
example : uuidDump .binaryVariant2 0x4fcd056df29b4cb88e3799ab1b56a555 =
    [0x6d, 0x05, 0xcd, 0x4f, 0x9b, 0xf2, 0xb8, 0x4c, 0x8e, 0x37, 0x99, 0xab, 0x1b, 0x56, 0xa5, 0x55] := by decide
example : (uuidDump .canonicalString 0x4fcd056df29b4cb88e3799ab1b56a555).take 10 =
    [0x34, 0x66, 0x63, 0x64, 0x30, 0x35, 0x36, 0x64, 0x2D, 0x66] := by decide
example : Plain ({ name := "id", size := .fixed 36 } : FieldBase) (.uuid 7) := by simp [Plain]

end Verif
