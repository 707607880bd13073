import Verif.Proofs.Recode
import Verif.Props.Turn

/-!
# C130: a text may be given a wider encoding

* `C130_dump`: dumping;
* `C130_load`: loading;
* `C130_ascii_utf8`, `C130_ascii_latin1`, `C130_ascii_charmap`: UTF-8, ISO 8859-1 and the code pages that contain ASCII are wider than ASCII;
* `C130_latin1_refuted`: UTF-8 is not wider than ISO 8859-1.
-/

namespace Verif
open Spec

/-- Dumping: what can be dumped with the narrower encodings is dumped to the same bytes with the wider one. -/
theorem C130_dump (Γ : Classes) (n : Nat) (X : List String) (k' : CharCodec) (d d' : StructDesc) (hd : Recoded X k' d d') (ctx : Value)
    (vals : Dict) (hval : Valid d' vals) (bs : Bytes) (h : structToStream Γ n d vals ctx = (bs, .ok ())) :
    structToStream Γ n d' vals ctx = (bs, .ok ()) := by
  cases n with
  | zero => simp [structToStream, W.fail] at h
  | succ n =>
    obtain ⟨-, all, h1, ps, h2, rfl⟩ := structToStream_ok_iff.1 h
    refine structToStream_ok_iff.2 ⟨hval, all, ?_, ps, ?_, rfl⟩
    · rw [structToDict_mapped hd.fields (base_recode X k')]
      exact h1
    · rw [hd.fields]
      exact parts_recode hd.texts h2

/-- Loading: what can be loaded with the narrower encodings is loaded with the wider one, to the same values, and to the same place. -/
theorem C130_load (Γ : Classes) (n : Nat) (X : List String) (k' : CharCodec) (d d' : StructDesc) (hd : Recoded X k' d d') (ctx : Value)
    (s t : Stream) (vals : Dict) (h : structFromStream Γ n d s ctx [] = (.ok vals, t)) : LoadsUnlessRejected Γ n d' s ctx vals t := by
  cases n with
  | zero => simp [structFromStream] at h
  | succ n =>
    obtain ⟨results, h1, h2, -, rfl⟩ := structFromStream_ok_iff.1 h
    have h3 := loads_recode hd.texts h1
    rw [← hd.fields] at h3
    rw [← dropDiscarded_mapped hd.fields (base_recode X k')]
    exact loadsUnlessRejected_of h3

/-- UTF-8 is wider than ASCII. -/
theorem C130_ascii_utf8 : Widens asciiCodec utf8Codec where
  enc c b h := by
    simp only [asciiCodec] at h
    split at h
    · rename_i hc
      simp only [utf8Codec]
      rw [if_pos hc]
      exact h
    · cases h
  char b c n h := by
    cases b with
    | nil => cases h
    | cons x b =>
      simp only [asciiCodec] at h
      split at h
      · rename_i hx
        simp only [utf8Codec]
        rw [if_pos hx]
        exact h
      · cases h
  more b h := by
    cases b with
    | nil => rfl
    | cons x b => simp only [asciiCodec] at h; split at h <;> cases h

/-- ISO 8859-1 is wider than ASCII. -/
theorem C130_ascii_latin1 : Widens asciiCodec latin1Codec where
  enc c b h := by
    simp only [asciiCodec] at h
    split at h
    · simp only [latin1Codec]
      rw [if_pos (by omega)]
      exact h
    · cases h
  char b c n h := by
    cases b with
    | nil => cases h
    | cons x b =>
      simp only [asciiCodec] at h
      split at h
      · exact h
      · cases h
  more b h := by
    cases b with
    | nil => rfl
    | cons x b => simp only [asciiCodec] at h; split at h <;> cases h

/-- A code page is wider than ASCII if its first half is ASCII and its second half has none of these characters. -/
theorem C130_ascii_charmap (table : UInt8 → Option Nat) (hlow : ∀ b : UInt8, b.toNat < 128 → table b = some b.toNat)
    (hhigh : ∀ (b : UInt8) c, 128 ≤ b.toNat → table b = some c → 128 ≤ c) : Widens asciiCodec (charmapCodec table) where
  enc c b h := by
    simp only [asciiCodec] at h
    split at h
    · rename_i hc
      cases h
      have hto : (UInt8.ofNat c).toNat = c := by simp [UInt8.toNat_ofNat']; omega
      simp only [charmapCodec]
      cases hf : ((List.range 256).map UInt8.ofNat).reverse.find? fun b => decide (table b = some c) with
      | none =>
        rw [List.find?_eq_none] at hf
        have := hf (UInt8.ofNat c) (by
          simp only [List.mem_reverse, List.mem_map, List.mem_range]
          exact ⟨c, by omega, rfl⟩)
        rw [hlow _ (by omega), hto] at this
        simp at this
      | some x =>
        have hx := List.find?_some hf
        simp only [decide_eq_true_eq] at hx
        have hlt : x.toNat < 128 := by
          by_contra hge
          have := hhigh x c (by omega) hx
          omega
        rw [hlow x hlt] at hx
        cases hx
        simp
    · cases h
  char b c n h := by
    cases b with
    | nil => cases h
    | cons x b =>
      simp only [asciiCodec] at h
      split at h
      · rename_i hx
        simp only [charmapCodec, hlow x hx]
        exact h
      · cases h
  more b h := by
    cases b with
    | nil => rfl
    | cons x b => simp only [asciiCodec] at h; split at h <;> cases h

/-! ### Examples -/

namespace Sample

/-- ```
class Label(Struct):
    n = UInt8()
    text = String(size=n, encoding="ascii")
    note = StringZ(encoding="ascii")
``` -/
def labelAscii : StructDesc := { name := "Label", components :=
  [.leaf { name := "n", size := .fixed 1 } (.integer false .big), .leaf { name := "text", size := .ref "n" } (.string asciiCodec none),
    .leaf { name := "note" } (.stringz asciiCodec none)] }

/-- `text` and `note` have `encoding="utf-8"`. -/
def labelUtf8 : StructDesc := { name := "Label", components :=
  [.leaf { name := "n", size := .fixed 1 } (.integer false .big), .leaf { name := "text", size := .ref "n" } (.string utf8Codec none),
    .leaf { name := "note" } (.stringz utf8Codec none)] }

theorem label_recoded : Recoded ["text", "note"] utf8Codec labelAscii labelUtf8 :=
  ⟨rfl, fun f hf hx => by
    simp only [labelAscii, List.mem_cons, List.not_mem_nil, or_false] at hf
    rcases hf with rfl | rfl | rfl
    · exact absurd hx (by decide)
    · exact ⟨_, .string rfl, C130_ascii_utf8⟩
    · exact ⟨_, .stringz rfl, C130_ascii_utf8⟩⟩

end Sample

-- dumping
example : structToStream Sample.noClasses 9 Sample.labelUtf8 [("n", .int 2), ("text", .str [72, 105]), ("note", .str [33])] .none =
    ([2, 72, 105, 33, 0], .ok ()) :=
  C130_dump Sample.noClasses 9 _ _ _ _ Sample.label_recoded .none _ (validateContents_ok_iff.1 (by decide)) _ (by decide +kernel)

-- loading
example : LoadsUnlessRejected Sample.noClasses 9 Sample.labelUtf8 ⟨[2, 72, 105, 33, 0, 7], 0⟩ .none
    [("n", .int 2), ("text", .str [72, 105]), ("note", .str [33])] ⟨[2, 72, 105, 33, 0, 7], 5⟩ :=
  C130_load Sample.noClasses 9 _ _ _ _ Sample.label_recoded .none _ _ _ (by decide +kernel)

-- a code page: ASCII, and the euro sign at 128
example : Widens asciiCodec (charmapCodec fun b => if b.toNat < 128 then some b.toNat else if b.toNat = 128 then some 0x20AC else none) :=
  C130_ascii_charmap _ (fun b h => by simp [h]) fun b c h hc => by
    simp only [show ¬ b.toNat < 128 by omega, if_false] at hc
    split at hc
    · cases hc; omega
    · cases hc

/-- **C130** is about wider encodings: UTF-8 has more characters than ISO 8859-1, but other bytes for some. A class with a text in ISO 8859-1 and the
same class in UTF-8 dump `"é"` to different bytes, and what the first dumps the second cannot load. -/
theorem C130_latin1_refuted : ¬ Widens latin1Codec utf8Codec ∧ ∃ d d' : StructDesc, d'.components = d.components.map (recodeField ["t"] utf8Codec) ∧
    structToStream Sample.noClasses 9 d [("t", .str [0xE9])] .none = ([0xE9, 0], .ok ()) ∧
    structToStream Sample.noClasses 9 d' [("t", .str [0xE9])] .none = ([0xC3, 0xA9, 0], .ok ()) ∧
    ∃ e, (structFromStream Sample.noClasses 9 d' ⟨[0xE9, 0], 0⟩ .none []).1 = .error e :=
  ⟨fun h => absurd (h.enc 0xE9 [0xE9] (by decide)) (by decide),
    { name := "", components := [.leaf { name := "t" } (.stringz latin1Codec none)] },
    { name := "", components := [.leaf { name := "t" } (.stringz utf8Codec none)] }, rfl, by decide +kernel, by decide +kernel, _, by rfl⟩

end Verif
