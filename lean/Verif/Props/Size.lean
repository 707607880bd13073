import Verif.Proofs.Size
import Verif.Props.Class
import Verif.Spec.Samples

/-!
# Sizes of structs (C30, C31)

`Struct.get_size()` (`/repo/binobj/structures.py:179-201`) and `len(struct)` (`/repo/binobj/structures.py:761-775`) compared with
the number of bytes `to_bytes` produces.
-/

namespace Verif
open Spec

/-- No field of the struct is left out of the dump. -/
def Spec.AllDumped (Γ : Classes) (d : StructDesc) (vals : Dict) (ctx : Value) : Prop :=
  ∀ n all, structToDict Γ n d vals = .ok all → ∀ f ∈ d.components, ¬ Skipped f all ctx

/-- How to show `AllDumped` for a concrete instance. -/
theorem allDumped_of {Γ : Classes} {d : StructDesc} {vals all : Dict} {ctx : Value} (n : Nat)
    (h : structToDict Γ n d vals = .ok all)
    (hf : ∀ f ∈ d.components, ∃ v, all.view.contains f.base.name = true ∧ all.view.get f.base.name = .ok v ∧ v ≠ .notPresent ∧
      f.base.present all.view ctx none = .ok true) : AllDumped Γ d vals ctx := by
  intro m all' h' f hm hs
  have h1 := (structToDict_mono Γ (Nat.le_max_left n m) d vals false).of_ok h
  have h2 := (structToDict_mono Γ (Nat.le_max_right n m) d vals false).of_ok h'
  rw [h1] at h2; simp at h2; subst h2
  obtain ⟨v, hv1, hv2, hv3, hv4⟩ := hf f hm
  obtain ⟨w, hw, hs⟩ := hs
  have := Chosen.unique hw (.explicit hv1 hv2)
  subst this
  rcases hs with hs | hs
  · exact hv3 hs
  · rw [hv4] at hs; simp at hs

/-! ## C30 -/

/-- **C30** fails for a field without a size but with a default: the size of the default is taken for the size of all values. -/
theorem C30_guessed_refuted :
    ∃ (d : StructDesc) (vals : Dict) (bs : Bytes), UniqueNames d ∧ Instance d vals ∧
      structGetSize Sample.noClasses 1 d [] = .ok (some 3) ∧
      structToStream Sample.noClasses 3 d vals .none = (bs, .ok ()) ∧ bs.length = 6 :=
  ⟨{ name := "S", components := [Sample.upd (Sample.strz "s") ({ · with dflt := .str [0x61, 0x62] })]
     fieldValidators := [("s", [])] },
   [("s", .str [0x61, 0x62, 0x63, 0x64, 0x65])], [0x61, 0x62, 0x63, 0x64, 0x65, 0], by unfold UniqueNames; decide,
   by unfold Instance; decide, by decide, by decide, by decide⟩

/-- **C30** fails for a field that is not present: its size is counted all the same. -/
theorem C30_absent_refuted :
    ∃ (d : StructDesc) (vals : Dict) (bs : Bytes), UniqueNames d ∧ Instance d vals ∧
      structGetSize Sample.noClasses 1 d [] = .ok (some 3) ∧
      structToStream Sample.noClasses 3 d vals .none = (bs, .ok ()) ∧ bs.length = 1 :=
  ⟨{ name := "S", components := [Sample.u8 "a", Sample.upd (Sample.u16 "b") ({ · with present := fun _ _ _ => .ok false })]
     fieldValidators := [("a", []), ("b", [])] },
   [("a", .int 5)], [5], by unfold UniqueNames; decide, by unfold Instance; decide, by decide, by decide, by decide⟩

/-- **C30**, the part that holds.  If `get_size()` returns `k`, an instance that dumps takes `k` bytes, provided no size was guessed
from a default, no field is left out, `None` - where allowed - is written with the size of the field, and user-defined padding keeps
its contract. -/
theorem C30_get_size_partial (Γ : Classes) (m n : Nat) (d : StructDesc) (vals : Dict) (ctx : Value) (bs : Bytes) (k : Int)
    (hsz : ∀ f ∈ d.components, SizeNotGuessed f) (hf : ∀ f ∈ d.components, PadsExactly f ∧ NullFits f)
    (hpres : AllDumped Γ d vals ctx) (hk : structGetSize Γ m d [] = .ok (some k))
    (h : structToStream Γ n d vals ctx = (bs, .ok ())) : (bs.length : Int) = k := by
  cases n with
  | zero => simp [structToStream, W.fail] at h
  | succ n =>
    obtain ⟨-, all, ha, ps, hps, rfl⟩ := structToStream_ok_iff.1 h
    have hskip := hpres n all ha
    rw [structGetSize_total hsz] at hk
    simp only [Except.ok.injEq] at hk
    clear h ha hpres hsz
    generalize d.components = comps at *
    induction hps generalizing k with
    | nil => simp [sizes, total] at hk; simp [hk]
    | @cons f fs p ps h1 _ ih =>
      rcases h1 with ⟨h1, -⟩ | ⟨v, -, h1⟩
      · exact absurd h1 (hskip f List.mem_cons_self)
      · cases hs : f.base.size with
        | fixed s =>
          simp only [sizes, List.map_cons, hs, total] at hk
          cases ht : total (sizes fs) with
          | none => simp only [sizes] at ht; rw [ht] at hk; simp at hk
          | some t =>
            have h2 := ih (k := t) (fun g hg => hf g (List.mem_cons_of_mem _ hg)) (fun g hg => hskip g (List.mem_cons_of_mem _ hg)) ht
            simp only [sizes] at ht
            rw [ht] at hk; simp at hk
            have h3 := fixed_dump_length hs (hf f List.mem_cons_self).1 (hf f List.mem_cons_self).2 h1
            simp at *; omega
        | none => simp [sizes, hs, total] at hk
        | ref r => simp [sizes, hs, total] at hk

example : structGetSize Sample.noClasses 1 Sample.point [] = .ok (some 4) ∧
    ((structToStream Sample.noClasses 3 Sample.point [("x", .int 1), ("y", .int (-2))] .none).1.length : Int) = 4 := by
  have hk : structGetSize Sample.noClasses 1 Sample.point [] = .ok (some 4) := by decide
  have hd : structToStream Sample.noClasses 3 Sample.point [("x", .int 1), ("y", .int (-2))] .none =
    ([1, 0, 0xFE, 0xFF], .ok ()) := by decide
  refine ⟨hk, ?_⟩
  rw [hd]
  refine C30_get_size_partial Sample.noClasses 1 3 Sample.point [("x", .int 1), ("y", .int (-2))] .none _ 4 ?_ ?_ ?_ hk hd
  · intro f hf; left
    simp [Sample.point, Sample.upd, Sample.i16, Field.withBase, Field.base] at hf
    rcases hf with rfl | rfl <;> simp [Field.base]
  · intro f hf
    simp [Sample.point, Sample.upd, Sample.i16, Field.withBase, Field.base] at hf
    rcases hf with rfl | rfl <;> exact ⟨trivial, Or.inl rfl⟩
  · refine allDumped_of 2 (all := [("x", .int 1), ("y", .int (-2))]) (by decide) ?_
    intro f hf
    simp [Sample.point, Sample.upd, Sample.i16, Field.withBase, Field.base] at hf
    rcases hf with rfl | rfl
    · exact ⟨.int 1, by decide⟩
    · exact ⟨.int (-2), by decide⟩

/-! ## C31 -/

/-- **C31** fails for a field that is not present. -/
theorem C31_absent_refuted :
    ∃ (d : StructDesc) (vals : Dict) (bs : Bytes), UniqueNames d ∧ Instance d vals ∧
      structLen Sample.noClasses 3 d vals = .ok 3 ∧
      structToStream Sample.noClasses 3 d vals .none = (bs, .ok ()) ∧ bs.length = 1 :=
  ⟨{ name := "S", components := [Sample.u8 "a", Sample.upd (Sample.u16 "b") ({ · with present := fun _ _ _ => .ok false })]
     fieldValidators := [("a", []), ("b", [])] },
   [("a", .int 5)], [5], by unfold UniqueNames; decide, by unfold Instance; decide, by decide, by decide, by decide⟩

/-- **C31** fails for a null value that is written with another size than the field has. -/
theorem C31_null_refuted :
    ∃ (d : StructDesc) (vals : Dict) (bs : Bytes), UniqueNames d ∧ Instance d vals ∧
      structLen Sample.noClasses 3 d vals = .ok 2 ∧
      structToStream Sample.noClasses 3 d vals .none = (bs, .ok ()) ∧ bs.length = 1 :=
  ⟨{ name := "S", components := [Sample.upd (Sample.u16 "b") ({ · with nullValue := .bytes [0xFF] })]
     fieldValidators := [("b", [])] },
   [("b", .none)], [0xFF], by unfold UniqueNames; decide, by unfold Instance; decide, by decide, by decide, by decide⟩

/-- **C31** fails for an unsized field that is discarded: `len()` measures the value that was set, the dump writes the default. -/
theorem C31_discard_refuted :
    ∃ (d : StructDesc) (vals : Dict) (bs : Bytes), UniqueNames d ∧ Instance d vals ∧
      structLen Sample.noClasses 3 d vals = .ok 3 ∧
      structToStream Sample.noClasses 3 d vals .none = (bs, .ok ()) ∧ bs.length = 1 :=
  ⟨{ name := "S", components := [Sample.upd (Sample.strz "s") ({ · with discard := true, dflt := .str [] })]
     fieldValidators := [("s", [])] },
   [("s", .str [0x61, 0x62])], [0], by unfold UniqueNames; decide, by unfold Instance; decide, by decide, by decide, by decide⟩

/-- **C31**, the part that holds: `len(s) == len(s.to_bytes())` whenever both succeed, no field is left out of the dump, and each field
is one whose length is measured correctly (`Spec.Measurable`). -/
theorem C31_len_partial (Γ : Classes) (m n : Nat) (d : StructDesc) (vals : Dict) (bs : Bytes) (k : Int) (hd : UniqueNames d)
    (hi : Instance d vals) (hf : ∀ f ∈ d.components, Measurable f vals) (hpres : AllDumped Γ d vals .none)
    (hk : structLen Γ m d vals = .ok k) (h : structToStream Γ n d vals .none = (bs, .ok ())) : (bs.length : Int) = k := by
  have hk' := (structLen_mono Γ (Nat.le_max_left m n) d vals).of_ok hk
  have h' : structToStream Γ (max m n + 1) d vals .none = (bs, .ok ()) := by
    have := structToStream_mono Γ (show n ≤ max m n + 1 by omega) d vals .none
    rw [h] at this
    rcases this with h1 | h1
    · simp at h1
    · exact h1.symm
  obtain ⟨-, all, ha, ps, hps, rfl⟩ := structToStream_ok_iff.1 h'
  unfold structLen at hk'
  split at hk'
  · simp at hk'
  · rename_i current hc
    refine sumSizes_parts hps (fun f hfm p hp k hk => ?_) hk'
    exact fieldLen_part hd hi hc ha hfm (hf f hfm) (hpres _ all ha f hfm) hp hk

/-- ```
class Record(Struct):
    n = UInt8()
    payload = Bytes(size=n)
    title = StringZ()
``` -/
def Sample.record : StructDesc :=
  { name := "Record", components := [Sample.u8 "n", Sample.bytesRef "payload" "n", Sample.strz "title"]
    fieldValidators := [("n", []), ("payload", []), ("title", [])], numOwnFields := 3 }

example : structLen Sample.noClasses 4 Sample.record
      [("n", .int 2), ("payload", .bytes [7, 8]), ("title", .str [0x61, 0x62, 0x63])] = .ok 7 ∧
    ((structToStream Sample.noClasses 5 Sample.record
      [("n", .int 2), ("payload", .bytes [7, 8]), ("title", .str [0x61, 0x62, 0x63])] .none).1.length : Int) = 7 := by
  generalize hv : [("n", Value.int 2), ("payload", Value.bytes [7, 8]), ("title", Value.str [0x61, 0x62, 0x63])] = vals
  have hk : structLen Sample.noClasses 4 Sample.record vals = .ok 7 := by subst hv; decide
  have hd : structToStream Sample.noClasses 5 Sample.record vals .none = ([2, 7, 8, 0x61, 0x62, 0x63, 0], .ok ()) := by
    subst hv; decide
  refine ⟨hk, ?_⟩
  rw [hd]
  refine C31_len_partial Sample.noClasses 4 5 Sample.record vals _ 7 (by unfold UniqueNames; decide)
    (by subst hv; unfold Instance; decide) ?_ ?_ hk hd
  · intro f hf
    simp [Sample.record, Sample.u8, Sample.bytesRef, Sample.strz] at hf
    rcases hf with rfl | rfl | rfl
    · exact Or.inl ⟨⟨1, rfl⟩, trivial, Or.inl rfl⟩
    · exact Or.inr (Or.inl ⟨⟨"n", rfl⟩, trivial, rfl⟩)
    · refine Or.inr (Or.inr ⟨rfl, rfl, rfl, rfl, Or.inl ?_, ?_⟩)
      · exact .leaf (fun _ => by simp) (Or.inr ⟨rfl, rfl, rfl⟩)
      · subst hv
        refine ⟨fun v hv => ?_, .undefined, fun fn view v hfn => ?_⟩
        · simp [Dict.get?, List.lookup, Field.name, Field.base] at hv
          subst hv; exact .str _
        · simp [Field.base] at hfn
  · refine allDumped_of 2 (all := vals) (by subst hv; decide) ?_
    intro f hf
    simp [Sample.record, Sample.u8, Sample.bytesRef, Sample.strz] at hf
    rcases hf with rfl | rfl | rfl
    · exact ⟨.int 2, by subst hv; decide⟩
    · exact ⟨.bytes [7, 8], by subst hv; decide⟩
    · exact ⟨.str [0x61, 0x62, 0x63], by subst hv; decide⟩

end Verif
