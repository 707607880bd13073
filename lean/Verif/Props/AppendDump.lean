import Verif.Proofs.Halves
import Verif.Props.Append

/-!
# C121 for dumping: a structure that ends in an open array is written as before, followed by the new elements

* `C121_rewritten`.
-/

namespace Verif
open Spec

/-- Let the last field be an array without a count, and the others not look at it.  If the instance is dumped again after `ws` was added to
the list, the file starts with the bytes it had before, and goes on with what the array alone writes for (the dictionaries of) `ws`. -/
theorem C121_rewritten (Γ : Classes) (N : Nat) (d : StructDesc) (header : List Field) (b : FieldBase) (comp : Field)
    (hd : d.components = header ++ [.array b comp .none none]) (hu : UniqueNames d) (hout : ∀ f ∈ header, Unaware (· = b.name) f)
    (hcomp : Unaware (· = b.name) comp) (hb : Always b) (hnd : b.discard = false) (hsz : b.size = .none)
    (hchk : ∀ check ∈ b.validators, ∀ l, check (.list l) = .ok ()) (ctx : Value) (vals vals' : Dict) (vs ws : List Value)
    (hi : Instance d vals) (hi' : Instance d vals') (hset : ∀ f ∈ d.components, Dict.get? vals f.name ≠ none)
    (hsame : ∀ f ∈ header, Dict.get? vals' f.name = Dict.get? vals f.name) (hold : Dict.get? vals b.name = some (.list vs))
    (hnew : Dict.get? vals' b.name = some (.list (vs ++ ws))) (bs bs' : Bytes)
    (h : structToStream Γ (N + 3) d vals ctx = (bs, .ok ())) (h' : structToStream Γ (N + 3) d vals' ctx = (bs', .ok ())) :
    ∃ all ws' extra, structToDict Γ (N + 2) d vals' = .ok all ∧ recursiveToDicts Γ (N + 2) (.list ws) = .ok (.list ws') ∧
      fieldToStream Γ (N + 2) (.array b comp .none none) (.list ws') ctx all = (extra, .ok ()) ∧ bs' = bs ++ extra := by
  obtain ⟨-, all, h1, ps, h2, rfl⟩ := structToStream_ok_iff.1 h
  obtain ⟨-, all', h1', ps', h2', rfl⟩ := structToStream_ok_iff.1 h'
  have hm : Field.array b comp .none none ∈ d.components := by rw [hd]; simp
  have htr : TwoRuns (· = b.name) d d vals vals' := by
    refine stored_twoRuns hu hu hi hi' (fun f _ => Iff.rfl) (fun f hf => ?_) (fun f hf hS => ⟨hset f hf, ?_⟩)
    · rw [hd] at hf
      rcases List.mem_append.1 hf with hf | hf
      · exact Or.inr (hout f hf)
      · rw [List.mem_singleton.1 hf]
        exact Or.inl rfl
    · rw [hd] at hf
      rcases List.mem_append.1 hf with hf | hf
      · exact hsame f hf
      · rw [List.mem_singleton.1 hf] at hS
        exact absurd rfl hS
  have ha := structToDict_agree htr h1 h1'
  obtain ⟨w, h3, hent⟩ := toDict_entry hu hi h1 hm hnd hb.1 hold (by simp)
  obtain ⟨l, h4, rfl⟩ := list_toDicts.1 h3
  obtain ⟨w, h3', hent'⟩ := toDict_entry hu hi' h1' hm hnd hb.1 hnew (by simp)
  obtain ⟨l', h4', rfl⟩ := list_toDicts.1 h3'
  obtain ⟨l1, l2, h5, h6, rfl⟩ := mapE_append_ok.1 h4'
  rw [h4] at h5
  cases h5
  rw [hd] at h2 h2'
  obtain ⟨xs, _, rfl, hx, h7⟩ := parts_append.1 h2
  obtain ⟨xs', _, rfl, hx', h7'⟩ := parts_append.1 h2'
  have hxx : xs = xs' := Parts_unique hx (Parts_runs hout ha hx')
  subst hxx
  cases h7 with
  | @cons _ _ p _ h7 h8 =>
    cases h8
    cases h7' with
    | @cons _ _ p' _ h7' h8' =>
      cases h8'
      have e1 := (array_part_of hb hsz (fun c hc => hchk c hc _) (.inl rfl) hent).1 h7
      have e2 := (array_part_of hb hsz (fun c hc => hchk c hc _) (.inl rfl) hent').1 h7'
      obtain ⟨x, y, hx1, hy, rfl⟩ := dumpAll_append.1 e2
      rw [dumpAll_off hcomp ha] at e1
      rw [e1] at hx1
      cases hx1
      refine ⟨all', l2, y, h1', list_toDicts.2 ⟨l2, h6, rfl⟩, ?_, by simp⟩
      refine fieldToStream_plain (f := .array b comp .none none) (by simp) (by simp) (by simp) (fun c hc => hchk c hc _) (Or.inl hsz) ?_
      simp only [fieldDoDump, containerDump, arrayDump, finalElementCount, arrayElements]
      exact hy

/-! ### Example -/

namespace Sample

/-- ```
class Log(Struct):
    version = UInt8()
    entries = Array(UInt16(endian="big"))
``` -/
def logFile : StructDesc :=
  { name := "Log", components := [u8 "version", array "entries" (u16 "") .none], fieldValidators := [("version", []), ("entries", [])] }

end Sample

example : ∃ all ws' extra, structToDict Sample.noClasses 8 Sample.logFile [("version", .int 1), ("entries", .list [.int 5, .int 6, .int 7])] = .ok all ∧
    recursiveToDicts Sample.noClasses 8 (.list [.int 7]) = .ok (.list ws') ∧
    fieldToStream Sample.noClasses 8 (Sample.array "entries" (Sample.u16 "") .none) (.list ws') .none all = (extra, .ok ()) ∧
    [1, 0, 5, 0, 6, 0, 7] = [1, 0, 5, 0, 6] ++ extra := by
  refine C121_rewritten Sample.noClasses 6 Sample.logFile [Sample.u8 "version"] _ _ rfl (by unfold UniqueNames; decide) ?_
    (.leaf ⟨by decide, nofun, fun _ _ _ _ _ => rfl, nofun⟩ nofun) ⟨fun _ _ _ => rfl, rfl⟩ rfl rfl nofun .none
    [("version", .int 1), ("entries", .list [.int 5, .int 6])] [("version", .int 1), ("entries", .list [.int 5, .int 6, .int 7])] [.int 5, .int 6]
    [.int 7] (by unfold Instance; decide) (by unfold Instance; decide) (by decide) (by decide) rfl rfl _ _ (by decide +kernel) (by decide +kernel)
  intro f hf
  rw [List.mem_singleton.1 hf]
  exact .leaf ⟨by decide, nofun, fun _ _ _ _ _ => rfl, nofun⟩ nofun

end Verif
