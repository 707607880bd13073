import Verif.Proofs.FormatClasses

/-!
# Loaded instances and wrong sizes
-/

namespace Verif
open Spec

/-- What is loaded is an instance, and every field that is not discarded has a value. -/
theorem loaded_stored {Γ : Classes} {n : Nat} {d : StructDesc} {s s' : Stream} {ctx : Value} {r : Dict} (hd : UniqueNames d)
    (h : structFromStream Γ (n + 1) d s ctx [] = (.ok r, s')) :
    Instance d r ∧ ∀ f ∈ d.components, f.base.discard = false → ∃ v, Dict.get? r f.name = some v := by
  obtain ⟨results, h1, h2, -, rfl⟩ := structFromStream_ok_iff.1 h
  have hk := h1.keys_eq (show ([] ++ names d).Nodup from hd)
  have hn : (Dict.keys results).Nodup := by rw [hk]; exact hd
  refine ⟨⟨dropDiscarded_nodup hn, fun k hk => h2 k (dropDiscarded_keys hk)⟩, fun f hf hdisc => ?_⟩
  rw [dropDiscarded_get hd _ hf, hdisc]
  simp only [Bool.false_eq_true, if_false]
  have hm : f.name ∈ Dict.keys results := by rw [hk]; exact List.mem_map_of_mem hf
  rw [← Dict.contains_iff, Dict.contains_eq] at hm
  exact Option.isSome_iff_exists.1 hm

theorem bytes_wrong_size {Γ : Classes} {n : Nat} {ctx : Value} {all : Dict} {b : FieldBase} {x : Bytes} {k : Nat}
    (hs : ∃ r, b.size = .ref r ∧ Dict.get? all r = some (.int k)) (hv : b.validators = []) (hne : x.length ≠ k) :
    fieldToStream Γ (n + 1) (.leaf b .bytes) (.bytes x) ctx all = ([], .error (.valueSize b.name)) := by
  obtain ⟨r, hs, hr⟩ := hs
  have hexp : leafExpectedSize b .bytes all = .ok k := leafExpectedSize_declared (b := b) (Or.inr ⟨r, hs, hr⟩)
  simp [fieldToStream, toStreamWith, leafDump, hexp, hv, hne, runValidators, W.fail, W.toExcept]

end Verif
