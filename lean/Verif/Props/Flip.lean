import Verif.Proofs.Flip
import Verif.Props.Turn

/-!
# C129: signed and unsigned integers differ only in the numbers they can hold

* `C129_dump`: dumping;
* `C129_dumpable`: what can be dumped;
* `C129_load`: loading;
* `C129_negative_refuted`: not so for bytes that are a negative number when they are read as signed.
-/

namespace Verif
open Spec

/-- Dumping: if an instance can be dumped with the integers `X` signed and with the same integers unsigned, then the bytes are the same. -/
theorem C129_dump (Γ : Classes) (n : Nat) (X : List String) (d d' : StructDesc) (hd : Flipped X d d') (ctx : Value) (vals : Dict) (bs bs' : Bytes)
    (h : structToStream Γ n d vals ctx = (bs, .ok ())) (h' : structToStream Γ n d' vals ctx = (bs', .ok ())) : bs' = bs := by
  cases n with
  | zero => simp [structToStream, W.fail] at h
  | succ n =>
    obtain ⟨-, all, h1, ps, h2, rfl⟩ := structToStream_ok_iff.1 h
    obtain ⟨-, all', h1', ps', h2', rfl⟩ := structToStream_ok_iff.1 h'
    rw [structToDict_mapped hd.fields (base_flip X), h1] at h1'
    cases h1'
    rw [hd.fields] at h2'
    rw [parts_flip hd.integers h2 h2']

/-- If an instance can be dumped, and what it has for the integers `X` (with defaults and computed values) are numbers that these could hold signed
and unsigned, then it can be dumped with the other signs. -/
theorem C129_dumpable (Γ : Classes) (n : Nat) (X : List String) (d d' : StructDesc) (hd : Flipped X d d') (ctx : Value) (vals all : Dict)
    (hval : Valid d' vals) (hall : structToDict Γ n d vals = .ok all)
    (hv : ∀ f ∈ d.components, f.name ∈ X → ∀ m, FixedInteger m f → ∃ i, Dict.get? all f.name = some (.int i) ∧ HeldByBoth m i) (bs : Bytes)
    (h : structToStream Γ (n + 1) d vals ctx = (bs, .ok ())) : structToStream Γ (n + 1) d' vals ctx = (bs, .ok ()) := by
  obtain ⟨-, all', h1, ps, h2, rfl⟩ := structToStream_ok_iff.1 h
  rw [hall] at h1
  cases h1
  refine structToStream_ok_iff.2 ⟨hval, all, ?_, ps, ?_, rfl⟩
  · rw [structToDict_mapped hd.fields (base_flip X)]
    exact hall
  · rw [hd.fields]
    exact parts_held hd.integers hv h2

/-- Loading: if the numbers loaded from the integers `X` are such that `X` could hold them signed and unsigned, the class with the other signs loads
the same values from the same bytes. -/
theorem C129_load (Γ : Classes) (n : Nat) (X : List String) (d d' : StructDesc) (hd : Flipped X d d') (ctx : Value) (s t : Stream) (vals : Dict)
    (hv : AllHeld X d vals) (h : structFromStream Γ n d s ctx [] = (.ok vals, t)) : LoadsUnlessRejected Γ n d' s ctx vals t := by
  cases n with
  | zero => simp [structFromStream] at h
  | succ n =>
    obtain ⟨results, h1, h2, -, rfl⟩ := structFromStream_ok_iff.1 h
    have h3 : Loads Γ n ctx (d.components.map (flipField X)) [] s results t := by
      refine loads_flip hd.integers (by simpa [UniqueNames, names] using hd.unique) (fun _ _ => rfl) h1 fun f hf hx m hm i hi => ?_
      refine hv f hf hx m hm i ?_
      rw [dropDiscarded_get hd.unique _ hf, hi]
      cases hm with
      | leaf _ _ hdis => simp [Field.base, hdis]
    rw [← hd.fields] at h3
    rw [← dropDiscarded_mapped hd.fields (base_flip X)]
    exact loadsUnlessRejected_of h3

/-! ### Examples -/

namespace Sample

/-- ```
class Tally(Struct):
    count = Int16(endian="big")
    data = Bytes(size=count)
    over = UInt8()
``` -/
def tallySigned : StructDesc := { name := "Tally", components :=
  [.leaf { name := "count", size := .fixed 2 } (.integer true .big), bytesRef "data" "count", .leaf { name := "over", size := .fixed 1 } (.integer false .big)] }

/-- `count` is a `UInt16` and `over` an `Int8`. -/
def tallyUnsigned : StructDesc := { name := "Tally", components :=
  [.leaf { name := "count", size := .fixed 2 } (.integer false .big), bytesRef "data" "count", .leaf { name := "over", size := .fixed 1 } (.integer true .big)] }

theorem tally_flipped : Flipped ["count", "over"] tallySigned tallyUnsigned :=
  ⟨by unfold UniqueNames; decide, rfl, fun f hf hx => by
    simp only [tallySigned, List.mem_cons, List.not_mem_nil, or_false] at hf
    rcases hf with rfl | rfl | rfl
    · exact ⟨2, .leaf rfl rfl rfl⟩
    · exact absurd hx (by decide)
    · exact ⟨1, .leaf rfl rfl rfl⟩⟩

end Sample

-- dumping
example (bs : Bytes) (h : structToStream Sample.noClasses 9 Sample.tallyUnsigned [("count", .int 3), ("data", .bytes [7, 8, 9]), ("over", .int 127)]
    .none = (bs, .ok ())) : bs = [0, 3, 7, 8, 9, 127] :=
  C129_dump Sample.noClasses 9 _ _ _ Sample.tally_flipped .none _ _ _ (by decide +kernel) h

-- and it can be dumped
example : structToStream Sample.noClasses 9 Sample.tallyUnsigned [("count", .int 3), ("data", .bytes [7, 8, 9]), ("over", .int 127)] .none =
    ([0, 3, 7, 8, 9, 127], .ok ()) := by decide +kernel

example : structToStream Sample.noClasses 9 Sample.tallyUnsigned [("count", .int 3), ("data", .bytes [7, 8, 9]), ("over", .int 127)] .none =
    ([0, 3, 7, 8, 9, 127], .ok ()) := by
  refine C129_dumpable Sample.noClasses 8 ["count", "over"] Sample.tallySigned _ Sample.tally_flipped .none _
    [("count", .int 3), ("data", .bytes [7, 8, 9]), ("over", .int 127)] (validateContents_ok_iff.1 (by decide)) (by decide +kernel) ?_ _
    (by decide +kernel)
  intro f hf hx m hm
  simp only [Sample.tallySigned, List.mem_cons, List.not_mem_nil, or_false] at hf
  rcases hf with rfl | rfl | rfl
  · cases hm with | leaf h1 _ _ => cases h1; exact ⟨3, rfl, by decide, by decide⟩
  · exact absurd hx (by decide)
  · cases hm with | leaf h1 _ _ => cases h1; exact ⟨127, rfl, by decide, by decide⟩

-- loading
example : LoadsUnlessRejected Sample.noClasses 9 Sample.tallyUnsigned ⟨[0, 3, 7, 8, 9, 127, 5], 0⟩ .none
    [("count", .int 3), ("data", .bytes [7, 8, 9]), ("over", .int 127)] ⟨[0, 3, 7, 8, 9, 127, 5], 6⟩ := by
  refine C129_load Sample.noClasses 9 ["count", "over"] Sample.tallySigned _ Sample.tally_flipped .none _ _ _ ?_ (by decide +kernel)
  intro f hf hx m hm i hi
  simp only [Sample.tallySigned, List.mem_cons, List.not_mem_nil, or_false] at hf
  rcases hf with rfl | rfl | rfl
  · cases hm with
    | leaf h1 _ _ =>
      have h2 : some (Value.int 3) = some (.int i) := hi
      cases h1
      cases h2
      exact ⟨by decide, by decide⟩
  · exact absurd hx (by decide)
  · cases hm with
    | leaf h1 _ _ =>
      have h2 : some (Value.int 127) = some (.int i) := hi
      cases h1
      cases h2
      exact ⟨by decide, by decide⟩

/-- **C129** is about numbers both can hold: the byte 255 is −1 for an `Int8` and 255 for a `UInt8`; each number can be dumped by one of them only. -/
theorem C129_negative_refuted : ∃ d d' : StructDesc, Flipped ["x"] d d' ∧
    (structFromStream Sample.noClasses 9 d ⟨[255], 0⟩ .none []).1 = .ok [("x", .int (-1))] ∧
    (structFromStream Sample.noClasses 9 d' ⟨[255], 0⟩ .none []).1 = .ok [("x", .int 255)] ∧
    (∃ e, (structToStream Sample.noClasses 9 d [("x", .int 255)] .none).2 = .error e) ∧
    ∃ e, (structToStream Sample.noClasses 9 d' [("x", .int (-1))] .none).2 = .error e :=
  ⟨{ name := "", components := [.leaf { name := "x", size := .fixed 1 } (.integer true .big)] },
    { name := "", components := [.leaf { name := "x", size := .fixed 1 } (.integer false .big)] },
    ⟨by unfold UniqueNames; decide, rfl, fun f hf _ => by
      simp only [List.mem_cons, List.not_mem_nil, or_false] at hf
      subst hf
      exact ⟨1, .leaf rfl rfl rfl⟩⟩,
    by decide +kernel, by decide +kernel, ⟨_, by rfl⟩, _, by rfl⟩

end Verif
