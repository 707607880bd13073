import Verif.Proofs.Meter
import Verif.Props.Locality

/-!
# C87: loading asks for no byte beyond the struct
-/

namespace Verif
open Spec

/-- **C87** (partial: no representation of `None` may be longer than a value, and no field may read to the end of the stream.)

A struct is loaded from somewhere in a stream.  The load returns what it returns from a `BytesIO`, and the furthest byte it ever asked for is the
last byte of the struct: on a pipe or a connection it does not wait for what comes after. -/
theorem C87_asks_no_more_partial (Γ : Classes) (hΓF : ∀ c d, Γ c = some d → ∀ f ∈ d.components, LoadsForward f)
    (hΓL : ∀ c d, Γ c = some d → ∀ f ∈ d.components, ShortNones Γ f)
    (hΓS : ∀ c d, Γ c = some d → (∀ f ∈ d.components, SelfLimited f) ∧ SizeFieldsNonNeg Γ d) (n : Nat) (d : StructDesc)
    (hF : ∀ f ∈ d.components, LoadsForward f) (hL : ∀ f ∈ d.components, ShortNones Γ f) (hS : ∀ f ∈ d.components, SelfLimited f)
    (hN : SizeFieldsNonNeg Γ d) (ctx : Value) (s s' : Stream) (hs : s.pos ≤ s.data.length) (vals : Dict)
    (h : structFromStream Γ n d s ctx [] = (.ok vals, s')) :
    ∃ asked, structFromSource metered Γ n d ctx [] (s, s.pos) = (.ok vals, (s', asked)) ∧ asked ≤ s'.pos := by
  have hlike := (source_like metered_lawful (fun _ h => h.elim) Γ (by simp) n).2.2 d (by simp) ctx [] (s, s.pos)
  rcases hr : structFromSource metered Γ n d ctx [] (s, s.pos) with ⟨r, s1, asked⟩
  rw [hr] at hlike
  have heq : r = .ok vals ∧ s1 = s' := by
    rcases hlike with h1 | ⟨e, _, h1 | h1⟩
    · have h2 : (r, s1) = structFromStream Γ n d s ctx [] := Prod.ext h1.1 h1.2
      rw [h] at h2
      simpa using h2
    · exact h1.elim
    · simp at h1
  obtain ⟨rfl, rfl⟩ := heq
  refine ⟨asked, rfl, ?_⟩
  have := (load_frugal Γ hΓF hΓL hΓS n).2.2 d hF hL hS hN ctx [] (fun _ _ _ _ _ h => by simp [Dict.get?] at h) (s, s.pos) hs vals _ hr
  simp only at this
  omega

/-- **C87** (partial, as above) The same for one field, given the fields loaded before it. -/
theorem C87_field_asks_no_more_partial (Γ : Classes) (hΓF : ∀ c d, Γ c = some d → ∀ f ∈ d.components, LoadsForward f)
    (hΓL : ∀ c d, Γ c = some d → ∀ f ∈ d.components, ShortNones Γ f)
    (hΓS : ∀ c d, Γ c = some d → (∀ f ∈ d.components, SelfLimited f) ∧ SizeFieldsNonNeg Γ d) (n : Nat) (f : Field)
    (hF : LoadsForward f) (hL : ShortNones Γ f) (hS : SelfLimited f) (ctx : Value) (loaded : Dict) (hN : SizesNonNeg f loaded)
    (s s' : Stream) (hs : s.pos ≤ s.data.length) (v : Value) (asked : Nat)
    (h : fieldFromSource metered Γ n f ctx loaded (s, s.pos) = (.ok v, (s', asked))) :
    fieldFromStream Γ n f s ctx loaded = (.ok v, s') ∧ asked ≤ s'.pos := by
  refine ⟨metered_field h, ?_⟩
  have := (load_frugal Γ hΓF hΓL hΓS n).1 f hF hL hS ctx loaded hN (s, s.pos) hs v _ h
  simp only at this
  omega

/-- The condition on `None` holds for fixed-size numbers, bytes, strings and UUIDs whose `None` takes no more than that size, in
particular with `null_value=DEFAULT`. -/
theorem C87_short_none (Γ : Classes) (b : FieldBase) (k : Leaf) (size : Int) (hk : ReadsExactly k) (hs : b.size = .fixed size)
    (h0 : 0 ≤ size) (hu : ∀ fmt, k = .uuid fmt → (fmt.size : Int) = size)
    (hr : b.nullValue = .dflt ∨ ∀ loaded repr, leafNullRepr b k loaded = .ok repr → (repr.length : Int) ≤ size) :
    ShortNone Γ (.leaf b k) := by
  refine Or.inr fun n loaded repr s ctx v t hrepr hload => ?_
  cases n with
  | zero => simp [fieldDoLoad] at hload
  | succ n =>
    simp only [fieldDoLoad] at hload
    have hm := leafLoad_moves hk hs h0 hu hload
    simp only [fieldNullRepr] at hrepr
    have : (repr.length : Int) ≤ size := by
      rcases hr with hd | hr
      · simp only [leafNullRepr, FieldBase.nullReprWith, hd, leafExpectedSize, FieldBase.expectedSizeWith, hs, Except.ok.injEq] at hrepr
        rw [← hrepr]; simp; omega
      · exact hr loaded repr hrepr
    omega

/-- **C87** is false in general: where `None` is represented by two bytes and a value takes one, the second byte is asked for as well. -/
theorem C87_null_refuted :
    ∃ (f : Field) (s s' : Stream) (v : Value) (asked : Nat), fieldFromSource metered Sample.noClasses 3 f .none [] (s, s.pos) = (.ok v, (s', asked)) ∧
      s'.pos < asked :=
  ⟨Sample.upd (Sample.u8 "x") ({ · with nullValue := .bytes [0xFF, 0xFF] }), ⟨[7, 8], 0⟩, ⟨[7, 8], 1⟩, .int 7, 2, by decide +kernel, by decide⟩

/-- Arrays without a count end where the data ends: they must ask whether there is more. -/
theorem C87_unsized_array_refuted :
    ∃ (f : Field) (s s' : Stream) (v : Value) (asked : Nat), fieldFromSource metered Sample.noClasses 6 f .none [] (s, s.pos) = (.ok v, (s', asked)) ∧
      s'.pos < asked :=
  ⟨.array { name := "a" } (Sample.u8 "x") .none none, ⟨[7, 8], 0⟩, ⟨[7, 8], 2⟩, .list [.int 7, .int 8], 3, by decide +kernel, by decide⟩

/-- A size that turns out negative makes a field ask for everything there is, and for the end. -/
theorem C87_negative_size_refuted :
    ∃ (f : Field) (loaded : Dict) (s s' : Stream) (v : Value) (asked : Nat),
      fieldFromSource metered Sample.noClasses 3 f .none loaded (s, s.pos) = (.ok v, (s', asked)) ∧ s'.pos < asked :=
  ⟨Sample.bytesRef "x" "n", [("n", .int (-1))], ⟨[1, 2], 0⟩, ⟨[1, 2], 2⟩, .bytes [1, 2], 3, by decide +kernel, by decide⟩

/-- A stream on which `tell` is not supported, as on a pipe or a socket (`io.UnsupportedOperation`). -/
def Sample.pipe : Source Stream :=
  { bytesIOSource with tell := fun s => (.error (.user "UnsupportedOperation"), s) }

/-- **C87** Loading from a pipe or a socket itself does not work at all: not even a byte can be loaded, since all numbers, `Bytes` and `String`s ask for the
position first. -/
theorem C87_unseekable_refuted :
    ∃ (d : StructDesc) (s : Stream) (vals : Dict), (structFromStream Sample.noClasses 4 d s .none []).1 = .ok vals ∧
      (structFromSource Sample.pipe Sample.noClasses 4 d .none [] s).1 = .error (.user "UnsupportedOperation") :=
  ⟨Sample.record, ⟨[2, 7, 8, 0x61, 0], 0⟩, [("n", .int 2), ("payload", .bytes [7, 8]), ("title", .str [0x61])], by decide +kernel, by decide +kernel⟩

/-! ## The hypotheses can be met -/

theorem Sample.record_sizes (g : Field) (hg : g ∈ Sample.record.components) (hn : g.name = "n") (n : Nat) (s : Stream) (ctx : Value) (loaded : Dict) (i : Int)
    (t : Stream) (h : fieldFromStream Sample.noClasses n g s ctx loaded = (.ok (.int i), t)) : 0 ≤ i := by
  simp [Sample.record, Sample.u8, Sample.bytesRef, Sample.strz] at hg
  rcases hg with rfl | rfl | rfl
  · exact unsigned_loads_nonneg (by simp) h
  · simp [Field.name, Field.base] at hn
  · simp [Field.name, Field.base] at hn

/-- `Record` (a byte, as many bytes of payload, a zero-terminated string), in the middle of a stream: bytes 1 to 5 are taken, and no other asked for. -/
example (post : Bytes) : ∃ asked, structFromSource metered Sample.noClasses 4 Sample.record .none [] (⟨[9] ++ [2, 7, 8, 0x61, 0] ++ post, 1⟩, 1) =
    (.ok [("n", .int 2), ("payload", .bytes [7, 8]), ("title", .str [0x61])], (⟨[9] ++ [2, 7, 8, 0x61, 0] ++ post, 6⟩, asked)) ∧ asked ≤ 6 := by
  have hF : ∀ f ∈ Sample.record.components, LoadsForward f := by
    intro f hf
    simp [Sample.record, Sample.u8, Sample.bytesRef, Sample.strz] at hf
    rcases hf with rfl | rfl | rfl <;> exact .leaf (by simp)
  have hL : ∀ f ∈ Sample.record.components, LooksBehind Sample.noClasses f := by
    intro f hf
    simp [Sample.record, Sample.u8, Sample.bytesRef, Sample.strz] at hf
    rcases hf with rfl | rfl | rfl <;> exact .leaf ⟨fun _ _ _ _ _ => rfl, Or.inl rfl⟩ (by simp)
  have hS : ∀ f ∈ Sample.record.components, SelfLimited f := by
    intro f hf
    simp [Sample.record, Sample.u8, Sample.bytesRef, Sample.strz] at hf
    rcases hf with rfl | rfl | rfl <;> exact .leaf (by simp)
  have hN : SizeFieldsNonNeg Sample.noClasses Sample.record := by
    intro f hf r hr g hg hgr
    simp [Sample.record, Sample.u8, Sample.bytesRef, Sample.strz] at hf
    have hrn : r = "n" := by
      rcases hf with rfl | rfl | rfl <;> cases hr <;> rename_i h <;> simp_all
    subst hrn
    exact Sample.record_sizes g hg hgr
  have hZ : ∀ f ∈ Sample.record.components, ShortNones Sample.noClasses f := by
    intro f hf
    simp [Sample.record, Sample.u8, Sample.bytesRef, Sample.strz] at hf
    rcases hf with rfl | rfl | rfl <;> exact .leaf (Or.inl rfl)
  have hload := (C63_local_to_end_partial Sample.noClasses 4 (by simp [Sample.noClasses]) (by simp [Sample.noClasses])
    (by simp [Sample.noClasses])).2 Sample.record .none hF hL hS hN [9] [2, 7, 8, 0x61, 0] []
    [("n", .int 2), ("payload", .bytes [7, 8]), ("title", .str [0x61])] (by decide) (Or.inr rfl) post
  exact C87_asks_no_more_partial Sample.noClasses (by simp [Sample.noClasses]) (by simp [Sample.noClasses]) (by simp [Sample.noClasses]) 4 Sample.record hF hZ hS
    hN .none ⟨[9] ++ [2, 7, 8, 0x61, 0] ++ post, 1⟩ _ (by simp) _ hload

example : ShortNone Sample.noClasses (Sample.upd (Sample.i16 "x") ({ · with nullValue := .dflt })) :=
  C87_short_none _ _ _ 2 trivial rfl (by decide) (by simp) (Or.inl rfl)

end Verif
