import Verif.Proofs.Locality
import Verif.Props.Size

/-!
# C63: loading depends only on the bytes consumed
-/

namespace Verif
open Spec

/-- C63, second half: whatever is loaded from whatever data, with whatever outcome, the stream is not written to, and is left at or
after the position it was at, and not past its end.  The only condition is that user-defined field classes do so too. -/
theorem C63_position (Γ : Classes) (n : Nat) (hΓ : ∀ c d, Γ c = some d → ∀ f ∈ d.components, LoadsForward f) :
    (∀ f ctx loaded, LoadsForward f → Forward fun s => fieldFromStream Γ n f s ctx loaded) ∧
    (∀ d ctx kw, (∀ f ∈ d.components, LoadsForward f) → Forward fun s => structFromStream Γ n d s ctx kw) :=
  ⟨fun f ctx loaded hf => (load_forward Γ hΓ n).1 f hf ctx loaded,
    fun d ctx kw hd => (load_forward Γ hΓ n).2.2 d hd ctx kw⟩

/-- C63, first half, for a load that leaves something unread: a field or struct that loads from `used` loads the same value from
`used`, whatever comes after.  Reading to the end of the stream can then only have ended in the loss of those bytes, so nothing is
assumed about sizes, counts or the kind of field.  Partial: halt checks, deciders and `present` callables must not look ahead, and no
representation of `None` may be longer than a value (`C63_null_refuted`). -/
theorem C63_local_partial (Γ : Classes) (n : Nat) (hΓF : ∀ c d, Γ c = some d → ∀ f ∈ d.components, LoadsForward f)
    (hΓL : ∀ c d, Γ c = some d → ∀ f ∈ d.components, LooksBehind Γ f) :
    (∀ f ctx loaded, LoadsForward f → LooksBehind Γ f → Local false fun s => fieldFromStream Γ n f s ctx loaded) ∧
    (∀ d ctx kw, (∀ f ∈ d.components, LoadsForward f) → (∀ f ∈ d.components, LooksBehind Γ f) →
      Local false fun s => structFromStream Γ n d s ctx kw) := by
  have h := load_local false Γ hΓF hΓL (by simp) n
  exact ⟨fun f ctx loaded h1 h2 => h.1 f h1 h2 (by simp) ctx loaded (by simp),
    fun d ctx kw h1 h2 => h.2.2 d h1 h2 (by simp) ctx kw (by simp)⟩

/-- C63, first half, for loads that may take everything there is: if no field reads to the end of the stream (no negative sizes, no
arrays without count and halt check), a value loaded from exactly `used` is loaded from `used` whatever comes after. -/
theorem C63_local_to_end_partial (Γ : Classes) (n : Nat) (hΓF : ∀ c d, Γ c = some d → ∀ f ∈ d.components, LoadsForward f)
    (hΓL : ∀ c d, Γ c = some d → ∀ f ∈ d.components, LooksBehind Γ f)
    (hΓS : ∀ c d, Γ c = some d → (∀ f ∈ d.components, SelfLimited f) ∧ SizeFieldsNonNeg Γ d) :
    (∀ f ctx loaded, LoadsForward f → LooksBehind Γ f → SelfLimited f → SizesNonNeg f loaded →
      Local true fun s => fieldFromStream Γ n f s ctx loaded) ∧
    (∀ d ctx, (∀ f ∈ d.components, LoadsForward f) → (∀ f ∈ d.components, LooksBehind Γ f) →
      (∀ f ∈ d.components, SelfLimited f) → SizeFieldsNonNeg Γ d → Local true fun s => structFromStream Γ n d s ctx []) := by
  have h := load_local true Γ hΓF hΓL (fun _ => hΓS) n
  exact ⟨fun f ctx loaded h1 h2 h3 h4 => h.1 f h1 h2 (fun _ => h3) ctx loaded (fun _ => h4),
    fun d ctx h1 h2 h3 h4 => h.2.2 d h1 h2 (fun _ => ⟨h3, h4⟩) ctx [] (fun _ _ _ _ _ _ hg => by simp [Dict.get?] at hg)⟩

/-- The condition on `None` holds for fixed-size numbers, bytes, strings and UUIDs whose `None` takes no more than that size, in
particular with `null_value=DEFAULT`. -/
theorem C63_unpeeking (Γ : Classes) (b : FieldBase) (k : Leaf) (size : Int) (hk : ReadsExactly k) (hs : b.size = .fixed size)
    (h0 : 0 ≤ size) (hu : ∀ fmt, k = .uuid fmt → (fmt.size : Int) = size)
    (hp : ∀ w ctx, NoLookahead fun s => b.present w ctx (some s))
    (hr : b.nullValue = .dflt ∨ ∀ loaded repr, leafNullRepr b k loaded = .ok repr → (repr.length : Int) ≤ size) :
    Unpeeking Γ (.leaf b k) := by
  refine ⟨hp, Or.inr fun n loaded repr pre used post ctx v hrepr hload hpre => ?_⟩
  cases n with
  | zero => simp [fieldDoLoad] at hload
  | succ n =>
    simp only [fieldDoLoad] at hload
    have hm := leafLoad_moves hk hs h0 hu hload
    simp only [fieldNullRepr] at hrepr
    have : (repr.length : Int) ≤ size := by
      rcases hr with hd | hr
      · simp only [leafNullRepr, FieldBase.nullReprWith, hd, leafExpectedSize, FieldBase.expectedSizeWith, hs, Except.ok.injEq] at hrepr
        rw [← hrepr]; simp; omega
      · exact hr loaded repr hrepr
    simp only at hm
    exact hpre.eq_of_length_le (by omega)

/-- The full C63 fails: `UInt8(null_value=b"\xff\xff")` loads 255 from `ff 00`, but `None` from `ff ff`. -/
theorem C63_null_refuted :
    let f := Sample.upd (Sample.u8 "x") ({ · with nullValue := .bytes [0xFF, 0xFF] })
    fieldFromStream Sample.noClasses 3 f ⟨[0xFF, 0x00], 0⟩ .none [] = (.ok (.int 255), ⟨[0xFF, 0x00], 1⟩) ∧
    fieldFromStream Sample.noClasses 3 f ⟨[0xFF, 0xFF], 0⟩ .none [] = (.ok .none, ⟨[0xFF, 0xFF], 2⟩) := by decide

/-- … and so does `StringZ(size=5, null_value=DEFAULT)`: the empty string is `00`, but not if more zeros follow. -/
theorem C63_stringz_null_refuted :
    let f := Sample.upd (Sample.strz "x") ({ · with size := .fixed 5, nullValue := .dflt })
    fieldFromStream Sample.noClasses 3 f ⟨[0, 0x61, 0x62, 0x63, 0x64], 0⟩ .none [] =
      (.ok (.str []), ⟨[0, 0x61, 0x62, 0x63, 0x64], 1⟩) ∧
    fieldFromStream Sample.noClasses 3 f ⟨[0, 0, 0, 0, 0], 0⟩ .none [] = (.ok .none, ⟨[0, 0, 0, 0, 0], 5⟩) := by decide

/-- A negative size taken from another field makes a field read to the end, which is why sizes must not be negative in
`C63_local_to_end_partial`. -/
theorem C63_negative_size_reads_on :
    let f := Sample.bytesRef "x" "n"
    fieldFromStream Sample.noClasses 3 f ⟨[1, 2], 0⟩ .none [("n", .int (-1))] = (.ok (.bytes [1, 2]), ⟨[1, 2], 2⟩) ∧
    fieldFromStream Sample.noClasses 3 f ⟨[1, 2, 3], 0⟩ .none [("n", .int (-1))] = (.ok (.bytes [1, 2, 3]), ⟨[1, 2, 3], 3⟩) := by
  decide

-- non-vacuity: `Record` (a byte, as many bytes of payload, a zero-terminated string) meets all conditions, and so loads the same
-- whatever follows; with a nullable first field too
example (post : Bytes) : structFromStream Sample.noClasses 4 Sample.record ⟨[9] ++ [2, 7, 8, 0x61, 0] ++ post, 1⟩ .none [] =
    (.ok [("n", .int 2), ("payload", .bytes [7, 8]), ("title", .str [0x61])], ⟨[9] ++ [2, 7, 8, 0x61, 0] ++ post, 1 + 5⟩) := by
  refine (C63_local_to_end_partial Sample.noClasses 4 (by simp [Sample.noClasses]) (by simp [Sample.noClasses])
    (by simp [Sample.noClasses])).2 Sample.record .none ?_ ?_ ?_ ?_ [9] [2, 7, 8, 0x61, 0] [] _ (by decide) (Or.inr rfl) post
  · intro f hf
    simp [Sample.record, Sample.u8, Sample.bytesRef, Sample.strz] at hf
    rcases hf with rfl | rfl | rfl <;> exact .leaf (by simp)
  · intro f hf
    simp [Sample.record, Sample.u8, Sample.bytesRef, Sample.strz] at hf
    rcases hf with rfl | rfl | rfl <;> exact .leaf ⟨fun _ _ _ _ _ => rfl, Or.inl rfl⟩ (by simp)
  · intro f hf
    simp [Sample.record, Sample.u8, Sample.bytesRef, Sample.strz] at hf
    rcases hf with rfl | rfl | rfl <;> exact .leaf (by simp)
  · intro f hf r hr g hg hgr
    simp [Sample.record, Sample.u8, Sample.bytesRef, Sample.strz] at hf hg
    have hrn : r = "n" := by
      rcases hf with rfl | rfl | rfl <;> cases hr <;> rename_i h <;> simp_all
    subst hrn
    rcases hg with rfl | rfl | rfl
    · exact fun n s ctx loaded i t h => unsigned_loads_nonneg (by simp) h
    · simp [Field.name, Field.base] at hgr
    · simp [Field.name, Field.base] at hgr

example : Unpeeking Sample.noClasses (Sample.upd (Sample.i16 "x") ({ · with nullValue := .dflt })) :=
  C63_unpeeking _ _ _ 2 trivial rfl (by decide) (by simp) (fun _ _ _ _ _ => rfl) (Or.inl rfl)

end Verif
