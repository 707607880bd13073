import Verif.Props.Optional
import Verif.Props.Records

/-!
# Streams of structs, and different dumps of different structs, for classes with optional fields

C69, C70 for `OptionalSchema`: conditional and nullable fields, unions, computed fields, discarded fields, checks.
-/

namespace Verif
open Spec

/-- **C69** for classes with optional fields, unions, computed and discarded fields: structs (possibly of different classes) that are written one
after another to the same stream are read back one after another, each load taking exactly the bytes of its struct. -/
theorem C69_optional_records (Γ : Classes) (hΓ : ∀ c d, Γ c = some d → OptionalSchema Γ d) (n : Nat) (ctx : Value)
    (rs : List (StructDesc × Dict)) (bs : Bytes) (hrs : ∀ p ∈ rs, OptionalSchema Γ p.1 ∧ Bears Γ p.1 p.2)
    (h : writeAll Γ (n + 1) ctx rs = (bs, .ok ())) :
    ∃ m out, AllRestoredKept Γ n rs out ∧
      ∀ pre rest, readAll Γ m ctx (rs.map (·.1)) ⟨pre ++ bs ++ rest, pre.length⟩ =
        (.ok out, ⟨pre ++ bs ++ rest, pre.length + bs.length⟩) := by
  induction rs generalizing bs with
  | nil =>
    simp [writeAll, W.ok] at h
    subst h
    exact ⟨0, [], .nil, by simp [readAll]⟩
  | cons p rs ih =>
    obtain ⟨d, vals⟩ := p
    simp only [writeAll] at h
    obtain ⟨x, y, h1, h2, rfl⟩ := W.seq_ok h
    obtain ⟨hd, hb⟩ := hrs (d, vals) (by simp)
    obtain ⟨all, m1, r, h3, h4, h5, h6⟩ := C26_optional_round_trip Γ hΓ n d vals ctx x hd hb h1
    obtain ⟨m2, out, h7, h8⟩ := ih y (fun p hp => hrs p (by simp [hp])) h2
    refine ⟨max m1 m2, r :: out, .cons ⟨all, h3, fun f hf hk => ?_, h5⟩ h7, ?_⟩
    · obtain ⟨v, w, ha, hr, hs, -⟩ := h4 f hf hk
      exact ⟨v, w, ha, hr, hs⟩
    intro pre rest
    have h9 := h6 pre (y ++ rest)
    have h10 := h8 (pre ++ x) rest
    simp only [List.map_cons, readAll]
    have e1 : pre ++ x ++ (y ++ rest) = pre ++ (x ++ y) ++ rest := by simp
    have e2 : pre ++ x ++ y ++ rest = pre ++ (x ++ y) ++ rest := by simp
    rw [e1] at h9
    rw [e2, List.length_append] at h10
    rw [structFromStream_of_le (Nat.le_max_left m1 m2) h9]
    simp only
    rw [readAll_of_le (Nat.le_max_right m1 m2) h10]
    simp [R.map, Except.map, Nat.add_assoc]

/-- **C70** for classes with optional fields, unions, computed and discarded fields: if the dumps of two instances begin alike, the dumps are the
same, the same fields are left out, and the values of all fields that are not discarded are the same. -/
theorem C70_optional_injective (Γ : Classes) (hΓ : ∀ c d, Γ c = some d → OptionalSchema Γ d) (n n' : Nat) (d : StructDesc)
    (vals vals' all all' : Dict) (ctx : Value) (bs bs' rest rest' : Bytes) (hd : OptionalSchema Γ d) (hb : Bears Γ d vals)
    (hb' : Bears Γ d vals') (ha : structToDict Γ n d vals = .ok all) (ha' : structToDict Γ n' d vals' = .ok all')
    (h : structToStream Γ (n + 1) d vals ctx = (bs, .ok ())) (h' : structToStream Γ (n' + 1) d vals' ctx = (bs', .ok ()))
    (heq : bs ++ rest = bs' ++ rest') :
    bs = bs' ∧ ∀ f ∈ d.components, f.base.discard = false → ∃ w w', Dict.get? all f.name = some w ∧ Dict.get? all' f.name = some w' ∧
      Alike w w' ∧ (f.base.present (structView d vals) .none none = .ok false ↔ f.base.present (structView d vals') .none none = .ok false) := by
  obtain ⟨a1, m1, r, h1, h2, -, h3⟩ := C26_optional_round_trip Γ hΓ n d vals ctx bs hd hb h
  obtain ⟨a2, m2, r', h4, h5, -, h6⟩ := C26_optional_round_trip Γ hΓ n' d vals' ctx bs' hd hb' h'
  rw [ha] at h1; cases h1
  rw [ha'] at h4; cases h4
  have h7 := structFromStream_of_le (Nat.le_max_left m1 m2) (h3 [] rest)
  have h8 := structFromStream_of_le (Nat.le_max_right m1 m2) (h6 [] rest')
  simp only [List.nil_append, List.length_nil, Nat.zero_add] at h7 h8
  rw [heq, h8] at h7
  simp only [Prod.mk.injEq, Except.ok.injEq, Stream.mk.injEq, true_and] at h7
  obtain ⟨rfl, h9⟩ := h7
  refine ⟨?_, ?_⟩
  · have := congrArg (List.take bs.length) heq
    rw [List.take_left, ← h9, List.take_left] at this
    exact this
  · intro f hf hk
    obtain ⟨v, w, h10, h11, h12, h13⟩ := h2 f hf hk
    obtain ⟨v', w', h14, h15, h16, h17⟩ := h5 f hf hk
    rw [h11] at h15; cases h15
    refine ⟨w, w', h10, h14, ⟨v, h12, h16⟩, ?_⟩
    rw [← h13, ← h17]
    have key : ∀ x, Stands v x → (x = .notPresent ↔ v = .notPresent) := by
      intro x hx
      constructor
      · rintro rfl; exact hx.scalar (by simp) (by simp)
      · rintro rfl; cases hx; rfl
    rw [key w h12, key w' h16]

/-! ### Examples -/

-- two parcels in one stream, with and without the padding byte
example : ∃ m out,
    AllRestoredKept Sample.noClasses 8 [(Sample.parcel, [("data", .bytes [7, 8, 9])]), (Sample.parcel, [("data", .bytes [5, 6])])] out ∧
    ∀ pre rest, readAll Sample.noClasses m .none [Sample.parcel, Sample.parcel]
      ⟨pre ++ [80, 75, 1, 3, 0, 7, 8, 9, 80, 75, 1, 2, 5, 6] ++ rest, pre.length⟩ =
      (.ok out, ⟨pre ++ [80, 75, 1, 3, 0, 7, 8, 9, 80, 75, 1, 2, 5, 6] ++ rest, pre.length + 14⟩) :=
  C69_optional_records Sample.noClasses (by simp [Sample.noClasses]) 8 .none _ _
    (by simp only [List.mem_cons, List.not_mem_nil, or_false, forall_eq_or_imp, forall_eq]
        exact ⟨⟨Sample.parcel_schema, Sample.parcel_bears _⟩, Sample.parcel_schema, Sample.parcel_bears _⟩) (by decide)

-- parcels with different data have different dumps
example (data : Bytes) (bs : Bytes) (hne : data ≠ [5, 6]) (all : Dict)
    (ha : structToDict Sample.noClasses 8 Sample.parcel [("data", .bytes data)] = .ok all) (hd : Dict.get? all "data" = some (.bytes data))
    (h : structToStream Sample.noClasses 9 Sample.parcel [("data", .bytes data)] .none = (bs, .ok ())) : bs ≠ [80, 75, 1, 2, 5, 6] := by
  rintro rfl
  obtain ⟨-, h1⟩ := C70_optional_injective Sample.noClasses (by simp [Sample.noClasses]) 8 8 Sample.parcel _ _ all
    [("data", .bytes [5, 6]), ("version", .int 1), ("n", .int 2)] .none [80, 75, 1, 2, 5, 6] [80, 75, 1, 2, 5, 6] [] [] Sample.parcel_schema
    (Sample.parcel_bears data) (Sample.parcel_bears [5, 6]) ha (by decide) h (by decide) rfl
  obtain ⟨w, w', h2, h3, h4, -⟩ := h1 (Sample.bytesRef "data" "n") (by simp [Sample.parcel]) rfl
  rw [show Field.name (Sample.bytesRef "data" "n") = "data" from rfl] at h2 h3
  rw [hd] at h2; cases h2; cases h3
  have := C70_alike_scalars _ _ h4 (by simp) (by simp) (by simp) (by simp)
  simp at this
  exact hne this

end Verif
