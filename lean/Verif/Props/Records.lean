import Verif.Spec.Records
import Verif.Props.RoundTrip

/-!
# Streams of structs; different structs have different dumps

C69, C70.
-/

namespace Verif
open Spec

/-! ## C69: structs one after another -/

theorem readAll_of_le {Γ : Classes} {n m : Nat} (h : n ≤ m) {ctx : Value} {ds : List StructDesc} {s s' : Stream} {out : List Dict}
    (hr : readAll Γ n ctx ds s = (.ok out, s')) : readAll Γ m ctx ds s = (.ok out, s') := by
  induction ds generalizing s s' out with
  | nil => exact hr
  | cons d ds ih =>
    simp only [readAll] at hr ⊢
    cases h1 : structFromStream Γ n d s ctx [] with
    | mk r t =>
      cases r with
      | error e => simp [h1] at hr
      | ok r =>
        rw [structFromStream_of_le h h1]
        simp only [h1] at hr
        cases h2 : readAll Γ n ctx ds t with
        | mk q u =>
          cases q with
          | error e => simp [h2, R.map, Except.map] at hr
          | ok q => rw [h2] at hr; simp only [ih h2]; exact hr

/-- **C69** Structs of plain classes (possibly different ones) that are written one after another to the same stream are read back one after
another: each load takes exactly the bytes of its struct, whatever comes before the first or after the last. -/
theorem C69_records (Γ : Classes) (hΓ : ∀ c d, Γ c = some d → Schema Γ d) (n : Nat) (ctx : Value)
    (rs : List (StructDesc × Dict)) (bs : Bytes) (hrs : ∀ p ∈ rs, PlainInstance Γ p.1 p.2)
    (h : writeAll Γ (n + 1) ctx rs = (bs, .ok ())) :
    ∃ m out, AllRestored Γ n rs out ∧
      ∀ pre rest, readAll Γ m ctx (rs.map (·.1)) ⟨pre ++ bs ++ rest, pre.length⟩ =
        (.ok out, ⟨pre ++ bs ++ rest, pre.length + bs.length⟩) := by
  induction rs generalizing bs with
  | nil =>
    simp [writeAll, W.ok] at h
    subst h
    exact ⟨0, [], .nil, by simp [readAll]⟩
  | cons p rs ih =>
    obtain ⟨d, vals⟩ := p
    simp only [writeAll] at h
    obtain ⟨x, y, h1, h2, rfl⟩ := W.seq_ok h
    obtain ⟨hd, hi, ht⟩ := hrs (d, vals) (by simp)
    obtain ⟨all, m1, r, h3, h4, h5⟩ := C26_plain_round_trip Γ hΓ n d vals ctx x hd hi ht h1
    obtain ⟨m2, out, h6, h7⟩ := ih y (fun p hp => hrs p (by simp [hp])) h2
    refine ⟨max m1 m2, r :: out, .cons ⟨all, h3, h4⟩ h6, ?_⟩
    intro pre rest
    have h8 := h5 pre (y ++ rest)
    have h9 := h7 (pre ++ x) rest
    simp only [List.map_cons, readAll]
    have e1 : pre ++ x ++ (y ++ rest) = pre ++ (x ++ y) ++ rest := by simp
    have e2 : pre ++ x ++ y ++ rest = pre ++ (x ++ y) ++ rest := by simp
    rw [e1] at h8
    rw [e2, List.length_append] at h9
    rw [structFromStream_of_le (Nat.le_max_left m1 m2) h8]
    simp only
    rw [readAll_of_le (Nat.le_max_right m1 m2) h9]
    simp [R.map, Except.map, Nat.add_assoc]

/-! ## C70: different structs have different dumps -/

/-- **C70** If the dumps of two instances of a plain class begin alike — one followed by anything, the other followed by anything, are the same
bytes — then the dumps are the same, and so are the values of every field. -/
theorem C70_injective (Γ : Classes) (hΓ : ∀ c d, Γ c = some d → Schema Γ d) (n n' : Nat) (d : StructDesc) (vals vals' all all' : Dict)
    (ctx : Value) (bs bs' rest rest' : Bytes) (hp : PlainInstance Γ d vals) (hp' : PlainInstance Γ d vals')
    (ha : structToDict Γ n d vals = .ok all) (ha' : structToDict Γ n' d vals' = .ok all')
    (h : structToStream Γ (n + 1) d vals ctx = (bs, .ok ())) (h' : structToStream Γ (n' + 1) d vals' ctx = (bs', .ok ()))
    (heq : bs ++ rest = bs' ++ rest') :
    bs = bs' ∧ ∀ f ∈ d.components, ∃ w w', Dict.get? all f.name = some w ∧ Dict.get? all' f.name = some w' ∧ Alike w w' := by
  obtain ⟨a1, m1, r, h1, h2, h3⟩ := C26_plain_round_trip Γ hΓ n d vals ctx bs hp.1 hp.2.1 hp.2.2 h
  obtain ⟨a2, m2, r', h4, h5, h6⟩ := C26_plain_round_trip Γ hΓ n' d vals' ctx bs' hp'.1 hp'.2.1 hp'.2.2 h'
  rw [ha] at h1; cases h1
  rw [ha'] at h4; cases h4
  have h7 := structFromStream_of_le (Nat.le_max_left m1 m2) (h3 [] rest)
  have h8 := structFromStream_of_le (Nat.le_max_right m1 m2) (h6 [] rest')
  simp only [List.nil_append, List.length_nil, Nat.zero_add] at h7 h8
  rw [heq, h8] at h7
  simp only [Prod.mk.injEq, Except.ok.injEq, Stream.mk.injEq, true_and] at h7
  obtain ⟨rfl, h9⟩ := h7
  refine ⟨?_, ?_⟩
  · have := congrArg (List.take bs.length) heq
    rw [List.take_left, ← h9, List.take_left] at this
    exact this
  · intro f hf
    obtain ⟨v, w, h10, h11, h12⟩ := h2 f hf
    obtain ⟨v', w', h13, h14, h15⟩ := h5 f hf
    rw [h11] at h14; cases h14
    exact ⟨w, w', h10, h13, v, h12, h15⟩

/-- **C70** For values other than lists and structs, "alike" is "the same". -/
theorem C70_alike_scalars (a b : Value) (h : Alike a b) (hl : ∀ l, b ≠ .list l) (hd : ∀ d, b ≠ .dict d) (hl' : ∀ l, a ≠ .list l)
    (hd' : ∀ d, a ≠ .dict d) : a = b := by
  obtain ⟨v, h1, h2⟩ := h
  rw [← h1.scalar hl' hd', h2.scalar hl hd]

/-- **C70** and lists that are alike have the same number of elements, which are alike. -/
theorem C70_alike_lists (a b : List Value) (h : Alike (.list a) (.list b)) :
    a.length = b.length ∧ ∀ (i : Nat) (x y : Value), a[i]? = some x → b[i]? = some y → Alike x y := by
  obtain ⟨v, h1, h2⟩ := h
  cases h1 with
  | same =>
    cases h2 with
    | same => exact ⟨rfl, fun i x y hx hy => by rw [hx] at hy; cases hy; exact ⟨x, .same x, .same x⟩⟩
    | list hl hs => exact ⟨hl, fun i x y hx hy => ⟨x, .same x, hs i x y hx hy⟩⟩
  | list hl hs =>
    cases h2 with
    | same => exact ⟨hl.symm, fun i x y hx hy => ⟨y, hs i y x hy hx, .same y⟩⟩
    | list hl' hs' =>
      rename_i c
      refine ⟨by omega, fun i x y hx hy => ?_⟩
      have hi : i < c.length := by
        have := (List.getElem?_eq_some_iff.1 hx).1
        omega
      exact ⟨c[i], hs i _ x (List.getElem?_eq_getElem hi) hx, hs' i _ y (List.getElem?_eq_getElem hi) hy⟩

/-! ### Examples -/

theorem Sample.bigTree_plain : PlainInstance Sample.treeClasses Sample.tree Sample.bigTree :=
  ⟨Sample.tree_schema, by unfold Instance; decide, Sample.bigTree_typed⟩

theorem Sample.smallTree_plain (k : Int) :
    PlainInstance Sample.treeClasses Sample.tree [("label", .int k), ("n", .int 0), ("children", .list [])] :=
  ⟨Sample.tree_schema, by unfold Instance; simp [Dict.keys]; decide, Sample.typed_tree (fun w h => ⟨k, by cases h; rfl⟩)
    (fun w h => ⟨0, by cases h; rfl⟩) (fun w h => ⟨[], by cases h; rfl, by simp⟩)⟩

-- two trees in one stream
example : ∃ m out,
    AllRestored Sample.treeClasses 8 [(Sample.tree, Sample.bigTree),
      (Sample.tree, [("label", .int 9), ("n", .int 0), ("children", .list [])])] out ∧
    ∀ pre rest, readAll Sample.treeClasses m .none [Sample.tree, Sample.tree]
      ⟨pre ++ [0, 1, 2, 1, 44, 0, 0, 7, 1, 0, 5, 0, 0, 9, 0] ++ rest, pre.length⟩ =
      (.ok out, ⟨pre ++ [0, 1, 2, 1, 44, 0, 0, 7, 1, 0, 5, 0, 0, 9, 0] ++ rest, pre.length + 15⟩) :=
  C69_records Sample.treeClasses Sample.treeClasses_schema 8 .none _ _
    (by simp only [List.mem_cons, List.not_mem_nil, or_false, forall_eq_or_imp, forall_eq]
        exact ⟨Sample.bigTree_plain, Sample.smallTree_plain 9⟩) (by decide)

-- two trees with different labels cannot have the same bytes
example (k : Int) (bs : Bytes) (hk : k ≠ 9)
    (h : structToStream Sample.treeClasses 5 Sample.tree [("label", .int k), ("n", .int 0), ("children", .list [])] .none = (bs, .ok ())) :
    bs ≠ [0, 9, 0] := by
  rintro rfl
  obtain ⟨-, h1⟩ := C70_injective Sample.treeClasses Sample.treeClasses_schema 4 4 Sample.tree _ _
    [("label", .int k), ("n", .int 0), ("children", .list [])] [("label", .int 9), ("n", .int 0), ("children", .list [])] .none
    [0, 9, 0] [0, 9, 0] [] [] (Sample.smallTree_plain k) (Sample.smallTree_plain 9) rfl rfl h (by decide) rfl
  obtain ⟨w, w', h2, h3, h4⟩ := h1 (Sample.upd (Sample.u16 "label") ({ · with dflt := .int 7 })) (by simp [Sample.tree])
  cases h2; cases h3
  have := C70_alike_scalars _ _ h4 (by simp) (by simp) (by simp) (by simp)
  simp at this
  exact hk this

end Verif
