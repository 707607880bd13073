import Verif.Spec.Permute
import Verif.Proofs.Group
import Verif.Proofs.Locality
import Verif.Proofs.Position

/-! Helper lemmas: the fields of a class in another order. -/

namespace Verif
open Spec

/-! ### Loading -/

/-- Wherever these bytes are, the field loads this value from them. -/
def Piece (Γ : Classes) (n : Nat) (ctx : Value) (f : Field) (p : Bytes) (v : Value) : Prop :=
  ∀ pre post a, Dict.get? a f.name = none →
    fieldFromStream Γ n f ⟨pre ++ p ++ post, pre.length⟩ ctx a = (.ok v, ⟨pre ++ p ++ post, pre.length + p.length⟩)

theorem movable_piece {Γ : Classes} {n : Nat} {ctx : Value} (hΓ : MovableInside Γ) {f : Field} (hf : Movable Γ f) {pre rest : Bytes} {a : Dict}
    {v : Value} {t : Stream} (ha : Dict.get? a f.name = none) (h : fieldFromStream Γ n f ⟨pre ++ rest, pre.length⟩ ctx a = (.ok v, t)) :
    ∃ p post, rest = p ++ post ∧ t = ⟨pre ++ rest, (pre ++ p).length⟩ ∧ Piece Γ n ctx f p v := by
  have hF : ∀ c d, Γ c = some d → ∀ f ∈ d.components, LoadsForward f := fun c d hc f hf => ((hΓ c d hc).1 f hf).1
  have hfw := (load_forward Γ hF n).1 f hf.forward ctx a ⟨pre ++ rest, pre.length⟩ (by simp)
  obtain ⟨data, pos⟩ := t
  simp only [h] at hfw
  obtain ⟨rfl, h1, h2⟩ := hfw
  simp only [List.length_append] at h2
  obtain ⟨p, post, rfl, hp⟩ : ∃ p post, rest = p ++ post ∧ pos = pre.length + p.length :=
    ⟨rest.take (pos - pre.length), rest.drop (pos - pre.length), by simp, by simp only [List.length_take]; omega⟩
  subst hp
  refine ⟨p, post, rfl, by simp, fun pre' post' a' ha' => ?_⟩
  rw [← List.append_assoc] at h
  have h3 := (load_local true Γ hF (fun c d hc f hf => ((hΓ c d hc).1 f hf).2.1)
    (fun _ c d hc => ⟨fun f hf => ((hΓ c d hc).1 f hf).2.2.2, (hΓ c d hc).2⟩) n).1 f hf.forward hf.behind (fun _ => hf.limited) ctx a
    (fun _ r _ hr => absurd hr (hf.sizes r)) pre p post v h (.inr rfl) post'
  simp only at h3
  rw [(hf.alone.load Γ (a := a) (a' := a') (fun y hy => by
    rw [show y = f.name from Classical.not_not.1 hy, ha, ha']) n _ ctx).1] at h3
  have hm : Moved ((pre'.length : Int) - pre.length) ⟨pre ++ p ++ post', pre.length⟩ ⟨pre' ++ p ++ post', pre'.length⟩ :=
    ⟨by simp [Stream.rest], by simp⟩
  obtain ⟨h4, -, h5⟩ := (load_moved (fun c d hc f hf => ((hΓ c d hc).1 f hf).2.2.1) _ n).1 f hf.ahead ctx a' _ _ hm
  have h6 := (load_forward Γ hF n).1 f hf.forward ctx a' ⟨pre' ++ p ++ post', pre'.length⟩ (by simp)
  rcases h7 : fieldFromStream Γ n f ⟨pre' ++ p ++ post', pre'.length⟩ ctx a' with ⟨y, ⟨data, pos⟩⟩
  rw [h3, h7] at h4 h5
  simp only [h7] at h6
  rcases h4 with ⟨w, h8, h9⟩ | ⟨e, e', h8, -, -⟩
  · simp only [Except.ok.injEq] at h8 h9
    subst h8
    rw [h9, h6.1, show pos = pre'.length + p.length by simp only at h5; omega]
  · simp at h8

/-- A load of fields that can stand anywhere gives a piece of the bytes and a value to each of them. -/
theorem loads_pieces {Γ : Classes} {n : Nat} {ctx : Value} (hΓ : MovableInside Γ) {fs : List Field} (hf : ∀ f ∈ fs, Movable Γ f)
    (hn : (fs.map Field.name).Nodup) {pre rest : Bytes} {acc r : Dict} {t : Stream} (ha : ∀ f ∈ fs, Dict.get? acc f.name = none)
    (h : Loads Γ n ctx fs acc ⟨pre ++ rest, pre.length⟩ r t) :
    ∃ (part : String → Bytes) (value : String → Value) (post : Bytes), rest = inOrder part fs ++ post ∧
      t = ⟨pre ++ rest, (pre ++ inOrder part fs).length⟩ ∧ (∀ f ∈ fs, Piece Γ n ctx f (part f.name) (value f.name)) ∧
      ∀ f ∈ fs, Dict.get? r f.name = some (value f.name) := by
  induction fs generalizing pre rest acc with
  | nil =>
    cases h
    exact ⟨fun _ => [], fun _ => .none, rest, by simp [inOrder], by simp [inOrder], nofun, nofun⟩
  | cons f fs ih =>
    rw [List.map_cons, List.nodup_cons] at hn
    cases h with
    | @cons _ _ _ _ v _ u _ h1 h2 =>
      have hnone := ha f List.mem_cons_self
      obtain ⟨p, post, rfl, rfl, hp⟩ := movable_piece hΓ (hf f List.mem_cons_self) hnone h1
      rw [if_pos hnone, ← List.append_assoc] at h2
      have hne : ∀ g ∈ fs, g.name ≠ f.name := fun g hg he => hn.1 (he ▸ List.mem_map.2 ⟨g, hg, rfl⟩)
      obtain ⟨part, value, post', rfl, rfl, h3, h4⟩ := ih (fun g hg => hf g (List.mem_cons_of_mem _ hg)) hn.2 (fun g hg => by
        rw [← set_of_not_mem hnone, Dict.get?_set, if_neg (fun he => hne g hg he.symm)]
        exact ha g (List.mem_cons_of_mem _ hg)) h2
      have hmap : inOrder (fun y => if y = f.name then p else part y) (f :: fs) = p ++ inOrder part fs := by
        simp only [inOrder, List.map_cons, List.flatten_cons, if_true]
        congr 2
        exact List.map_congr_left fun g hg => if_neg (hne g hg)
      refine ⟨fun y => if y = f.name then p else part y, fun y => if y = f.name then v else value y, post', by simp [hmap], by simp [hmap], ?_, ?_⟩
      · intro g hg
        rcases List.mem_cons.1 hg with rfl | hg
        · simpa using hp
        · simpa [hne g hg] using h3 g hg
      · intro g hg
        rcases List.mem_cons.1 hg with rfl | hg
        · rw [loads_frame h2 hn.1, ← set_of_not_mem hnone, Dict.get?_set]
          simp
        · simpa [hne g hg] using h4 g hg

/-- And the converse. -/
theorem pieces_load {Γ : Classes} {n : Nat} {ctx : Value} {part : String → Bytes} {value : String → Value} {fs : List Field}
    (hp : ∀ f ∈ fs, Piece Γ n ctx f (part f.name) (value f.name)) (hn : (fs.map Field.name).Nodup) (pre post : Bytes) {acc : Dict}
    (ha : ∀ f ∈ fs, Dict.get? acc f.name = none) :
    ∃ r, Loads Γ n ctx fs acc ⟨pre ++ (inOrder part fs ++ post), pre.length⟩ r
        ⟨pre ++ (inOrder part fs ++ post), pre.length + (inOrder part fs).length⟩ ∧
      ∀ f ∈ fs, Dict.get? r f.name = some (value f.name) := by
  induction fs generalizing pre acc with
  | nil => exact ⟨acc, by simpa [inOrder] using Loads.nil _ _, nofun⟩
  | cons f fs ih =>
    rw [List.map_cons, List.nodup_cons] at hn
    have hnone := ha f List.mem_cons_self
    have hne : ∀ g ∈ fs, g.name ≠ f.name := fun g hg he => hn.1 (he ▸ List.mem_map.2 ⟨g, hg, rfl⟩)
    obtain ⟨r, h1, h2⟩ := ih (fun g hg => hp g (List.mem_cons_of_mem _ hg)) hn.2 (pre ++ part f.name) (acc := acc ++ [(f.name, value f.name)])
      (fun g hg => by
        rw [← set_of_not_mem hnone, Dict.get?_set, if_neg (fun he => hne g hg he.symm)]
        exact ha g (List.mem_cons_of_mem _ hg))
    have h3 := hp f List.mem_cons_self pre (inOrder part fs ++ post) acc hnone
    have heq : pre ++ (inOrder part (f :: fs) ++ post) = pre ++ part f.name ++ (inOrder part fs ++ post) := by simp [inOrder]
    have hlen : pre.length + (inOrder part (f :: fs)).length = (pre ++ part f.name).length + (inOrder part fs).length := by
      simp [inOrder]; omega
    refine ⟨r, ?_, ?_⟩
    · rw [heq, hlen]
      refine .cons h3 ?_
      rw [if_pos hnone, ← List.length_append]
      exact h1
    · intro g hg
      rcases List.mem_cons.1 hg with rfl | hg
      · rw [loads_frame h1 hn.1, ← set_of_not_mem hnone, Dict.get?_set]
        simp
      · exact h2 g hg

theorem Spec.Reordered.mem {d d' : StructDesc} (h : Reordered d d') (f : Field) : f ∈ d'.components ↔ f ∈ d.components := h.fields.mem_iff

theorem Spec.Reordered.unique' {d d' : StructDesc} (h : Reordered d d') : UniqueNames d' := by
  have := h.unique
  unfold UniqueNames names at this ⊢
  exact (h.fields.map Field.name).nodup_iff.2 this

theorem Spec.Reordered.names {d d' : StructDesc} (h : Reordered d d') (y : String) : y ∈ names d' ↔ y ∈ names d := by
  unfold Spec.names
  exact (h.fields.map Field.name).mem_iff

theorem Spec.Reordered.find {d d' : StructDesc} (h : Reordered d d') (y : String) : d'.find? y = d.find? y := by
  cases h1 : d'.find? y with
  | some f =>
    obtain ⟨h2, rfl⟩ := find?_some h1
    rw [find?_of_mem h.unique ((h.mem f).1 h2)]
  | none =>
    cases h2 : d.find? y with
    | none => rfl
    | some f =>
      obtain ⟨h3, rfl⟩ := find?_some h2
      rw [find?_of_mem h.unique' ((h.mem f).2 h3)] at h1
      cases h1

/-! ### Dumping -/

theorem Spec.ByName.unaware {f : Field} (h : ByName f) : Unaware (fun _ => False) f := by
  have hb : ∀ b : FieldBase, BaseUnaware (fun _ => False) b := fun b => by
    have hv : ∀ V V' : View, ViewsAgreeOff (fun _ => False) V V' → V = V' := fun V V' h => by
      obtain ⟨c, g⟩ := V
      obtain ⟨c', g'⟩ := V'
      have h1 : c = c' := funext fun k => (h k id).1
      have h2 : g = g' := funext fun k => (h k id).2
      rw [h1, h2]
    exact ⟨id, fun _ _ => id, fun V V' _ _ h => by rw [hv V V' h], fun _ _ V V' h => by rw [hv V V' h]⟩
  induction h with
  | leaf h => exact .leaf (hb _) fun ops hk v ctx a a' ha => h ops hk v ctx a a' fun k => ha k id
  | array _ ih => exact .array (hb _) ih fun _ _ => id
  | nested => exact .nested (hb _)
  | union h _ ih => exact .union (hb _) ih fun v ctx a a' ha => h v ctx a a' fun k => ha k id

theorem reordered_get {d d' : StructDesc} (h : Reordered d d') {vals vals' : Dict} (hv : SameValues vals' vals)
    (hc : structContains vals' = structContains vals) (n : Nat) : structGet d' vals' n = structGet d vals n := by
  induction n with
  | zero => rfl
  | succ n ih =>
    funext y
    simp only [structGet, h.find, hv y, hc, ih]

theorem reordered_runs {d d' : StructDesc} (h : Reordered d d') {vals vals' : Dict} (hv : SameValues vals' vals) (hi : Instance d vals)
    (hi' : Instance d' vals') (hb : ∀ f ∈ d.components, ByName f) : TwoRuns (fun _ => False) d' d vals' vals := by
  have hc : structContains vals' = structContains vals :=
    funext fun k => structContains_agree (S := fun _ => False) hi'.1 hi.1 (fun k _ => hv k) id
  refine ⟨h.unique', h.unique, hi', hi, fun f _ => h.mem f, fun f hf => .inr (hb f ((h.mem f).1 hf)).unaware, fun k _ => hv k, fun k _ => ?_⟩
  simp only [structView, structGetItem, hc, true_and]
  rw [reordered_get h hv hc, h.fields.length_eq]

theorem parts_by_name {Γ : Classes} {n : Nat} {ctx : Value} {all : Dict} {fs : List Field} (hn : (fs.map Field.name).Nodup) {ps : List Bytes}
    (h : Parts Γ n ctx all fs ps) : ∃ part : String → Bytes, (∀ f ∈ fs, Part Γ n ctx all f (part f.name)) ∧ ps.flatten = inOrder part fs := by
  induction h with
  | nil => exact ⟨fun _ => [], nofun, rfl⟩
  | @cons f fs p ps h1 _ ih =>
    rw [List.map_cons, List.nodup_cons] at hn
    obtain ⟨part, h2, h3⟩ := ih hn.2
    have hne : ∀ g ∈ fs, g.name ≠ f.name := fun g hg he => hn.1 (he ▸ List.mem_map.2 ⟨g, hg, rfl⟩)
    refine ⟨fun y => if y = f.name then p else part y, fun g hg => ?_, ?_⟩
    · rcases List.mem_cons.1 hg with rfl | hg
      · simpa using h1
      · simpa [hne g hg] using h2 g hg
    · simp only [inOrder, List.map_cons, List.flatten_cons, if_true, h3]
      congr 2
      exact (List.map_congr_left fun g hg => if_neg (hne g hg)).symm

theorem parts_of_names {Γ : Classes} {n : Nat} {ctx : Value} {all : Dict} {part : String → Bytes} {fs : List Field}
    (h : ∀ f ∈ fs, Part Γ n ctx all f (part f.name)) : Parts Γ n ctx all fs (fs.map fun f => part f.name) := by
  induction fs with
  | nil => exact .nil
  | cons f fs ih => exact .cons (h f List.mem_cons_self) (ih fun g hg => h g (List.mem_cons_of_mem _ hg))

/-! ### Sizes -/

theorem sumSizes_perm {size : Field → Except Err Int} {fs gs : List Field} (hp : List.Perm fs gs) {k : Int} (h : sumSizes size fs = .ok k) :
    sumSizes size gs = .ok k := by
  induction hp generalizing k with
  | nil => exact h
  | @cons f fs gs _ ih =>
    simp only [sumSizes] at h ⊢
    cases h1 : size f with
    | error e => simp [h1] at h
    | ok a =>
      cases h2 : sumSizes size fs with
      | error e => simp [h1, h2] at h
      | ok b =>
        simp only [h1, h2] at h
        simp only [ih h2]
        exact h
  | swap f g fs =>
    simp only [sumSizes] at h ⊢
    cases h1 : size f with
    | error e => cases h2 : size g <;> simp [h1, h2] at h
    | ok a =>
      cases h2 : size g with
      | error e => simp [h2] at h
      | ok b =>
        cases h3 : sumSizes size fs with
        | error e => simp [h1, h2, h3] at h
        | ok c =>
          simp only [h1, h2, h3, Except.ok.injEq] at h ⊢
          omega
  | trans _ _ ih1 ih2 => exact ih2 (ih1 h)

/-! ### Discarded fields -/

theorem dropDiscarded_absent {d : StructDesc} {r : Dict} {y : String} (h : Dict.get? r y = none) : Dict.get? (dropDiscarded d r) y = none := by
  unfold dropDiscarded
  rw [Dict.get?_foldl_erase Field.name]
  split
  · rfl
  · exact h

end Verif
