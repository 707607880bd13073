import Verif.Proofs.ToDict

/-! Helper lemmas about loading structs. -/

namespace Verif
open Spec

theorem set_of_not_mem {d : Dict} {k : String} {v : Value} (h : Dict.get? d k = none) : d.set k v = d ++ [(k, v)] := by
  induction d with
  | nil => rfl
  | cons p d ih =>
    obtain ⟨a, w⟩ := p
    rw [Dict.get?_cons] at h
    by_cases hk : a = k
    · simp [hk] at h
    · rw [if_neg hk] at h
      show (if a = k then _ else _) = _
      rw [if_neg hk, ih h]; rfl

theorem setDefault_eq {d : Dict} {k : String} {v : Value} :
    d.setDefault k v = if Dict.get? d k = none then d ++ [(k, v)] else d := by
  unfold Dict.setDefault
  by_cases h : Dict.get? d k = none
  · have : Dict.contains d k = false := by rw [Dict.contains_eq, h]; rfl
    rw [this, if_pos h, if_neg (by simp), set_of_not_mem h]
  · have : Dict.contains d k = true := by rw [Dict.contains_eq]; cases hh : Dict.get? d k <;> simp_all
    rw [this, if_neg h, if_pos rfl]

theorem loadFields_ok_iff {Γ : Classes} {n : Nat} {ctx : Value} {fs : List Field} {acc r : Dict} {s s' : Stream} :
    loadFields (fun f s loaded => fieldFromStream Γ n f s ctx loaded) fs acc s = (.ok r, s') ↔
      Loads Γ n ctx fs acc s r s' := by
  induction fs generalizing acc s with
  | nil =>
    simp only [loadFields, Prod.mk.injEq, Except.ok.injEq]
    constructor
    · rintro ⟨rfl, rfl⟩; exact .nil _ _
    · intro h; cases h; exact ⟨rfl, rfl⟩
  | cons f fs ih =>
    simp only [loadFields]
    constructor
    · intro h
      split at h
      · simp at h
      · rename_i v s1 hv
        rw [setDefault_eq] at h
        exact .cons hv (ih.1 h)
    · intro h
      cases h with
      | cons h1 h2 =>
        rw [h1]; simp only
        rw [setDefault_eq]
        exact ih.2 h2

theorem Spec.Loads.mono_get {Γ : Classes} {n : Nat} {ctx : Value} {fs : List Field} {acc r : Dict} {s s' : Stream}
    (h : Loads Γ n ctx fs acc s r s') {k : String} {v : Value} (hk : Dict.get? acc k = some v) :
    Dict.get? r k = some v := by
  induction h with
  | nil => exact hk
  | @cons f fs acc r w s s1 s2 h1 h2 ih =>
    apply ih
    split
    · rename_i hn
      have hne : f.name ≠ k := by rintro rfl; rw [hn] at hk; simp at hk
      rw [← set_of_not_mem hn, Dict.get?_set, if_neg hne]; exact hk
    · exact hk

theorem Spec.Loads.prefix {Γ : Classes} {n : Nat} {ctx : Value} {fs : List Field} {acc r : Dict} {s s' : Stream}
    (h : Loads Γ n ctx fs acc s r s') : acc <+: r := by
  induction h with
  | nil => exact List.prefix_refl _
  | @cons f fs acc r w s s1 s2 h1 h2 ih =>
    refine List.IsPrefix.trans ?_ ih
    split
    · exact List.prefix_append _ _
    · exact List.prefix_refl _

theorem Spec.Loads.keys {Γ : Classes} {n : Nat} {ctx : Value} {fs : List Field} {acc r : Dict} {s s' : Stream}
    (h : Loads Γ n ctx fs acc s r s') (k : String) :
    k ∈ Dict.keys r ↔ k ∈ Dict.keys acc ∨ k ∈ fs.map Field.name := by
  induction h with
  | nil => simp
  | @cons f fs acc r w s s1 s2 h1 h2 ih =>
    rw [ih]
    split
    · simp only [Dict.keys, List.map_append, List.mem_append, List.map_cons, List.map_nil, List.mem_cons,
        List.not_mem_nil, or_false, List.mem_map]
      constructor
      · rintro ((h | h) | h)
        · exact Or.inl h
        · exact Or.inr (Or.inl h)
        · exact Or.inr (Or.inr h)
      · rintro (h | h | h)
        · exact Or.inl (Or.inl h)
        · exact Or.inl (Or.inr h)
        · exact Or.inr h
    · rename_i hn
      have : f.name ∈ Dict.keys acc := by
        rw [Dict.get?_none_iff] at hn; simpa using hn
      simp only [List.map_cons, List.mem_cons]
      constructor
      · rintro (h | h)
        · exact Or.inl h
        · exact Or.inr (Or.inr h)
      · rintro (h | rfl | h)
        · exact Or.inl h
        · exact Or.inl this
        · exact Or.inr h

theorem Spec.Loads.nodup {Γ : Classes} {n : Nat} {ctx : Value} {fs : List Field} {acc r : Dict} {s s' : Stream}
    (h : Loads Γ n ctx fs acc s r s') (ha : (Dict.keys acc).Nodup) : (Dict.keys r).Nodup := by
  induction h with
  | nil => exact ha
  | @cons f fs acc r w s s1 s2 h1 h2 ih =>
    apply ih
    split
    · rename_i hn; rw [← set_of_not_mem hn]; exact Dict.nodup_set ha
    · exact ha

theorem Spec.Loads.append {Γ : Classes} {n : Nat} {ctx : Value} {fs gs : List Field} {acc r : Dict} {s s' : Stream} :
    Loads Γ n ctx (fs ++ gs) acc s r s' ↔ ∃ m t, Loads Γ n ctx fs acc s m t ∧ Loads Γ n ctx gs m t r s' := by
  constructor
  · intro h
    induction fs generalizing acc s with
    | nil => exact ⟨acc, s, .nil _ _, h⟩
    | cons f fs ih =>
      cases h with
      | cons h1 h2 =>
        obtain ⟨m, t, h3, h4⟩ := ih h2
        exact ⟨m, t, .cons h1 h3, h4⟩
  · rintro ⟨m, t, h1, h2⟩
    induction h1 with
    | nil => exact h2
    | cons h3 h4 ih => exact .cons h3 (ih h2)

theorem structInit_ok_iff {d : StructDesc} {kw vals : Dict} :
    structInit d kw = .ok vals ↔ vals = kw ∧ ∀ k ∈ Dict.keys kw, k ∈ names d := by
  unfold structInit
  simp only
  split
  · rename_i h
    simp only [reduceCtorEq, false_iff]
    rintro ⟨-, h2⟩
    apply h
    rw [List.filter_eq_nil_iff]
    intro k hk; simp [has_iff.2 (h2 k hk)]
  · rename_i h
    simp only [ne_eq, Decidable.not_not] at h
    simp only [Except.ok.injEq]
    rw [List.filter_eq_nil_iff] at h
    constructor
    · intro hx; exact ⟨hx.symm, fun k hk => has_iff.1 (by simpa using h k hk)⟩
    · intro hx; exact hx.1.symm

theorem structFromStream_ok_iff {Γ : Classes} {n : Nat} {d : StructDesc} {s s' : Stream} {ctx : Value} {kw vals : Dict} :
    structFromStream Γ (n + 1) d s ctx kw = (.ok vals, s') ↔
      ∃ results, Loads Γ n ctx d.components kw s results s' ∧ (∀ k ∈ Dict.keys results, k ∈ names d) ∧
        Valid d results ∧ vals = dropDiscarded d results := by
  simp only [structFromStream, structFromStreamWith]
  constructor
  · intro h
    split at h
    · simp at h
    · rename_i results t hl
      split at h
      · simp at h
      · rename_i w hw
        split at h
        · simp at h
        · rename_i u hv
          obtain ⟨rfl, h1⟩ := structInit_ok_iff.1 hw
          simp only [Prod.mk.injEq, Except.ok.injEq] at h
          obtain ⟨h2, rfl⟩ := h
          exact ⟨w, loadFields_ok_iff.1 hl, h1, validateContents_ok_iff.1 hv, h2.symm⟩
  · rintro ⟨results, h1, h2, h3, rfl⟩
    rw [loadFields_ok_iff.2 h1]
    simp only
    rw [structInit_ok_iff.2 ⟨rfl, h2⟩]
    simp only
    rw [validateContents_ok_iff.2 h3]

theorem dropDiscarded_get {d : StructDesc} (hd : UniqueNames d) (r : Dict) {f : Field} (hf : f ∈ d.components) :
    Dict.get? (dropDiscarded d r) f.name = if f.base.discard then none else Dict.get? r f.name := by
  unfold dropDiscarded
  rw [Dict.get?_foldl_erase Field.name]
  cases hdis : f.base.discard with
  | true => rw [if_pos ⟨f, List.mem_filter.2 ⟨hf, hdis⟩, rfl⟩]; simp
  | false =>
    rw [if_neg]
    · simp
    · rintro ⟨g, hgm, hgn⟩
      rw [List.mem_filter] at hgm
      have h7 := find?_of_mem hd hgm.1
      rw [hgn, find?_of_mem hd hf] at h7
      simp at h7; subst h7
      rw [hdis] at hgm; simp at hgm

theorem dropDiscarded_keys {d : StructDesc} {r : Dict} {k : String} (hk : k ∈ Dict.keys (dropDiscarded d r)) :
    k ∈ Dict.keys r := by
  unfold dropDiscarded at hk
  rw [← Dict.contains_iff, Dict.contains_eq] at hk ⊢
  rw [Dict.get?_foldl_erase Field.name] at hk
  split at hk
  · simp at hk
  · exact hk

theorem dropDiscarded_nodup {d : StructDesc} {r : Dict} (h : (Dict.keys r).Nodup) :
    (Dict.keys (dropDiscarded d r)).Nodup := Dict.nodup_foldl_erase Field.name _ h

theorem dropDiscarded_none {d : StructDesc} {r : Dict} (h : ∀ f ∈ d.components, f.base.discard = false) :
    dropDiscarded d r = r := by
  unfold dropDiscarded
  have : d.components.filter (·.base.discard) = [] := by
    rw [List.filter_eq_nil_iff]; intro f hf; simp [h f hf]
  rw [this]; rfl

/-- Loading without overrides yields exactly the fields, in order. -/
theorem Spec.Loads.keys_eq {Γ : Classes} {n : Nat} {ctx : Value} {fs : List Field} {acc r : Dict} {s s' : Stream}
    (h : Loads Γ n ctx fs acc s r s') (hn : (Dict.keys acc ++ fs.map Field.name).Nodup) :
    Dict.keys r = Dict.keys acc ++ fs.map Field.name := by
  induction h with
  | nil => simp
  | @cons f fs acc r w s s1 s2 h1 h2 ih =>
    have hnot : Dict.get? acc f.name = none := by
      rw [Dict.get?_none_iff]
      intro hm
      rw [List.nodup_append] at hn
      exact hn.2.2 _ hm f.name (by simp) rfl
    rw [if_pos hnot] at ih
    have hk : Dict.keys (acc ++ [(f.name, w)]) = Dict.keys acc ++ [f.name] := by simp [Dict.keys]
    rw [hk] at ih
    rw [ih (by simpa using hn)]; simp

end Verif
