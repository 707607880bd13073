import Verif.Model.Value

/-! Lemmas about dictionaries. -/

namespace Verif.Dict

theorem get?_nil (k : String) : get? [] k = none := rfl

theorem get?_cons (p : String × Value) (d : Dict) (k : String) :
    get? (p :: d) k = if p.1 = k then some p.2 else get? d k := by
  obtain ⟨a, v⟩ := p
  simp only [get?, List.lookup]
  by_cases h : a = k
  · subst h; simp
  · have : (k == a) = false := by simp; exact fun h' => h h'.symm
    rw [this, if_neg h]

theorem contains_eq (d : Dict) (k : String) : contains d k = (get? d k).isSome := rfl

theorem contains_iff (d : Dict) (k : String) : contains d k = true ↔ k ∈ keys d := by
  induction d with
  | nil => simp [contains, keys]
  | cons p d ih =>
    rw [contains_eq, get?_cons]
    by_cases h : p.1 = k
    · simp [h, keys]
    · rw [if_neg h, ← contains_eq, ih]; simp [keys, Ne.symm h]

theorem get?_none_iff (d : Dict) (k : String) : get? d k = none ↔ k ∉ keys d := by
  rw [← contains_iff, contains_eq]; cases get? d k <;> simp

theorem get?_some_mem {d : Dict} {k : String} {v : Value} (h : get? d k = some v) : (k, v) ∈ d := by
  induction d with
  | nil => simp [get?_nil] at h
  | cons p d ih =>
    rw [get?_cons] at h
    by_cases hp : p.1 = k
    · rw [if_pos hp] at h
      obtain ⟨a, w⟩ := p
      simp only at hp; simp only [Option.some.injEq] at h
      subst hp; subst h; exact List.mem_cons_self
    · rw [if_neg hp] at h; exact List.mem_cons_of_mem _ (ih h)

theorem get?_some_key {d : Dict} {k : String} {v : Value} (h : get? d k = some v) : k ∈ keys d :=
  List.mem_map.2 ⟨_, get?_some_mem h, rfl⟩

theorem get?_of_mem {d : Dict} {k : String} {v : Value} (hn : (keys d).Nodup) (h : (k, v) ∈ d) : get? d k = some v := by
  induction d with
  | nil => simp at h
  | cons p d ih =>
    simp only [keys, List.map_cons, List.nodup_cons] at hn
    rw [get?_cons]
    rcases List.mem_cons.1 h with rfl | h'
    · simp
    · have : p.1 ≠ k := by
        rintro rfl
        exact hn.1 (List.mem_map.2 ⟨_, h', rfl⟩)
      rw [if_neg this]; exact ih hn.2 h'

theorem get?_set (d : Dict) (k k' : String) (v : Value) :
    get? (set d k v) k' = if k = k' then some v else get? d k' := by
  induction d with
  | nil => simp [set, get?_cons, get?_nil]
  | cons p d ih =>
    obtain ⟨a, w⟩ := p
    simp only [set]
    by_cases h : a = k
    · rw [if_pos h, get?_cons, get?_cons]
      subst h; by_cases hk : a = k' <;> simp [hk]
    · rw [if_neg h, get?_cons, get?_cons, ih]
      by_cases hk : a = k'
      · subst hk; simp [Ne.symm h]
      · simp [hk]

theorem get?_erase (d : Dict) (k k' : String) : get? (erase d k) k' = if k = k' then none else get? d k' := by
  induction d with
  | nil => simp [erase, get?_nil]
  | cons p d ih =>
    obtain ⟨a, w⟩ := p
    simp only [erase, List.filter_cons]
    by_cases h : a = k
    · subst h
      simp only [ne_eq, not_true_eq_false, decide_false, Bool.false_eq_true, if_false]
      have ih' : get? (d.filter fun p => decide (p.1 ≠ a)) k' = if a = k' then none else get? d k' := ih
      simp only [ne_eq] at ih'
      rw [ih', get?_cons]; by_cases hk : a = k' <;> simp [hk]
    · simp only [ne_eq, h, not_false_eq_true, decide_true, if_true]
      have ih' : get? (d.filter fun p => decide (p.1 ≠ k)) k' = if k = k' then none else get? d k' := ih
      simp only [ne_eq] at ih'
      rw [get?_cons, ih', get?_cons]
      by_cases hk : k = k'
      · subst hk; simp [h]
      · simp [hk]

theorem get?_setDefault (d : Dict) (k k' : String) (v : Value) :
    get? (setDefault d k v) k' = if k = k' ∧ get? d k = none then some v else get? d k' := by
  unfold setDefault
  by_cases h : get? d k = none
  · have : contains d k = false := by rw [contains_eq, h]; rfl
    simp only [this, Bool.false_eq_true, if_false, h, and_true]
    exact get?_set d k k' v
  · have : contains d k = true := by rw [contains_eq]; cases hh : get? d k <;> simp_all
    simp [this, h]

theorem keys_set (d : Dict) (k : String) (v : Value) :
    keys (set d k v) = if k ∈ keys d then keys d else keys d ++ [k] := by
  induction d with
  | nil => simp [set, keys]
  | cons p d ih =>
    obtain ⟨a, w⟩ := p
    simp only [set]
    by_cases h : a = k
    · subst h; simp [keys]
    · rw [if_neg h]
      simp only [keys, List.map_cons, List.mem_cons] at ih ⊢
      rw [ih]
      by_cases hk : k ∈ d.map (·.1)
      · simp [hk]
      · simp [hk, Ne.symm h]

theorem mem_keys_set {d : Dict} {k k' : String} {v : Value} : k' ∈ keys (set d k v) ↔ k' = k ∨ k' ∈ keys d := by
  rw [keys_set]; split
  · rename_i h; constructor
    · exact Or.inr
    · rintro (rfl | h') <;> assumption
  · simp [or_comm]

theorem nodup_set {d : Dict} {k : String} {v : Value} (h : (keys d).Nodup) : (keys (set d k v)).Nodup := by
  rw [keys_set]; split
  · exact h
  · rename_i hk
    rw [List.nodup_append]
    refine ⟨h, by simp, ?_⟩
    intro a ha b hb hab
    simp at hb; subst hb; subst hab; exact hk ha

theorem mem_keys_erase {d : Dict} {k k' : String} : k' ∈ keys (erase d k) ↔ k' ≠ k ∧ k' ∈ keys d := by
  rw [← contains_iff, ← contains_iff, contains_eq, contains_eq, get?_erase]
  by_cases h : k = k'
  · subst h; simp
  · simp [h, Ne.symm h]

theorem keys_erase (d : Dict) (k : String) : keys (erase d k) = (keys d).filter fun x => decide (x ≠ k) := by
  simp only [erase, keys, List.filter_map]; rfl

theorem nodup_erase {d : Dict} {k : String} (h : (keys d).Nodup) : (keys (erase d k)).Nodup := by
  rw [keys_erase]; exact h.filter _

theorem nodup_setDefault {d : Dict} {k : String} {v : Value} (h : (keys d).Nodup) : (keys (setDefault d k v)).Nodup := by
  unfold setDefault; split
  · exact h
  · exact nodup_set h

theorem mem_keys_setDefault {d : Dict} {k k' : String} {v : Value} :
    k' ∈ keys (setDefault d k v) ↔ k' = k ∨ k' ∈ keys d := by
  unfold setDefault; split
  · rename_i h
    rw [contains_iff] at h
    constructor
    · exact Or.inr
    · rintro (rfl | h') <;> assumption
  · exact mem_keys_set

theorem get?_update (d e : Dict) (k : String) (hn : (keys e).Nodup) : get? (update d e) k = (get? e k).or (get? d k) := by
  induction e generalizing d with
  | nil => simp [update, get?_nil]
  | cons p e ih =>
    simp only [keys, List.map_cons, List.nodup_cons] at hn
    have : update d (p :: e) = update (set d p.1 p.2) e := rfl
    rw [this, ih _ hn.2, get?_set, get?_cons]
    by_cases h : p.1 = k
    · have : get? e k = none := (get?_none_iff e k).2 (h ▸ hn.1)
      simp [h, this]
    · simp [h]

theorem nodup_update {d : Dict} (e : Dict) (h : (keys d).Nodup) : (keys (update d e)).Nodup := by
  induction e generalizing d with
  | nil => exact h
  | cons p e ih => exact ih (d := set d p.1 p.2) (nodup_set h)

theorem mem_keys_update {d e : Dict} {k : String} : k ∈ keys (update d e) ↔ k ∈ keys d ∨ k ∈ keys e := by
  induction e generalizing d with
  | nil => simp [update, keys]
  | cons p e ih =>
    have : update d (p :: e) = update (set d p.1 p.2) e := rfl
    rw [this, ih, mem_keys_set]
    simp only [keys, List.map_cons, List.mem_cons]
    constructor
    · rintro ((h | h) | h)
      · exact Or.inr (Or.inl h)
      · exact Or.inl h
      · exact Or.inr (Or.inr h)
    · rintro (h | h | h)
      · exact Or.inl (Or.inr h)
      · exact Or.inl (Or.inl h)
      · exact Or.inr h

/-- Deleting a list of names. -/
theorem get?_foldl_erase {α : Type} (nm : α → String) (fs : List α) (d : Dict) (k : String) :
    get? (fs.foldl (fun d f => erase d (nm f)) d) k = if ∃ f ∈ fs, nm f = k then none else get? d k := by
  induction fs generalizing d with
  | nil => simp
  | cons f fs ih =>
    rw [List.foldl_cons, ih, get?_erase]
    by_cases h1 : ∃ g ∈ fs, nm g = k
    · simp [h1]
    · by_cases h2 : nm f = k
      · simp [h2]
      · have : ¬ ∃ g ∈ f :: fs, nm g = k := by
          rintro ⟨g, hg, rfl⟩
          rcases List.mem_cons.1 hg with rfl | hg
          · exact h2 rfl
          · exact h1 ⟨g, hg, rfl⟩
        rw [if_neg h1, if_neg h2, if_neg this]

theorem nodup_foldl_erase {α : Type} (nm : α → String) (fs : List α) {d : Dict} (h : (keys d).Nodup) :
    (keys (fs.foldl (fun d f => erase d (nm f)) d)).Nodup := by
  induction fs generalizing d with
  | nil => exact h
  | cons f fs ih => exact ih (nodup_erase h)

end Verif.Dict
