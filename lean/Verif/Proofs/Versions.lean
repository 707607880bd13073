import Verif.Spec.Versions
import Verif.Proofs.Inherit
import Verif.Proofs.Canonical
import Verif.Props.Inherit

/-!
# Lemmas about versions of a class
-/

namespace Verif
open Spec

theorem view_get_some {d : Dict} {k : String} {v : Value} (h : Dict.get? d k = some v) : d.view.get k = .ok v := by
  simp only [Dict.view, h]

/-- Fields that are absent are loaded from nothing. -/
theorem loads_absent {Γ : Classes} {n : Nat} {ctx : Value} {tag : String} {x : Int} {s : Stream} :
    ∀ {fs : List Field} {acc : Dict}, Dict.get? acc tag = some (.int x) → (∀ f ∈ fs, ∃ i, Since tag i f.base ∧ x < i) →
    (Dict.keys acc ++ fs.map Field.name).Nodup →
    Loads Γ (n + 1) ctx fs acc s (acc ++ fs.map fun f => (f.name, f.base.notPresentValue)) s := by
  intro fs
  induction fs with
  | nil => intro acc _ _ _; simpa using Loads.nil acc s
  | cons f fs ih =>
    intro acc ht hs hn
    obtain ⟨i, hi, hx⟩ := hs f (by simp)
    have hnone : Dict.get? acc f.name = none := by
      rw [Dict.get?_none_iff]
      intro hk
      exact (List.nodup_append.1 hn).2.2 _ hk _ (by simp) rfl
    have hp : f.base.present acc.view ctx (some s) = .ok false := by
      rw [hi _ ctx (some s) x (view_get_some ht)]
      simp; omega
    refine .cons (v := f.base.notPresentValue) (s1 := s) ?_ ?_
    · rw [fieldFromStream]; unfold fromStreamWith; simp only [hp]
    · rw [if_pos hnone]
      have := ih (acc := acc ++ [(f.name, f.base.notPresentValue)]) (by rw [Dict.get?_append, ht]; rfl)
        (fun g hg => hs g (by simp [hg])) (by simpa [Dict.keys, List.append_assoc] using hn)
      simpa [List.append_assoc] using this

/-- Conversely, loading absent fields does not move the stream. -/
theorem loads_absent_stays {Γ : Classes} {n : Nat} {ctx : Value} {tag : String} {x : Int} {fs : List Field} {acc r : Dict} {s s' : Stream}
    (h : Loads Γ n ctx fs acc s r s') (ht : Dict.get? acc tag = some (.int x)) (hs : ∀ f ∈ fs, ∃ i, Since tag i f.base ∧ x < i) :
    s' = s := by
  induction h with
  | nil => rfl
  | @cons f fs acc r w s s1 s2 h1 h2 ih =>
    obtain ⟨i, hi, hx⟩ := hs f (by simp)
    have hp : f.base.present acc.view ctx (some s) = .ok false := by
      rw [hi _ ctx (some s) x (view_get_some ht)]
      simp; omega
    have : s1 = s := by
      cases n with
      | zero => rw [fieldFromStream] at h1; simp at h1
      | succ n =>
        rw [fieldFromStream] at h1; unfold fromStreamWith at h1; simp only [hp] at h1
        simp at h1; exact h1.2.symm
    rw [← this]
    refine ih ?_ (fun g hg => hs g (by simp [hg]))
    split
    · rw [Dict.get?_append, ht]; rfl
    · exact ht

theorem absent_get {fs : List Field} (hn : (fs.map Field.name).Nodup) {f : Field} (hf : f ∈ fs) :
    Dict.get? (fs.map fun f => (f.name, f.base.notPresentValue)) f.name = some f.base.notPresentValue := by
  induction fs with
  | nil => simp at hf
  | cons g fs ih =>
    rw [List.map_cons, Dict.get?_cons]
    rcases List.mem_cons.1 hf with rfl | hf'
    · simp
    · have : g.name ≠ f.name := fun he => by
        rw [List.map_cons, List.nodup_cons] at hn
        exact hn.1 (List.mem_map.2 ⟨f, hf', he.symm⟩)
      split
      · rename_i h; exact absurd (by simpa using h) this
      · exact ih (by rw [List.map_cons, List.nodup_cons] at hn; exact hn.2) hf'

theorem Spec.Versions.extends_to {vs : Nat → StructDesc} {own : Nat → List Field} {tag : String} (h : Versions vs own tag) (i j : Nat) :
    Extends (vs i) (vs (i + j)) (newFields own i j) := by
  induction j with
  | zero => exact ⟨by simp [newFields], fun p hp => ⟨p, hp, rfl, fun m hm => hm⟩, fun m hm => hm⟩
  | succ j ih => exact ih.trans (h.extend (i + j))

theorem newFields_mem {own : Nat → List Field} {i j : Nat} {f : Field} (h : f ∈ newFields own i j) : ∃ m, m < j ∧ f ∈ own (i + m) := by
  induction j with
  | zero => simp [newFields] at h
  | succ j ih =>
    simp only [newFields, List.mem_append] at h
    rcases h with h | h
    · obtain ⟨m, h1, h2⟩ := ih h
      exact ⟨m, by omega, h2⟩
    · exact ⟨j, by omega, h⟩

/-- The new fields are absent from data of an old version. -/
theorem Spec.Versions.absent {vs : Nat → StructDesc} {own : Nat → List Field} {tag : String} (h : Versions vs own tag) {i j : Nat} {x : Int}
    (hx : x ≤ i) : ∀ f ∈ newFields own i j, ∃ m, Since tag m f.base ∧ x < m := by
  intro f hf
  obtain ⟨m, -, hm⟩ := newFields_mem hf
  exact ⟨_, h.since (i + m) f hm, by push_cast; omega⟩

theorem Spec.Versions.tag_mem {vs : Nat → StructDesc} {own : Nat → List Field} {tag : String} (h : Versions vs own tag) (i : Nat) :
    ∃ f ∈ (vs i).components, f.name = tag ∧ f.base.discard = false ∧ f.base.present = fun _ _ _ => .ok true := by
  obtain ⟨f, h1, h2⟩ := h.tagged
  have := (h.extends_to 0 i).components
  rw [Nat.zero_add] at this
  exact ⟨f, by rw [this]; simp [h1], h2⟩

/-- One step: data that the old class loads, the new class loads with the new fields absent. -/
theorem loads_old {Γ : Classes} {n : Nat} {b d : StructDesc} {own : List Field} {tag : String} {x : Int} {s s' : Stream} {ctx : Value}
    {r : Dict} (he : Extends b d own) (hd : UniqueNames d) (hs : ∀ f ∈ own, ∃ i, Since tag i f.base ∧ x < i)
    (ha : AcceptsAbsent b d own) (h : structFromStream Γ (n + 1) b s ctx [] = (.ok r, s')) (ht : Dict.get? r tag = some (.int x)) :
    ∃ r', structFromStream Γ (n + 1) d s ctx [] = (.ok r', s') ∧ (∀ k ∈ names b, Dict.get? r' k = Dict.get? r k) ∧
      ∀ f ∈ own, Dict.get? r' f.name = if f.base.discard then none else some f.base.notPresentValue := by
  obtain ⟨results, h1, h2, h3, rfl⟩ := structFromStream_ok_iff.1 h
  have hub := he.unique hd
  have hkeys : ∀ k, k ∈ Dict.keys results ↔ k ∈ names b := by
    intro k; rw [h1.keys k]; simp [Dict.keys, Spec.names]
  have hkeq : Dict.keys results = names b := by
    have := h1.keys_eq (by simpa [Dict.keys] using (show (b.components.map Field.name).Nodup from hub))
    simpa [Dict.keys, Spec.names] using this
  have hnd : (Dict.keys results ++ own.map Field.name).Nodup := by
    rw [hkeq, ← he.names]; exact hd
  have hown : (own.map Field.name).Nodup := (List.nodup_append.1 hnd).2.1
  have htag : Dict.get? results tag = some (.int x) := by
    obtain ⟨f, hf, rfl⟩ := mem_names ((hkeys tag).1 (dropDiscarded_keys (Dict.keys_of_some ht)))
    rw [dropDiscarded_get hub results hf] at ht
    split at ht
    · simp at ht
    · exact ht
  obtain ⟨n, rfl⟩ : ∃ m, n = m + 1 := by
    cases n with
    | succ n => exact ⟨n, rfl⟩
    | zero =>
      exfalso
      have hne : b.components ≠ [] := by
        intro hb
        obtain ⟨f, hf, -⟩ := mem_names ((hkeys tag).1 (Dict.keys_of_some htag))
        rw [hb] at hf; simp at hf
      generalize b.components = cs at h1 hne
      cases h1 with
      | nil => exact hne rfl
      | cons h1 _ => rw [fieldFromStream] at h1; simp at h1
  have h4 := loads_absent (Γ := Γ) (n := n) (ctx := ctx) (s := s') htag hs hnd
  generalize hres : results ++ own.map (fun f => (f.name, f.base.notPresentValue)) = results' at h4
  have h5 : Loads Γ (n + 1) ctx d.components [] s results' s' := by
    rw [he.components]; exact Loads.append.2 ⟨_, _, h1, h4⟩
  have hold : ∀ k ∈ names b, Dict.get? results' k = Dict.get? results k := by
    intro k hk
    rw [← hres, Dict.get?_append]
    cases hg : Dict.get? results k with
    | none => exact absurd ((hkeys k).2 hk) ((Dict.get?_none_iff _ _).1 hg)
    | some v => rfl
  have hnew : ∀ f ∈ own, Dict.get? results' f.name = some f.base.notPresentValue := by
    intro f hf
    have hnone : Dict.get? results f.name = none := by
      rw [Dict.get?_none_iff]
      intro hk
      exact (List.nodup_append.1 hnd).2.2 _ hk _ (List.mem_map.2 ⟨f, hf, rfl⟩) rfl
    rw [← hres, Dict.get?_append, hnone, absent_get hown hf]; rfl
  have hk' : ∀ k ∈ Dict.keys results', k ∈ names d := by
    intro k hk
    have := (h5.keys k).1 hk
    simpa [Dict.keys, Spec.names] using this
  have hv : Valid d results' := by
    refine ha results results' ⟨by rw [hkeq]; exact hub, fun k hk => (hkeys k).1 hk⟩ ⟨h5.nodup (by simp [Dict.keys]), hk'⟩ hold ?_ hnew h3
    intro k hk hnone
    exact (Dict.get?_none_iff _ _).1 hnone ((hkeys k).2 hk)
  refine ⟨dropDiscarded d results', structFromStream_ok_iff.2 ⟨results', h5, hk', hv, rfl⟩, ?_, ?_⟩
  · intro k hk
    obtain ⟨f, hf, rfl⟩ := mem_names hk
    rw [dropDiscarded_get hub results hf, dropDiscarded_get hd results' (by rw [he.components]; simp [hf]), hold _ hk]
  · intro f hf
    rw [dropDiscarded_get hd results' (by rw [he.components]; simp [hf]), hnew f hf]

/-- Absent fields contribute nothing to a dump. -/
theorem parts_absent {Γ : Classes} {n : Nat} {ctx : Value} {all : Dict} {tag : String} {x : Int} {fs : List Field} {ps : List Bytes}
    (h : Parts Γ n ctx all fs ps) (ht : Dict.get? all tag = some (.int x)) (hs : ∀ f ∈ fs, ∃ i, Since tag i f.base ∧ x < i) :
    ps.flatten = [] := by
  induction h with
  | nil => rfl
  | @cons f fs p ps h1 h2 ih =>
    obtain ⟨i, hi, hx⟩ := hs f (by simp)
    have hp : f.base.present all.view ctx none = .ok false := by
      rw [hi _ ctx none x (view_get_some ht)]
      simp; omega
    have : p = [] := by
      rcases h1 with ⟨-, h⟩ | ⟨v, ⟨-, -, -, h⟩, -⟩
      · exact h
      · rw [hp] at h; simp at h
    rw [List.flatten_cons, this, ih (fun g hg => hs g (by simp [hg]))]; rfl

/-- A set integer is what `to_dict()` shows of a field that is always there. -/
theorem toDict_tag {Γ : Classes} {n : Nat} {d : StructDesc} {vals all : Dict} {f : Field} {x : Int} (hd : UniqueNames d)
    (hi : Instance d vals) (h : structToDict Γ n d vals = .ok all) (hf : f ∈ d.components)
    (hnd : f.base.discard = false) (hp : f.base.present = fun _ _ _ => .ok true) (hx : Dict.get? vals f.name = some (.int x)) :
    Dict.get? all f.name = some (.int x) := by
  obtain ⟨-, -, h3⟩ := structToDict_get hd hi h
  have hc := full_value hi hf hx (.inr ⟨by simp, by rw [hp]⟩)
  rcases h3 f hf with ⟨-, h4, -⟩ | ⟨-, v, w, h4, h5, h6⟩
  · rw [hnd] at h4; simp at h4
  · have hv : v = .int x := by
      rcases h4 with h4 | ⟨e, h4, -⟩
      · rw [hc] at h4; simpa using h4.symm
      · rw [hc] at h4; simp at h4
    subst hv
    rw [h6]
    cases n with
    | zero => rw [recursiveToDicts] at h5; simp at h5
    | succ n => rw [recursiveToDicts.eq_def] at h5; simp at h5; rw [h5]

end Verif
