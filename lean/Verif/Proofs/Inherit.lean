import Verif.Spec.Inherit
import Verif.Proofs.Class
import Verif.Proofs.Frame
import Verif.Proofs.StructLoad
import Verif.Props.Class

namespace Verif
open Spec

abbrev FV := List (String × List (View → Value → Except Err Unit))

theorem initialValidators_mem {fv : FV} {body : List (String × ClassItem)} {p : String × List (View → Value → Except Err Unit)}
    (hp : p ∈ fv) (hn : p.1 ∉ (ownFields body).map (·.1)) : p ∈ initialValidators fv body := by
  unfold initialValidators
  induction body generalizing fv with
  | nil => exact hp
  | cons item items ih =>
    obtain ⟨name, it⟩ := item
    cases it with
    | field f =>
      simp only [ownFields, List.map_cons, List.mem_cons, not_or] at hn
      exact ih (List.mem_append_left _ (List.mem_filter.2 ⟨hp, by simpa using hn.1⟩)) hn.2
    | validator names fn => exact ih hp hn
    | structValidator fn => exact ih hp hn

theorem initialValidators_key {fv : FV} {body : List (String × ClassItem)} {k : String}
    (hk : k ∈ (initialValidators fv body).map (·.1)) : k ∈ fv.map (·.1) ∨ k ∈ (ownFields body).map (·.1) := by
  unfold initialValidators at hk
  induction body generalizing fv with
  | nil => exact Or.inl hk
  | cons item items ih =>
    obtain ⟨name, it⟩ := item
    cases it with
    | field f =>
      rcases ih hk with h | h
      · rw [List.map_append, List.mem_append] at h
        rcases h with h | h
        · obtain ⟨q, hq, rfl⟩ := List.mem_map.1 h
          exact Or.inl (List.mem_map.2 ⟨q, (List.mem_filter.1 hq).1, rfl⟩)
        · simp at h; subst h; right; simp [ownFields]
      · right; simp only [ownFields, List.map_cons, List.mem_cons]; exact Or.inr h
    | validator names fn => exact ih hk
    | structValidator fn => exact ih hk

theorem appendValidator_mem {fn : View → Value → Except Err Unit} {ns : List String} {fv fv' : FV}
    (h : appendValidator fn ns fv = .ok fv') :
    fv'.map (·.1) = fv.map (·.1) ∧ ∀ p ∈ fv, ∃ q ∈ fv', q.1 = p.1 ∧ ∀ m ∈ p.2, m ∈ q.2 := by
  induction ns generalizing fv with
  | nil => simp only [appendValidator] at h; cases h; exact ⟨rfl, fun p hp => ⟨p, hp, rfl, fun _ h => h⟩⟩
  | cons name ns ih =>
    simp only [appendValidator] at h
    split at h
    · obtain ⟨h1, h2⟩ := ih h
      refine ⟨?_, fun p hp => ?_⟩
      · rw [h1, List.map_map]
        congr 1
        funext p
        simp only [Function.comp]
        split <;> rfl
      · obtain ⟨q, h3, h4, h5⟩ := h2 (if p.1 = name then (p.1, p.2 ++ [fn]) else p) (List.mem_map.2 ⟨p, hp, rfl⟩)
        refine ⟨q, h3, by rw [h4]; split <;> rfl, fun m hm => h5 m ?_⟩
        split
        · simp [hm]
        · exact hm
    · simp at h

theorem bindValidators_mem {body : List (String × ClassItem)} {fv fv' : FV} {sv sv' : List (View → Except Err Unit)}
    (h : bindValidators body fv sv = .ok (fv', sv')) :
    fv'.map (·.1) = fv.map (·.1) ∧ ∀ p ∈ fv, ∃ q ∈ fv', q.1 = p.1 ∧ ∀ m ∈ p.2, m ∈ q.2 := by
  induction body generalizing fv sv with
  | nil => simp only [bindValidators] at h; cases h; exact ⟨rfl, fun p hp => ⟨p, hp, rfl, fun _ h => h⟩⟩
  | cons item items ih =>
    obtain ⟨name, it⟩ := item
    cases it with
    | field f => simp only [bindValidators] at h; exact ih h
    | validator names fn =>
      simp only [bindValidators] at h
      split at h
      · simp at h
      · rename_i fv1 h1
        obtain ⟨h2, h3⟩ := ih h
        obtain ⟨h4, h5⟩ := appendValidator_mem h1
        refine ⟨by rw [h2, h4], fun p hp => ?_⟩
        obtain ⟨q, a1, a2, a3⟩ := h5 p hp
        obtain ⟨r, b1, b2, b3⟩ := h3 q a1
        exact ⟨r, b1, by rw [b2, a2], fun m hm => b3 m (a3 m hm)⟩
    | structValidator fn => simp only [bindValidators] at h; exact ih h

/-- Validators are attached to fields of the class. -/
def ValidatorsNamed (d : StructDesc) : Prop := ∀ p ∈ d.fieldValidators, p.1 ∈ names d

theorem fromClassWith_validators {decl : ClassDecl} {comps : List Field} {fv : FV} {sv : List (View → Except Err Unit)}
    {inherited : Option (List (String × Endian))} {offset : Option Int} {d : StructDesc}
    (h : fromClassWith decl comps fv sv inherited offset = .ok d) (hfv : ∀ p ∈ fv, p.1 ∈ comps.map Field.name) :
    ValidatorsNamed d ∧ ∀ p ∈ fv, ∃ q ∈ d.fieldValidators, q.1 = p.1 ∧ ∀ m ∈ p.2, m ∈ q.2 := by
  obtain ⟨-, -, -, -, -, own, h1, h2⟩ := fromClassWith_ok h
  unfold fromClassWith at h
  simp only at h
  split at h
  · simp at h
  · rename_i out found hc
    split at h
    · simp at h
    · rename_i fv' sv' hv
      cases h
      obtain ⟨h3, h4⟩ := bindValidators_mem hv
      refine ⟨fun p hp => ?_, fun p hp => ?_⟩
      · have hk : p.1 ∈ fv'.map (·.1) := List.mem_map.2 ⟨p, hp, rfl⟩
        rw [h3] at hk
        simp only [names] at h1 ⊢
        rw [h1, List.map_append, List.mem_append]
        rcases initialValidators_key hk with hk | hk
        · obtain ⟨q, hq, he⟩ := List.mem_map.1 hk
          exact Or.inl (he ▸ hfv q hq)
        · right; rw [h2.names]; exact hk
      · refine h4 p (initialValidators_mem hp fun hx => ?_)
        obtain ⟨q, hq, he⟩ := List.mem_map.1 hx
        obtain ⟨c, hc1, hc2⟩ := List.mem_map.1 (hfv p hp)
        exact h2.fresh q hq c hc1 (by rw [hc2]; exact he.symm)

theorem fromClass_validatorsNamed {Γ : Classes} {n : Nat} {decl : ClassDecl} {d : StructDesc} (h : fromClass Γ n decl = .ok d)
    (hΓ : ∀ c b, Γ c = some b → ValidatorsNamed b) : ValidatorsNamed d := by
  rcases fromClass_ok h with ⟨_, h1⟩ | ⟨base, b, size, h1, h2, _, h3⟩
  · exact (fromClassWith_validators h1 (by simp)).1
  · exact (fromClassWith_validators h3 (hΓ base b h2)).1

theorem pep526_extends {Γ : Classes} {n : Nat} {d d' : StructDesc} {hints : List Hint} (h : pep526Dataclass Γ n d hints = .ok d') :
    ∃ own, Extends d d' own := by
  unfold pep526Dataclass at h
  split at h
  · simp at h
  · split at h
    · simp at h
    · rename_i comps found offset hc
      split at h
      · simp at h
      · cases h
        have : ∃ new, comps = d.components ++ new := by
          revert hc
          generalize 0 = i
          generalize d.sizeBytes = o
          generalize d.components = cs
          intro hc
          induction hints generalizing cs i o with
          | nil => simp only [collectAnnotated] at hc; cases hc; exact ⟨[], by simp⟩
          | cons hh hs ih =>
            simp only [collectAnnotated] at hc
            split at hc
            · simp at hc
            · exact ih _ _ _ hc
            · split at hc
              · simp at hc
              · split at hc
                · simp at hc
                · rename_i g hg
                  obtain ⟨new, rfl⟩ := ih _ _ _ hc
                  exact ⟨g :: new, by simp⟩
            · simp at hc
        obtain ⟨new, rfl⟩ := this
        exact ⟨new, rfl, fun p hp => ⟨p, hp, rfl, fun _ h => h⟩, fun _ h => h⟩

theorem program_validatorsNamed {Γ : Classes} (hΓ : Program Γ) {c : String} {d : StructDesc} (h : Γ c = some d) : ValidatorsNamed d := by
  induction hΓ generalizing c d with
  | empty => simp at h
  | declare _ _ hd ih =>
    unfold Classes.add at h
    split at h
    · cases h; exact fromClass_validatorsNamed hd fun c b hb => ih hb
    · exact ih h
  | annotate _ _ hd ha ih =>
    unfold Classes.add at h
    split at h
    · cases h
      have h1 := fromClass_validatorsNamed hd fun c b hb => ih hb
      have hfv : ∀ {d d' : StructDesc} {Γ n hints}, pep526Dataclass Γ n d hints = .ok d' → d'.fieldValidators = d.fieldValidators := by
        intro d d' Γ n hints h
        unfold pep526Dataclass at h
        split at h
        · simp at h
        · split at h
          · simp at h
          · split at h
            · simp at h
            · cases h; rfl
      obtain ⟨own, he⟩ := pep526_extends ha
      intro p hp
      rw [hfv ha] at hp
      have := h1 p hp
      unfold names at this ⊢
      rw [he.components, List.map_append, List.mem_append]
      exact Or.inl this
    · exact ih h

theorem Spec.Extends.trans {a b d : StructDesc} {o o' : List Field} (h : Extends a b o) (h' : Extends b d o') : Extends a d (o ++ o') := by
  refine ⟨by rw [h'.components, h.components, List.append_assoc], fun p hp => ?_, fun m hm => h'.structValidators m (h.structValidators m hm)⟩
  obtain ⟨q, a1, a2, a3⟩ := h.validators p hp
  obtain ⟨r, b1, b2, b3⟩ := h'.validators q a1
  exact ⟨r, b1, by rw [b2, a2], fun m hm => b3 m (a3 m hm)⟩

theorem Dict.keys_of_some {d : Dict} {k : String} {v : Value} (h : Dict.get? d k = some v) : k ∈ Dict.keys d :=
  Classical.byContradiction fun hx => by rw [(Dict.get?_none_iff d k).2 hx] at h; simp at h

/-- A stored value is what reading the field returns. -/
theorem structGetItem_stored {d : StructDesc} {vals : Dict} {k : String} {v : Value} (hk : k ∈ names d)
    (h : Dict.get? vals k = some v) : structGetItem d vals k = .ok v := by
  unfold structGetItem
  simp only [structGet]
  cases hf : d.find? k with
  | none =>
    have : d.has k = true := has_iff.2 hk
    unfold StructDesc.has at this
    rw [hf] at this
    simp at this
  | some f => simp only [h]

theorem Spec.Extends.names {b d : StructDesc} {own : List Field} (he : Extends b d own) :
    Spec.names d = Spec.names b ++ own.map Field.name := by
  unfold Spec.names; rw [he.components, List.map_append]

theorem Spec.Extends.unique {b d : StructDesc} {own : List Field} (he : Extends b d own) (hd : UniqueNames d) : UniqueNames b := by
  unfold UniqueNames at hd ⊢
  rw [he.names] at hd
  exact (List.nodup_append.1 hd).1

/-- An instance of the derived class, and one of the base class with the same values for its fields. -/
theorem Spec.Extends.twoRuns {b d : StructDesc} {own : List Field} {vals valsb : Dict} (he : Extends b d own) (hd : UniqueNames d)
    (hi : Instance d vals) (hib : Instance b valsb) (hsame : ∀ k ∈ Spec.names b, Dict.get? valsb k = Dict.get? vals k)
    (hu : ∀ f ∈ b.components, Unaware (· ∈ own.map Field.name) f)
    (hc : ∀ f ∈ b.components, CallsUnaware (fun k => k ∉ Spec.names b ∨ Dict.get? vals k = none) f.base) :
    TwoRuns (· ∈ own.map Field.name) b d valsb vals := by
  have hdisj : ∀ k ∈ Spec.names b, k ∉ own.map Field.name := by
    intro k hk hx
    unfold UniqueNames at hd
    rw [he.names] at hd
    exact (List.nodup_append.1 hd).2.2 k hk k hx rfl
  have hsub : ∀ k ∈ Spec.names b, k ∈ Spec.names d := fun k hk => by rw [he.names]; exact List.mem_append_left _ hk
  have hagree : AgreeOff (· ∈ own.map Field.name) valsb vals := by
    intro k hk
    by_cases hb : k ∈ Spec.names b
    · exact hsame k hb
    · have hkd : k ∉ Spec.names d := by rw [he.names]; simp only [List.mem_append, not_or]; exact ⟨hb, hk⟩
      rw [(Dict.get?_none_iff valsb k).2 fun hx => hb (hib.2 k hx), (Dict.get?_none_iff vals k).2 fun hx => hkd (hi.2 k hx)]
  refine ⟨he.unique hd, hd, hib, hi, ?_, fun f hf => Or.inr (hu f hf), hagree, ?_⟩
  · intro f hf
    rw [he.components, List.mem_append]
    exact ⟨Or.inl, fun h => h.resolve_right fun hx => hf (List.mem_map.2 ⟨f, hx, rfl⟩)⟩
  · intro k hk
    refine ⟨structContains_agree hib.1 hi.1 hagree hk, ?_⟩
    simp only [structView]
    by_cases hb : k ∈ Spec.names b
    · cases hv : Dict.get? vals k with
      | some v => rw [structGetItem_stored (hsub k hb) hv, structGetItem_stored hb (by rw [hsame k hb]; exact hv)]
      | none =>
        obtain ⟨f, hf, rfl⟩ := mem_names hb
        have hpos : ∃ m, b.components.length = m + 1 := by
          cases hl : b.components with
          | nil => rw [hl] at hf; simp at hf
          | cons x xs => exact ⟨xs.length, rfl⟩
        have hpos' : ∃ m, d.components.length = m + 1 := by
          obtain ⟨m, hm⟩ := hpos
          rw [he.components, List.length_append, hm]
          exact ⟨m + own.length, by omega⟩
        obtain ⟨m, hm⟩ := hpos
        obtain ⟨m', hm'⟩ := hpos'
        unfold structGetItem
        rw [hm, hm']
        have hcf : structContains valsb f.name = false := by
          rw [← Bool.not_eq_true, structContains_iff hib.1, hsame _ hb, hv]; simp
        have hcf' : structContains vals f.name = false := by
          rw [← Bool.not_eq_true, structContains_iff hi.1, hv]; simp
        have hva : ViewsAgreeOff (fun k => k ∉ Spec.names b ∨ Dict.get? vals k = none)
            ⟨structContains valsb, structGet b valsb (m + 1)⟩ ⟨structContains vals, structGet d vals (m' + 1)⟩ := by
          intro k hk
          simp only [not_or, Classical.not_not] at hk
          refine ⟨structContains_agree hib.1 hi.1 hagree (hdisj k hk.1), ?_⟩
          obtain ⟨g, hg, rfl⟩ := mem_names hk.1
          obtain ⟨v, hv⟩ := Option.ne_none_iff_exists'.1 hk.2
          simp only [structGet]
          rw [find?_of_mem (he.unique hd) hg, find?_of_mem hd (by rw [he.components]; simp [hg] : g ∈ d.components)]
          simp only [hsame _ hk.1, hv]
        obtain ⟨c1, c2⟩ := hc f hf
        have e1 := c1 _ _ .none none hva
        rw [structGet, structGet]
        rw [find?_of_mem (he.unique hd) hf, find?_of_mem hd (by rw [he.components]; simp [hf] : f ∈ d.components)]
        simp only [hsame _ hb, hv]
        unfold FieldBase.computeValueForDump
        have hcf : structContains valsb f.base.name = false := hcf
        have hcf' : structContains vals f.base.name = false := hcf'
        simp only [hcf, hcf', e1, Bool.false_eq_true, if_false]
        cases hfn : f.base.computeFn with
        | none => rfl
        | some fn => simp only [c2 fn hfn _ _ hva]
    · have hkd : k ∉ Spec.names d := by rw [he.names]; simp only [List.mem_append, not_or]; exact ⟨hb, hk⟩
      have n1 : b.find? k = none := by
        cases hx : b.find? k with
        | none => rfl
        | some f => obtain ⟨h1, h2⟩ := find?_some hx; exact absurd (List.mem_map.2 ⟨f, h1, h2⟩) hb
      have n2 : d.find? k = none := by
        cases hx : d.find? k with
        | none => rfl
        | some f => obtain ⟨h1, h2⟩ := find?_some hx; exact absurd (List.mem_map.2 ⟨f, h1, h2⟩) hkd
      simp only [structGetItem, structGet, n1, n2]

end Verif
