import Verif.Proofs.Turn
import Verif.Proofs.Class

/-! Helper lemmas: the other byte order by default. -/

namespace Verif
open Spec

theorem overridingDefault_single (b : FieldBase) (e : Endian) :
    overridingDefault b [("endian", e)] "endian" = if b.explicit.contains "endian" then none else some e := by
  unfold overridingDefault
  split
  · rfl
  · have h : (b.typeName ++ "__" ++ "endian" == "endian") = false := by
      rw [beq_eq_false_iff_ne]
      intro h
      have := congrArg String.length h
      simp only [String.length_append] at this
      have h1 : "__".length = 2 := rfl
      omega
    simp only [List.lookup, h, beq_self_eq_true]

theorem bind_turn {X : List String} {e : Endian} {f g : Field} {name : String} {i : Nat} {off : Option Int} (hX : name ∈ X ↔ FollowsDefault f)
    (hf : FollowsDefault f → FixedNumber f) (h : bindToContainer [("endian", e)] f name i off = .ok g) :
    bindToContainer [("endian", otherEnd e)] f name i off = .ok (turnField X g) ∧ g.name = name ∧ (g.name ∈ X → FixedNumber g) := by
  have hn : g.name = name := (bindToContainer_after h).2.1
  unfold bindToContainer at h ⊢
  cases hm : maybeAssignName f name with
  | error e => rw [hm] at h; cases h
  | ok f1 =>
    simp only [hm, overridingDefault_single] at h ⊢
    obtain ⟨nm, hf1⟩ : ∃ nm, f1 = f.withBase { f.base with name := nm } := by
      unfold maybeAssignName at hm
      split at hm
      · cases hm; exact ⟨_, rfl⟩
      · split at hm
        · cases hm
        · cases hm; exact ⟨f.base.name, by cases f <;> rfl⟩
    subst hf1
    refine ⟨?_, hn, fun hx => ?_⟩
    · by_cases hx : name ∈ X
      · obtain ⟨b, signed, e0, rfl, hexp⟩ := hX.1 hx
        have hc : b.explicit.contains "endian" = false := by simpa using hexp
        simp only [Field.withBase, Field.base, hc, Bool.false_eq_true, if_false, Field.setEndian, Except.ok.injEq] at h ⊢
        subst h
        have hx' : nm ∈ X := by rw [show nm = name from hn]; exact hx
        exact (if_pos hx').symm
      · rw [turn_off (by rw [hn]; exact hx)]
        cases f with
        | leaf b k =>
          cases k with
          | integer signed e0 =>
            have hc : b.explicit.contains "endian" = true := by
              simp only [List.contains_eq_mem, decide_eq_true_eq]
              exact Classical.not_not.1 fun hc => hx (hX.2 ⟨b, signed, e0, rfl, hc⟩)
            simp only [Field.withBase, Field.base, hc, if_true] at h ⊢
            exact h
          | _ =>
            simp only [Field.withBase, Field.base, Field.setEndian] at h ⊢
            split at h <;> simp_all
        | _ =>
          simp only [Field.withBase, Field.base, Field.setEndian] at h ⊢
          split at h <;> simp_all
    · rw [hn] at hx
      obtain ⟨b, signed, e0, rfl, hexp⟩ := hX.1 hx
      cases hf ⟨b, signed, e0, rfl, hexp⟩ with
      | leaf hk hs hnull =>
        have hc : b.explicit.contains "endian" = false := by simpa using hexp
        simp only [Field.withBase, Field.base, hc, Bool.false_eq_true, if_false, Field.setEndian, Except.ok.injEq] at h
        subst h
        exact .leaf trivial hs hnull

theorem any_name (comps : List Field) (name : String) : comps.any (fun g => g.name = name) = (comps.map Field.name).any (fun x => x = name) := by
  rw [List.any_map]; rfl

theorem collect_turn {X : List String} {e : Endian} {body : List (String × ClassItem)}
    (hX : ∀ name f, (name, f) ∈ ownFields body → (name ∈ X ↔ FollowsDefault f) ∧ (FollowsDefault f → FixedNumber f))
    {comps comps' out : List Field} {offset : Option Int} {k m : Nat} (hc : comps'.map Field.name = comps.map Field.name)
    (h : collectAssignedFields [("endian", e)] body comps offset k = .ok (out, m)) :
    ∃ new, out = comps ++ new ∧ (∀ g ∈ new, g.name ∈ X → FixedNumber g) ∧ (∀ x ∈ (ownFields body).map (·.1), ∃ g ∈ new, g.name = x) ∧
      collectAssignedFields [("endian", otherEnd e)] body comps' offset k = .ok (comps' ++ new.map (turnField X), m) := by
  induction body generalizing comps comps' offset k with
  | nil =>
    simp only [collectAssignedFields, Except.ok.injEq, Prod.mk.injEq] at h
    obtain ⟨rfl, rfl⟩ := h
    exact ⟨[], by simp, nofun, nofun, by simp [collectAssignedFields]⟩
  | cons item items ih =>
    obtain ⟨name, item⟩ := item
    cases item with
    | field f =>
      simp only [collectAssignedFields, any_name, hc] at h ⊢
      split at h
      · cases h
      · rename_i hno
        cases hb : bindToContainer [("endian", e)] f name comps.length offset with
        | error e => rw [hb] at h; cases h
        | ok g =>
          simp only [hb] at h
          obtain ⟨h1, h2⟩ := hX name f List.mem_cons_self
          obtain ⟨h3, h4, h5⟩ := bind_turn h1 h2 hb
          have hlen : comps'.length = comps.length := by simpa using congrArg List.length hc
          obtain ⟨new, h6, h7, h9, h8⟩ := ih (comps' := comps' ++ [turnField X g]) (fun n f hf => hX n f (List.mem_cons_of_mem _ hf))
            (by simp [hc, name_turn]) h
          refine ⟨g :: new, by simp [h6], ?_, ?_, ?_⟩
          · intro g' hg'
            rcases List.mem_cons.1 hg' with rfl | hg'
            · exact h5
            · exact h7 g' hg'
          · intro x hx
            rw [ownFields, List.map_cons, List.mem_cons] at hx
            rcases hx with rfl | hx
            · exact ⟨g, List.mem_cons_self, h4⟩
            · obtain ⟨g', hg', he⟩ := h9 x hx
              exact ⟨g', List.mem_cons_of_mem _ hg', he⟩
          · rw [if_neg hno, hlen, h3]
            simp only [base_turn]
            rw [h8]
            simp
    | validator ns fn =>
      simp only [collectAssignedFields] at h ⊢
      exact ih (fun n f hf => hX n f hf) hc h
    | structValidator fn =>
      simp only [collectAssignedFields] at h ⊢
      exact ih (fun n f hf => hX n f hf) hc h

end Verif
