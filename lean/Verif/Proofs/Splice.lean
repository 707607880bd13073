import Verif.Proofs.Position
import Verif.Proofs.Locality
import Verif.Proofs.Offset

/-! Helper lemmas: replacing the bytes of one field. -/

namespace Verif
open Spec

theorem loads_moved_off {Γ : Classes} {n : Nat} {ctx : Value} {S : String → Prop} {δ : Int}
    (hΓ : ∀ c d, Γ c = some d → ∀ f ∈ d.components, LooksAhead f) {fs : List Field} {acc r : Dict} {s t : Stream}
    (h : Loads Γ n ctx fs acc s r t) :
    (∀ f ∈ fs, LooksAhead f ∧ ReadsOff S f) → ∀ acc' s', AgreeOff S acc acc' → (∀ k, S k → Dict.get? acc k ≠ none ∧ Dict.get? acc' k ≠ none) →
      Moved δ s s' → ∃ r' t', Loads Γ n ctx fs acc' s' r' t' ∧ Moved δ t t' ∧ AgreeOff S r r' := by
  induction h with
  | nil acc s => exact fun _ acc' s' ha _ hm => ⟨acc', s', .nil _ _, hm, ha⟩
  | @cons f fs acc r v s s1 s2 h1 h2 ih =>
    intro hf acc' s' ha hS hm
    obtain ⟨hl, ho⟩ := hf f List.mem_cons_self
    have h3 := (load_moved hΓ δ n).1 f hl ctx acc s s' hm
    rw [(ho.load Γ ha n s' ctx).1] at h3
    rcases h4 : fieldFromStream Γ n f s' ctx acc' with ⟨y, s1'⟩
    rw [h1, h4] at h3
    obtain ⟨h5, h6⟩ := h3
    rcases h5 with ⟨a, h, h'⟩ | ⟨e, e', h, -, -⟩
    · simp only [Except.ok.injEq] at h h'
      subst h h'
      have hiff : (Dict.get? acc f.name = none) ↔ Dict.get? acc' f.name = none := by
        by_cases hSf : S f.name
        · exact ⟨fun h => absurd h (hS _ hSf).1, fun h => absurd h (hS _ hSf).2⟩
        · rw [ha _ hSf]
      have happ : ∀ (x : Dict), Dict.get? x f.name = none → ∀ k, Dict.get? (x ++ [(f.name, v)]) k = if f.name = k then some v else Dict.get? x k := by
        intro x hx k
        rw [← set_of_not_mem hx, Dict.get?_set]
      obtain ⟨r', t', h7, h8, h9⟩ := ih (fun g hg => hf g (List.mem_cons_of_mem _ hg))
        (if Dict.get? acc' f.name = none then acc' ++ [(f.name, v)] else acc') s1' (by
          intro k hk
          by_cases hn : Dict.get? acc f.name = none
          · rw [if_pos hn, if_pos (hiff.1 hn), happ _ hn, happ _ (hiff.1 hn), ha k hk]
          · rw [if_neg hn, if_neg (fun h => hn (hiff.2 h)), ha k hk]) (by
          intro k hk
          obtain ⟨h10, h11⟩ := hS k hk
          by_cases hn : Dict.get? acc f.name = none
          · rw [if_pos hn, if_pos (hiff.1 hn), happ _ hn, happ _ (hiff.1 hn)]
            split
            · simp
            · exact ⟨h10, h11⟩
          · rw [if_neg hn, if_neg (fun h => hn (hiff.2 h))]
            exact ⟨h10, h11⟩) h6
      exact ⟨r', t', .cons h4 h7, h8, h9⟩
    · simp at h

/-- Fields loaded from bytes that something follows are loaded the same whatever follows. -/
theorem loads_local {Γ : Classes} {n : Nat} {ctx : Value} (hΓF : ∀ c d, Γ c = some d → ∀ f ∈ d.components, LoadsForward f)
    (hΓL : ∀ c d, Γ c = some d → ∀ f ∈ d.components, LooksBehind Γ f) {fs : List Field} (hF : ∀ f ∈ fs, LoadsForward f)
    (hL : ∀ f ∈ fs, LooksBehind Γ f) {acc m : Dict} {pre used post : Bytes}
    (h : Loads Γ n ctx fs acc ⟨pre ++ used ++ post, pre.length⟩ m ⟨pre ++ used ++ post, pre.length + used.length⟩) (hp : post ≠ [])
    (post' : Bytes) :
    Loads Γ n ctx fs acc ⟨pre ++ used ++ post', pre.length⟩ m ⟨pre ++ used ++ post', pre.length + used.length⟩ := by
  have h1 := loadFields_local (e := false) (load := fun f s acc => fieldFromStream Γ n f s ctx acc) (I := fun _ => True) (fs := fs)
    (fun _ _ _ _ _ _ _ _ => trivial) (fun f hf loaded => (load_forward Γ hΓF n).1 f (hF f hf) ctx loaded)
    (fun f hf loaded _ => (load_local false Γ hΓF hΓL (by simp) n).1 f (hF f hf) (hL f hf) (by simp) ctx loaded (by simp)) acc trivial
  exact loadFields_ok_iff.1 (h1 pre used post m (loadFields_ok_iff.2 h) (Or.inl hp) post')

end Verif
