import Verif.Spec.Envelope
import Verif.Proofs.Splice
import Verif.Proofs.Runs
import Verif.Proofs.Optional
import Verif.Proofs.Canonical

/-! Helper lemmas: two classes that differ in one field. -/

namespace Verif
open Spec

theorem Spec.OneFieldApart.symm {d d' : StructDesc} {pre post : List Field} {f f' : Field} (h : OneFieldApart d d' pre f f' post) :
    OneFieldApart d' d pre f' f post := ⟨h.right, h.left, h.name.symm⟩

theorem Spec.OneFieldApart.names {d d' : StructDesc} {pre post : List Field} {f f' : Field} (h : OneFieldApart d d' pre f f' post) :
    Spec.names d' = Spec.names d := by
  unfold Spec.names; rw [h.left, h.right]; simp [h.name]

theorem Spec.OneFieldApart.unique {d d' : StructDesc} {pre post : List Field} {f f' : Field} (h : OneFieldApart d d' pre f f' post)
    (hd : UniqueNames d) : UniqueNames d' := by
  unfold UniqueNames; rw [h.names]; exact hd

/-- Fields that do not look at the fields in `S` are loaded the same whatever these are. -/
theorem loads_off {Γ : Classes} {n : Nat} {ctx : Value} {S : String → Prop} {fs : List Field} {acc r : Dict} {s t : Stream}
    (h : Loads Γ n ctx fs acc s r t) :
    (∀ f ∈ fs, ReadsOff S f) → ∀ acc', AgreeOff S acc acc' → (∀ k, S k → Dict.get? acc k ≠ none ∧ Dict.get? acc' k ≠ none) →
      ∃ r', Loads Γ n ctx fs acc' s r' t ∧ AgreeOff S r r' := by
  induction h with
  | nil acc s => exact fun _ acc' ha _ => ⟨acc', .nil _ _, ha⟩
  | @cons f fs acc r v s s1 s2 h1 h2 ih =>
    intro hf acc' ha hS
    have ho := hf f List.mem_cons_self
    rw [(ho.load Γ ha n s ctx).1] at h1
    have hiff : (Dict.get? acc f.name = none) ↔ Dict.get? acc' f.name = none := by
      by_cases hSf : S f.name
      · exact ⟨fun h => absurd h (hS _ hSf).1, fun h => absurd h (hS _ hSf).2⟩
      · rw [ha _ hSf]
    have happ : ∀ (x : Dict), Dict.get? x f.name = none → ∀ k, Dict.get? (x ++ [(f.name, v)]) k = if f.name = k then some v else Dict.get? x k := by
      intro x hx k
      rw [← set_of_not_mem hx, Dict.get?_set]
    obtain ⟨r', h7, h9⟩ := ih (fun g hg => hf g (List.mem_cons_of_mem _ hg))
      (if Dict.get? acc' f.name = none then acc' ++ [(f.name, v)] else acc') (by
        intro k hk
        by_cases hn : Dict.get? acc f.name = none
        · rw [if_pos hn, if_pos (hiff.1 hn), happ _ hn, happ _ (hiff.1 hn), ha k hk]
        · rw [if_neg hn, if_neg (fun h => hn (hiff.2 h)), ha k hk]) (by
        intro k hk
        obtain ⟨h10, h11⟩ := hS k hk
        by_cases hn : Dict.get? acc f.name = none
        · rw [if_pos hn, if_pos (hiff.1 hn), happ _ hn, happ _ (hiff.1 hn)]
          split
          · simp
          · exact ⟨h10, h11⟩
        · rw [if_neg hn, if_neg (fun h => hn (hiff.2 h))]
          exact ⟨h10, h11⟩)
    exact ⟨r', .cons h1 h7, h9⟩

theorem loads_forward {Γ : Classes} (hΓ : ∀ c d, Γ c = some d → ∀ f ∈ d.components, LoadsForward f) {n : Nat} {ctx : Value}
    {fs : List Field} (hf : ∀ f ∈ fs, LoadsForward f) {acc m : Dict} {s u : Stream} (h : Loads Γ n ctx fs acc s m u)
    (hs : s.pos ≤ s.data.length) : u.data = s.data ∧ s.pos ≤ u.pos ∧ u.pos ≤ s.data.length := by
  have h1 := loadFields_forward (load := fun f s acc => fieldFromStream Γ n f s ctx acc) (fs := fs)
    (fun f hm loaded => (load_forward Γ hΓ n).1 f (hf f hm) ctx loaded) acc s hs
  rw [loadFields_ok_iff.2 h] at h1
  exact h1

/-- One field loaded in the place of another that takes the same bytes. -/
theorem swap_load {Γ : Classes} {n : Nat} {d d' : StructDesc} {ctx : Value} {pre post : List Field} {f f' : Field} {results m : Dict}
    {s u w t : Stream} {v v' : Value} (hd : UniqueNames d) (hsw : OneFieldApart d d' pre f f' post)
    (hpost : ∀ g ∈ post, ReadsOff (· = f.name) g) (hm : Loads Γ n ctx pre [] s m u)
    (hrest : Loads Γ n ctx post (m ++ [(f.name, v)]) w results t)
    (hv' : fieldFromStream Γ n f' u ctx m = (.ok v', w)) :
    ∃ vals', LoadsUnlessRejected Γ (n + 1) d' s ctx vals' t ∧
      (∀ k, k ≠ f.name → Dict.get? vals' k = Dict.get? (dropDiscarded d results) k) ∧
      Dict.get? vals' f.name = if f'.base.discard then none else some v' := by
  have hd' := hsw.unique hd
  have hnd := hd
  unfold UniqueNames names at hnd
  rw [hsw.left] at hnd
  have hnone : Dict.get? m f.name = none := by
    rw [Dict.get?_none_iff]
    intro hmem
    rcases (hm.keys f.name).1 hmem with h | h
    · simp [Dict.keys] at h
    · rw [List.map_append, List.nodup_append] at hnd
      exact hnd.2.2 _ h f.name (by simp) rfl
  have happ : ∀ z k, Dict.get? (m ++ [(f.name, z)]) k = if f.name = k then some z else Dict.get? m k := by
    intro z k
    rw [← set_of_not_mem hnone, Dict.get?_set]
  obtain ⟨r', h5, h7⟩ := loads_off (S := (· = f.name)) hrest hpost (m ++ [(f.name, v')])
    (by intro k hk; rw [happ, happ, if_neg (Ne.symm hk), if_neg (Ne.symm hk)])
    (by intro k hk; subst hk; rw [happ, happ]; simp)
  have hl' : Loads Γ n ctx d'.components [] s r' t := by
    rw [hsw.right]
    exact Loads.append.2 ⟨m, _, hm, .cons hv' (by rw [hsw.name, if_pos hnone]; exact h5)⟩
  have hfm : f' ∈ d'.components := by rw [hsw.right]; simp
  have hvf : Dict.get? r' f.name = some v' := by
    apply h5.mono_get
    rw [happ, if_pos rfl]
  have hkeys : ∀ k ∈ Dict.keys r', k ∈ names d' := by
    intro k hk
    rcases (hl'.keys k).1 hk with h | h
    · simp [Dict.keys] at h
    · exact h
  have hl0 : ∀ k ∈ Dict.keys results, k ∈ names d := by
    intro k hk
    rw [← hsw.names]
    by_cases hkn : k = f.name
    · rw [hkn, ← hsw.name]; exact List.mem_map.2 ⟨f', hfm, rfl⟩
    · apply hkeys
      cases hr : Dict.get? r' k with
      | some w => exact Dict.keys_of_some hr
      | none =>
        have := h7 k hkn
        rw [hr] at this
        exact absurd hk ((Dict.get?_none_iff _ _).1 this)
  refine ⟨dropDiscarded d' r', ?_, ?_, ?_⟩
  · cases hval : validateContents d' r' with
    | ok _ => exact Or.inl (structFromStream_ok_iff.2 ⟨r', hl', hkeys, validateContents_ok_iff.1 hval, rfl⟩)
    | error e =>
      right
      refine ⟨e, r', hval, ?_⟩
      simp only [structFromStream, structFromStreamWith]
      rw [loadFields_ok_iff.2 hl']
      simp only
      rw [structInit_ok_iff.2 ⟨rfl, hkeys⟩]
      simp only [hval]
  · intro k hk
    by_cases hkm : k ∈ names d
    · obtain ⟨g, hg, rfl⟩ := mem_names hkm
      have hg' : g ∈ d'.components := by
        rw [hsw.left] at hg
        rw [hsw.right]
        rcases List.mem_append.1 hg with h | h
        · simp [h]
        · rcases List.mem_cons.1 h with h | h
          · exact absurd (by rw [h]) hk
          · simp [h]
      rw [dropDiscarded_get hd' _ hg', dropDiscarded_get hd _ hg, h7 _ hk]
    · have h1 : Dict.get? (dropDiscarded d results) k = none := by
        rw [Dict.get?_none_iff]; intro hx; exact hkm (hl0 k (dropDiscarded_keys hx))
      have h2 : Dict.get? (dropDiscarded d' r') k = none := by
        rw [Dict.get?_none_iff]; intro hx; exact hkm (hsw.names ▸ hkeys k (dropDiscarded_keys hx))
      rw [h1, h2]
  · rw [← hsw.name, dropDiscarded_get hd' _ hfm, hsw.name, hvf]

/-- What a field of type `Bytes` loads is what was there. -/
theorem bytes_load {b : FieldBase} {e : Except Err Int} {s w : Stream} {x : Bytes} (hs : s.pos ≤ s.data.length)
    (h : readExactSize b.name e s = (.ok x, w)) :
    ∃ p q, s = ⟨p ++ x ++ q, p.length⟩ ∧ w = ⟨p ++ x ++ q, p.length + x.length⟩ := by
  obtain ⟨data, pos, hs0⟩ : ∃ data pos, s = ⟨data, pos⟩ := ⟨_, _, rfl⟩
  rw [hs0] at hs
  simp only at hs
  unfold readExactSize at h
  cases e with
  | error e => simp at h
  | ok n =>
    have hread : ∃ j, s.read n = ((data.drop pos).take j, ⟨data, pos + ((data.drop pos).take j).length⟩) := by
      unfold Stream.read
      by_cases hn : n < 0
      · refine ⟨(data.drop pos).length, ?_⟩
        rw [List.take_length]
        simp [hs0, hn]
      · exact ⟨n.toNat, by simp [hs0, hn]⟩
    obtain ⟨j, hj⟩ := hread
    simp only [hj] at h
    split at h
    · simp at h
    · simp only [Prod.mk.injEq, Except.ok.injEq] at h
      obtain ⟨rfl, rfl⟩ := h
      refine ⟨data.take pos, (data.drop pos).drop j, ?_, ?_⟩
      · rw [List.append_assoc, List.take_append_drop, List.take_append_drop, hs0]
        simp; omega
      · rw [List.append_assoc, List.take_append_drop, List.take_append_drop]
        simp; omega

theorem structGet_apart {d d' : StructDesc} {pre post : List Field} {f f' : Field} {vals vals' : Dict} (hsw : OneFieldApart d d' pre f f' post)
    (hd : UniqueNames d) (hs : ∀ g ∈ pre ++ post, Unaware (· = f.name) g)
    (hn : (Dict.keys vals).Nodup) (hn' : (Dict.keys vals').Nodup) (h : AgreeOff (· = f.name) vals vals') (n : Nat) {k : String} (hk : k ≠ f.name) :
    structGet d vals n k = structGet d' vals' n k := by
  have hd' := hsw.unique hd
  induction n generalizing k with
  | zero => rfl
  | succ n ih =>
    simp only [structGet]
    by_cases hm : k ∈ names d
    · obtain ⟨g, hg, rfl⟩ := mem_names hm
      have hg1 : g ∈ pre ++ post := by
        rw [hsw.left] at hg
        rcases List.mem_append.1 hg with h | h
        · simp [h]
        · rcases List.mem_cons.1 h with h | h
          · exact absurd (by rw [h]) hk
          · simp [h]
      have hg' : g ∈ d'.components := by
        rw [hsw.right]
        rcases List.mem_append.1 hg1 with h | h <;> simp [h]
      rw [find?_of_mem hd hg, find?_of_mem hd' hg', h _ hk]
      simp only
      cases Dict.get? vals' g.name with
      | some v => rfl
      | none =>
        exact computeValueForDump_agree (hs g hg1).base (fun k hk => ⟨structContains_agree hn hn' h hk, ih hk⟩) .none
    · have h1 : d.find? k = none := by
        cases hf : d.find? k with
        | none => rfl
        | some g => obtain ⟨h2, rfl⟩ := find?_some hf; exact absurd (List.mem_map.2 ⟨g, h2, rfl⟩) hm
      have h2 : d'.find? k = none := by
        cases hf : d'.find? k with
        | none => rfl
        | some g => obtain ⟨h2, rfl⟩ := find?_some hf; exact absurd (hsw.names ▸ List.mem_map.2 ⟨g, h2, rfl⟩) hm
      rw [h1, h2]

theorem Spec.OneFieldApart.twoRuns {d d' : StructDesc} {pre post : List Field} {f f' : Field} {vals vals' : Dict}
    (hsw : OneFieldApart d d' pre f f' post) (hd : UniqueNames d) (hs : ∀ g ∈ pre ++ post, Unaware (· = f.name) g)
    (hi : Instance d vals) (hi' : Instance d' vals') (h : AgreeOff (· = f.name) vals vals') : TwoRuns (· = f.name) d d' vals vals' := by
  refine ⟨hd, hsw.unique hd, hi, hi', ?_, ?_, h, ?_⟩
  · intro g hg
    rw [hsw.left, hsw.right]
    simp only [List.mem_append, List.mem_cons]
    have h1 : g ≠ f := fun he => hg (by rw [he])
    have h2 : g ≠ f' := fun he => hg (by rw [he, hsw.name])
    simp [h1, h2]
  · intro g hg
    rw [hsw.left] at hg
    rcases List.mem_append.1 hg with hg | hg
    · exact Or.inr (hs g (by simp [hg]))
    · rcases List.mem_cons.1 hg with rfl | hg
      · exact Or.inl rfl
      · exact Or.inr (hs g (by simp [hg]))
  · intro k hk
    refine ⟨structContains_agree hi.1 hi'.1 h hk, ?_⟩
    simp only [structView, structGetItem]
    rw [show d'.components.length = d.components.length by rw [hsw.left, hsw.right]; simp]
    exact structGet_apart hsw hd hs hi.1 hi'.1 h _ hk

/-- The value of a stored field in the dictionary. -/
theorem toDict_stored {Γ : Classes} {n : Nat} {d : StructDesc} {vals all : Dict} {f : Field} {v w : Value} (hd : UniqueNames d)
    (hi : Instance d vals) (h : structToDict Γ n d vals = .ok all) (hf : f ∈ d.components)
    (hnd : f.base.discard = false) (hp : ∀ w c s, f.base.present w c s = .ok true) (hx : Dict.get? vals f.name = some v) (hu : v ≠ .undefined)
    (hw : recursiveToDicts Γ n v = .ok w) : Dict.get? all f.name = some w := by
  obtain ⟨-, -, h3⟩ := structToDict_get hd hi h
  have hc := full_value hi hf hx (.inr ⟨hu, hp _ _ _⟩)
  rcases h3 f hf with ⟨-, h4, -⟩ | ⟨-, v', w', h4, h5, h6⟩
  · rw [hnd] at h4; simp at h4
  · have hv : v' = v := by
      rcases h4 with h4 | ⟨e, h4, -⟩
      · rw [hc] at h4; cases h4; rfl
      · rw [hc] at h4; simp at h4
    rw [hv, hw] at h5
    cases h5
    exact h6

/-- One field dumped in the place of another that writes the same bytes. -/
theorem swap_dump {Γ : Classes} {n : Nat} {d d' : StructDesc} {ctx : Value} {pre post : List Field} {f f' : Field} {vals vals' : Dict} {bs : Bytes}
    {v v' w w' : Value}
    (hd : UniqueNames d) (hsw : OneFieldApart d d' pre f f' post) (hu : ∀ g ∈ pre ++ post, Unaware (· = f.name) g)
    (hi : Instance d vals) (hi' : Instance d' vals') (hag : AgreeOff (· = f.name) vals vals')
    (hp : ∀ w c s, f.base.present w c s = .ok true) (hp' : ∀ w c s, f'.base.present w c s = .ok true)
    (hnd : f.base.discard = false) (hnd' : f'.base.discard = false)
    (hv : Dict.get? vals f.name = some v) (hv' : Dict.get? vals' f.name = some v')
    (hw : recursiveToDicts Γ n v = .ok w) (hw' : recursiveToDicts Γ n v' = .ok w')
    (hun : v ≠ .undefined ∧ w ≠ .undefined ∧ w ≠ .notPresent) (hun' : v' ≠ .undefined ∧ w' ≠ .undefined ∧ w' ≠ .notPresent)
    (hpart : ∀ all all' p, structToDict Γ n d vals = .ok all → AgreeOff (· = f.name) all all' → Dict.get? all f.name = some w →
      fieldToStream Γ n f w ctx all = (p, .ok ()) → fieldToStream Γ n f' w' ctx all' = (p, .ok ()))
    (hval : validateContents d' vals' = .ok ()) (h : structToStream Γ (n + 1) d vals ctx = (bs, .ok ())) :
    structToStream Γ (n + 1) d' vals' ctx = (bs, .ok ()) := by
  have hd' := hsw.unique hd
  have hfm : f ∈ d.components := by rw [hsw.left]; simp
  have hfm' : f' ∈ d'.components := by rw [hsw.right]; simp
  have hag' : AgreeOff (· = f'.name) vals' vals := by rw [hsw.name]; exact fun k hk => (hag k hk).symm
  have htr' := hsw.symm.twoRuns hd' (by rw [hsw.name]; exact hu) hi' hi hag'
  obtain ⟨all, as, p, cs, h1, h2, h3, h4, h5⟩ := structToStream_part h hsw.left
  have hc' := full_value hi' hfm' (show Dict.get? vals' f'.name = some v' by rw [hsw.name]; exact hv') (.inr ⟨hun'.1, hp' _ _ _⟩)
  have hex : ∃ all', structToDict Γ n d' vals' = .ok all' := by
    refine structToDict_runs_but htr' (fun g hg => ?_) h1
    rw [hsw.right] at hg
    have hne : ∀ g ∈ pre ++ post, ¬ g.name = f'.name := by
      intro g hg; rw [hsw.name]; exact (hu g hg).base.name
    rcases List.mem_append.1 hg with hg | hg
    · exact Or.inl (hne g (by simp [hg]))
    · rcases List.mem_cons.1 hg with rfl | hg
      · exact Or.inr ⟨v', w', hc', hw'⟩
      · exact Or.inl (hne g (by simp [hg]))
  obtain ⟨all', h6⟩ := hex
  have ha := structToDict_agree htr' h6 h1
  rw [hsw.name] at ha
  have hkey : ∀ (gs : List Field) (xs : List Bytes), (∀ g ∈ gs, Unaware (· = f.name) g) → Parts Γ n ctx all gs xs → Parts Γ n ctx all' gs xs := by
    intro gs xs hg hx
    induction hx with
    | nil => exact .nil
    | cons hq _ ih => exact .cons (Part_runs (hg _ (by simp)) ha hq) (ih fun g hg' => hg g (by simp [hg']))
  have hall : Dict.get? all f.name = some w := toDict_stored hd hi h1 hfm hnd hp hv hun.1 hw
  have hall' : Dict.get? all' f.name = some w' := by
    rw [← hsw.name]
    exact toDict_stored hd' hi' h6 hfm' hnd' hp' (by rw [hsw.name]; exact hv') hun'.1 hw'
  have hcomp : ∀ (b : FieldBase) (a : Dict) (z : Value), (∀ w c s, b.present w c s = .ok true) → Dict.get? a b.name = some z → z ≠ .undefined →
      b.computeValueForDump a.view ctx = .ok z := by
    intro b a z hb hz hzu
    refine compute_set (hb _ _ _) ?_ ?_ hzu
    · simp only [Dict.view, Dict.contains_eq, hz, Option.isSome]
    · simp only [Dict.view, hz]
  have hpt : Part Γ n ctx all' f' p := by
    rw [part_iff] at h4 ⊢
    obtain ⟨z, h7, h8⟩ := h4
    rw [hcomp f.base all w hp hall hun.2.1] at h7
    cases h7
    refine ⟨w', hcomp f'.base all' w' hp' (by rw [show f'.base.name = f.name from hsw.name]; exact hall') hun'.2.1, Or.inr ⟨hun'.2.2, ?_⟩⟩
    rcases h8 with ⟨h8, -⟩ | ⟨-, h8⟩
    · exact absurd h8 hun.2.2
    · exact hpart all all' p h1 (fun k hk => (ha k hk).symm) hall h8
  have hparts : Parts Γ n ctx all' d'.components (as ++ p :: cs) := by
    rw [hsw.right]
    have happ : ∀ (gs hs : List Field) (xs ys : List Bytes), Parts Γ n ctx all' gs xs → Parts Γ n ctx all' hs ys →
        Parts Γ n ctx all' (gs ++ hs) (xs ++ ys) := by
      intro gs hs xs ys hx hy
      induction hx with
      | nil => exact hy
      | cons hq _ ih => exact .cons hq ih
    exact happ _ _ _ _ (hkey pre as (fun g hg => hu g (by simp [hg])) h3) (.cons hpt (hkey post cs (fun g hg => hu g (by simp [hg])) h5))
  refine structToStream_ok_iff.2 ⟨validateContents_ok_iff.1 hval, all', h6, _, hparts, ?_⟩
  rw [h2]; simp

end Verif
