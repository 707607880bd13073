import Verif.Proofs.Inherit

/-!
# If one of two runs of `to_dict` succeeds, so does the other one
-/

namespace Verif
open Spec

theorem whateverLoop_exists {d : StructDesc} {vals : Dict} {fs : List Field} {acc : Dict}
    (h : ∀ f ∈ fs, (∃ v, f.base.computeValueForDump (structView d vals) .none = .ok v) ∨
      ∃ e, f.base.computeValueForDump (structView d vals) .none = .error e ∧ e.isBinobj = true) :
    ∃ r, whateverLoop d vals fs acc = .ok r := by
  induction fs generalizing acc with
  | nil => exact ⟨acc, rfl⟩
  | cons f fs ih =>
    have ih := fun acc => @ih acc fun g hg => h g (List.mem_cons_of_mem _ hg)
    rcases h f (List.mem_cons_self ..) with ⟨v, hv⟩ | ⟨e, he, hb⟩
    · obtain ⟨r, hr⟩ := ih (acc.set f.name v)
      exact ⟨r, by simp only [whateverLoop, hv, hr]⟩
    · obtain ⟨r, hr⟩ := ih acc
      exact ⟨r, by simp only [whateverLoop, he, hb, if_true, hr]⟩

theorem chainLoop_exists {d : StructDesc} {vals dct : Dict} {ks : List String}
    (h : ∀ k ∈ ks, (∃ v, Dict.get? dct k = some v) ∨ ∃ v, structGetItem d vals k = .ok v) : ∃ r, chainLoop d vals dct ks = .ok r := by
  induction ks with
  | nil => exact ⟨[], rfl⟩
  | cons k ks ih =>
    obtain ⟨r, hr⟩ := ih fun k hk => h k (List.mem_cons_of_mem _ hk)
    rcases h k (List.mem_cons_self ..) with ⟨v, hv⟩ | ⟨v, hv⟩
    · exact ⟨(k, v) :: r, by simp only [chainLoop, hv, hr]⟩
    · cases hg : Dict.get? dct k with
      | some w => exact ⟨(k, w) :: r, by simp only [chainLoop, hg, hr]⟩
      | none => exact ⟨(k, v) :: r, by simp only [chainLoop, hg, hv, hr]⟩

theorem missingLoop_exists {dct : Dict} {fs : List Field}
    (h : ∀ f ∈ fs, Dict.contains dct f.name = true ∨ ∃ v, f.base.computeValueForDump dct.view .none = .ok v) :
    ∃ r, missingLoop dct fs = .ok r := by
  induction fs with
  | nil => exact ⟨[], rfl⟩
  | cons f fs ih =>
    obtain ⟨r, hr⟩ := ih fun g hg => h g (List.mem_cons_of_mem _ hg)
    cases hc : Dict.contains dct f.name with
    | true => exact ⟨r, by simp only [missingLoop, hc, if_true, hr]⟩
    | false =>
      obtain ⟨v, hv⟩ := (h f (List.mem_cons_self ..)).resolve_left (by simp [hc])
      exact ⟨(f.name, v) :: r, by simp only [missingLoop, hc, Bool.false_eq_true, if_false, hv, hr]⟩

theorem missingLoop_each {dct more : Dict} {fs : List Field} (h : missingLoop dct fs = .ok more) :
    ∀ f ∈ fs, Dict.contains dct f.name = true ∨ ∃ v, f.base.computeValueForDump dct.view .none = .ok v := by
  induction fs generalizing more with
  | nil => simp
  | cons g fs ih =>
    intro f hf
    simp only [missingLoop] at h
    by_cases hc : Dict.contains dct g.name = true
    · rw [if_pos hc] at h
      rcases List.mem_cons.1 hf with rfl | hf
      · exact Or.inl hc
      · exact ih h f hf
    · rw [if_neg hc] at h
      cases hv : g.base.computeValueForDump dct.view .none with
      | error e => rw [hv] at h; simp at h
      | ok v =>
        rw [hv] at h
        cases hm : missingLoop dct fs with
        | error e => simp [hm] at h
        | ok r =>
          rcases List.mem_cons.1 hf with rfl | hf
          · exact Or.inr ⟨v, hv⟩
          · exact ih hm f hf

theorem mapDictE_exists {g : Value → Except Err Value} {d : Dict} (h : ∀ p ∈ d, ∃ w, g p.2 = .ok w) : ∃ r, mapDictE g d = .ok r := by
  unfold mapDictE
  induction d with
  | nil => exact ⟨[], rfl⟩
  | cons p d ih =>
    obtain ⟨w, hw⟩ := h p (List.mem_cons_self ..)
    obtain ⟨r, hr⟩ := ih fun q hq => h q (List.mem_cons_of_mem _ hq)
    refine ⟨(p.1, w) :: r, ?_⟩
    have hp : (g p.2).map (fun v => (p.1, v)) = .ok (p.1, w) := by rw [hw]; rfl
    simp only [mapE, hp, hr]

/-- `to_dict` of a struct succeeds if it does for one that has the same fields outside `S` with the same values, and the values of the fields in `S`
can be found and converted. -/
theorem structToDict_runs_but {S : String → Prop} {Γ : Classes} {n : Nat} {d d' : StructDesc} {vals vals' all' : Dict}
    (h : TwoRuns S d d' vals vals') (hS : ∀ f ∈ d.components, ¬ S f.name ∨ ∃ v w, f.base.computeValueForDump (structView d vals) .none = .ok v ∧
      recursiveToDicts Γ n v = .ok w) (ha' : structToDict Γ n d' vals' = .ok all') :
    ∃ all, structToDict Γ n d vals = .ok all := by
  have hmem : ∀ f ∈ d.components, ¬ S f.name → f ∈ d'.components := fun f hf hs => (h.fields f hs).1 hf
  have hun : ∀ f ∈ d.components, ¬ S f.name → Unaware S f := fun f hf hs => (h.separated f hf).resolve_left hs
  unfold structToDict at ha'
  cases hsh' : toDictShallow d' vals' false with
  | error e => rw [hsh'] at ha'; simp at ha'
  | ok sh' =>
    rw [hsh'] at ha'
    simp only at ha'
    obtain ⟨-, hk', hg'⟩ := toDictShallow_get h.unique' h.inst' hsh'
    have hshallow : ∃ sh, toDictShallow d vals false = .ok sh := by
      unfold toDictShallow at hsh'
      cases hw' : whateverPossible d' vals' with
      | error e => rw [hw'] at hsh'; simp at hsh'
      | ok w' =>
        rw [hw'] at hsh'
        simp only at hsh'
        cases hm' : missingLoop w' d'.components with
        | error e => rw [hm'] at hsh'; simp at hsh'
        | ok more' =>
          obtain ⟨-, -, h2⟩ := whateverPossible_get h.unique' h.inst' hw'
          have hloop : ∃ raw, whateverLoop d vals d.components [] = .ok raw := by
            refine whateverLoop_exists fun f hf => ?_
            rcases hS f hf with hs | ⟨v, w, hvw, -⟩
            rotate_left
            · exact Or.inl ⟨v, hvw⟩
            rw [computeValueForDump_agree (hun f hf hs).base h.views]
            rcases h2 f (hmem f hf hs) with ⟨v, a, -⟩ | ⟨e, a, b, -⟩
            · exact Or.inl ⟨v, a⟩
            · exact Or.inr ⟨e, a, b⟩
          obtain ⟨raw, hraw⟩ := hloop
          have hpos : ∃ w, whateverPossible d vals = .ok w := by
            unfold whateverPossible
            rw [hraw]
            simp only
            refine chainLoop_exists fun k hk => ?_
            rcases List.mem_append.1 hk with hk | hk
            · obtain ⟨v, hv, -⟩ := (mem_definedKeys h.inst.1).1 hk
              exact Or.inr ⟨v, structGetItem_stored (h.inst.2 k (Dict.keys_of_some hv)) hv⟩
            · have hk1 := (List.mem_filter.1 hk).1
              cases hg : Dict.get? raw k with
              | none => exact absurd hk1 ((Dict.get?_none_iff raw k).1 hg)
              | some v => exact Or.inl ⟨v, rfl⟩
          obtain ⟨w, hw⟩ := hpos
          have hag := whateverPossible_agree h hw hw'
          have hmiss : ∃ more, missingLoop w d.components = .ok more := by
            refine missingLoop_exists fun f hf => ?_
            rcases hS f hf with hs | ⟨v, x, hvw, -⟩
            rotate_left
            · left
              rcases (whateverPossible_get h.unique h.inst hw).2.2 f hf with ⟨y, -, b⟩ | ⟨e, a, -⟩
              · rw [Dict.contains_eq, b]; rfl
              · rw [hvw] at a; simp at a
            rcases missingLoop_each hm' f (hmem f hf hs) with a | ⟨v, a⟩
            · left
              rw [Dict.contains_eq] at a ⊢
              rw [hag f.name hs]; exact a
            · right
              exact ⟨v, by rw [computeValueForDump_agree (hun f hf hs).base hag.view, a]⟩
          obtain ⟨more, hmore⟩ := hmiss
          unfold toDictShallow
          rw [hw]
          simp only [hmore]
          exact ⟨_, rfl⟩
    obtain ⟨sh, hsh⟩ := hshallow
    obtain ⟨hnd, hk, hg⟩ := toDictShallow_get h.unique h.inst hsh
    obtain ⟨-, hmap⟩ := mapDictE_ok ha'
    unfold structToDict
    rw [hsh]
    simp only
    refine mapDictE_exists fun p hp => ?_
    have hpk : Dict.get? sh p.1 = some p.2 := Dict.get?_of_mem hnd hp
    obtain ⟨f, hf, hfn⟩ := mem_names (hk p.1 (Dict.keys_of_some hpk))
    rw [← hfn] at hpk
    rcases hg f hf with ⟨-, -, a⟩ | ⟨a, v, b, c⟩
    · rw [a] at hpk; simp at hpk
    · rw [c] at hpk
      simp only [Option.some.injEq] at hpk
      rcases hS f hf with hs | ⟨v0, w0, hvw, hrec⟩
      rotate_left
      · rcases b with b | ⟨e, b, -⟩
        · rw [hvw] at b; cases b; rw [← hpk]; exact ⟨w0, hrec⟩
        · rw [hvw] at b; simp at b
      rcases hg' f (hmem f hf hs) with ⟨-, a', -⟩ | ⟨-, v', b', c'⟩
      · rcases a with a | a
        · simp at a
        · rw [a] at a'; simp at a'
      · have hvv := DictValue_agree h hf hs b b'
        rcases hmap f.name with ⟨e, -⟩ | ⟨x, y, e1, -, e3⟩
        · rw [c'] at e; simp at e
        · rw [c'] at e1
          simp only [Option.some.injEq] at e1
          exact ⟨y, by rw [← hpk, hvv, e1, e3]⟩

/-- `to_dict` of a struct succeeds if it does for one that has the same fields, and more, with the same values. -/
theorem structToDict_runs {S : String → Prop} {Γ : Classes} {n : Nat} {d d' : StructDesc} {vals vals' all' : Dict}
    (h : TwoRuns S d d' vals vals') (hS : ∀ f ∈ d.components, ¬ S f.name) (ha' : structToDict Γ n d' vals' = .ok all') :
    ∃ all, structToDict Γ n d vals = .ok all := structToDict_runs_but h (fun f hf => Or.inl (hS f hf)) ha'

/-- A field that does not look at the fields in `S` contributes the same, whatever these are. -/
theorem Part_runs {S : String → Prop} {Γ : Classes} {n : Nat} {ctx : Value} {a a' : Dict} {f : Field} {p : Bytes}
    (hu : Unaware S f) (ha : AgreeOff S a a') (hp : Part Γ n ctx a' f p) : Part Γ n ctx a f p := by
  rw [part_iff] at hp ⊢
  have h1 := computeValueForDump_agree hu.base ha.view ctx
  simpa only [h1, hu.dump Γ n _ ctx ha] using hp

end Verif
