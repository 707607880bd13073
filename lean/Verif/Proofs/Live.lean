import Verif.Spec.Live
import Verif.Proofs.Rebuild
import Verif.Proofs.Halting

/-! # Live callables: proofs -/
namespace Verif
open Spec

variable {S : Type}

@[simp] theorem Prog.pure_apply {α : Type} (r : Except Err α) (s : S) : Prog.pure r s = (r, s) := rfl

theorem Prog.andThen_ok {α β : Type} {p : Prog S α} {k : α → Prog S β} {s s' : S} {b : β} (h : p.andThen k s = (.ok b, s')) :
    ∃ a s₁, p s = (.ok a, s₁) ∧ k a s₁ = (.ok b, s') := by
  unfold Prog.andThen at h
  split at h
  · simp at h
  · rename_i a s₁ ha; exact ⟨a, s₁, ha, h⟩

theorem Prog.pure_ok {α : Type} {r : Except Err α} {s s' : S} {a : α} (h : Prog.pure r s = (.ok a, s')) : r = .ok a ∧ s = s' := by
  simpa using h

theorem View.live_eta (c : String → Bool) (g : String → Except Err Value) (G : String → Prog S Value)
    (h : ∀ k s, G k s = (g k, s)) : (⟨c, G⟩ : LiveView S) = View.live ⟨c, g⟩ := by
  unfold View.live
  congr 1
  funext k s
  exact h k s

/-! ### Deterministic callables: nothing new -/

theorem computeValueForDump_live {c : LiveClass S} {f : Field} {v : View} {ctx : Value} (s : S)
    (hc : v.contains f.name = false → ComputesAs c f) (hp : PresentAs c f) :
    c.computeValueForDump f.base v.live ctx s = (f.base.computeValueForDump v ctx, s) := by
  have key : ∀ (x : Except Err Value), ((Prog.pure x : Prog S Value).andThen fun v' =>
      if v' = .notPresent then Prog.pure (.ok .notPresent)
      else (c.present f.base.name v.live ctx).andThen fun there =>
        if there then Prog.pure (if v' = .undefined then .error (.missingRequired f.base.name) else .ok v')
        else Prog.pure (.ok .notPresent)) s = ((match x with
        | .error e => .error e
        | .ok v' => if v' = .notPresent then .ok .notPresent
          else match f.base.present v ctx none with
            | .error e => .error e
            | .ok false => .ok .notPresent
            | .ok true => if v' = .undefined then .error (.missingRequired f.base.name) else .ok v' : Except Err Value), s) := by
    intro x
    cases x with
    | error e => rfl
    | ok v' =>
      simp only [Prog.andThen, Prog.pure_apply]
      by_cases hn : v' = .notPresent
      · simp [hn]
      · simp only [hn, if_false]
        have := hp v ctx s
        simp only [Field.name] at this
        unfold Prog.andThen
        rw [this]
        cases hb : f.base.present v ctx none with
        | error e => rfl
        | ok b => cases b <;> simp
  have hval : ∀ (G : Prog S Value) (x : Except Err Value), G s = (x, s) → ∀ (k : Value → Prog S Value),
      G.andThen k s = (Prog.pure x : Prog S Value).andThen k s := by
    intro G x h k
    unfold Prog.andThen; rw [h]; rfl
  unfold LiveClass.computeValueForDump FieldBase.computeValueForDump
  simp only
  by_cases h1 : v.contains f.base.name = true
  · have h1' : (v.live : LiveView S).contains f.base.name = true := h1
    simp only [h1, h1', if_true]
    rw [hval ((v.live : LiveView S).get f.base.name) (v.get f.base.name) rfl]; exact key _
  · have h1' : (v.live : LiveView S).contains f.base.name = false := by
      show v.contains f.base.name = false
      simpa using h1
    have h1 : v.contains f.base.name = false := by simpa using h1
    simp only [h1, h1', Bool.false_eq_true, if_false]
    by_cases h2 : f.base.dflt = .undefined
    · simp only [h2, ne_eq, not_true_eq_false, if_false]
      have hca := hc h1
      cases hcf : f.base.computeFn with
      | none =>
        have := hca.none hcf
        simp only [Field.name] at this
        rw [this]
        exact key _
      | some g =>
        obtain ⟨p, hp1, hp2⟩ := hca.some g hcf
        simp only [Field.name] at hp1
        rw [hp1]
        simp only
        rw [hval _ (g v) (hp2 v s)]; exact key _
    · simp only [h2, ne_eq, not_false_eq_true, if_true]
      exact key _

theorem liveGet_eq {c : LiveClass S} {vals : Dict}
    (hc : ∀ f ∈ c.desc.components, structContains vals f.name = false → ComputesAs c f)
    (hp : ∀ f ∈ c.desc.components, PresentAs c f) (n : Nat) (k : String) (s : S) :
    liveGet c vals n k s = (structGet c.desc vals n k, s) := by
  induction n generalizing k s with
  | zero => rfl
  | succ n ih =>
    simp only [liveGet, structGet]
    cases hf : c.desc.find? k with
    | none => rfl
    | some f =>
      simp only
      have hm : f ∈ c.desc.components := List.mem_of_find?_eq_some hf
      cases hv : Dict.get? vals k with
      | some v => rfl
      | none =>
        simp only
        rw [View.live_eta (structContains vals) (structGet c.desc vals n) _ ih]
        exact computeValueForDump_live s (hc f hm) (hp f hm)

theorem liveView_eq {c : LiveClass S} {vals : Dict}
    (hc : ∀ f ∈ c.desc.components, structContains vals f.name = false → ComputesAs c f)
    (hp : ∀ f ∈ c.desc.components, PresentAs c f) (hd : c.depth = c.desc.components.length + 1) :
    liveView c vals = (structView c.desc vals).live := by
  unfold liveView structView
  apply View.live_eta
  intro k s
  unfold liveGetItem structGetItem
  rw [hd]
  exact liveGet_eq hc hp _ k s

theorem liveRunAll_eq {α β : Type} {check : α → Prog S Unit} {chk : β → Except Err Unit} {as : List α} {bs : List β}
    (h : Paired (fun a b => ∀ s, check a s = (chk b, s)) as bs) (s : S) : liveRunAll check as s = (runAll chk bs, s) := by
  induction h with
  | nil => rfl
  | cons hab _ ih =>
    simp only [liveRunAll, runAll, Prog.andThen, hab s]
    rename_i b _ _ _
    cases chk b with
    | error e => rfl
    | ok _ => exact ih

theorem Spec.Paired.imp {α β : Type} {R Q : α → β → Prop} {as : List α} {bs : List β} (h : Paired R as bs)
    (hi : ∀ a b, R a b → Q a b) : Paired Q as bs := by
  induction h with
  | nil => exact .nil
  | cons hab _ ih => exact .cons (hi _ _ hab) ih

theorem liveValidate_eq {c : LiveClass S} {vals : Dict}
    (hc : ∀ f ∈ c.desc.components, structContains vals f.name = false → ComputesAs c f)
    (hp : ∀ f ∈ c.desc.components, PresentAs c f) (hd : c.depth = c.desc.components.length + 1) (hv : ValidatesAs c) (s : S) :
    liveValidate c vals s = (validateContents c.desc vals, s) := by
  have hview := liveView_eq (vals := vals) hc hp hd
  have h1 : liveRunAll (liveValidateField c vals) c.fieldValidators s =
      (runAll (validateField c.desc vals) c.desc.fieldValidators, s) := by
    refine liveRunAll_eq (hv.fields.imp ?_) s
    rintro ⟨k, ms⟩ ⟨k', gs⟩ ⟨hk, hms⟩ s
    simp only at hk hms
    subst hk
    simp only [liveValidateField, validateField]
    cases hf : c.desc.find? k with
    | none => rfl
    | some f =>
      simp only [Prog.andThen]
      have hg : liveGetItem c vals k s = (structGetItem c.desc vals k, s) := by
        unfold liveGetItem structGetItem; rw [hd]; exact liveGet_eq hc hp _ k s
      rw [hg]
      cases structGetItem c.desc vals k with
      | error e => rfl
      | ok v =>
        simp only [Prog.pure_apply]
        cases runValidators f.base.validators v with
        | error e => rfl
        | ok _ =>
          simp only
          refine liveRunAll_eq (hms.imp ?_) s
          intro m g h s
          rw [hview]; exact h _ _ s
  have h2 : ∀ s, liveRunAll (fun v => v (liveView c vals)) c.structValidators s =
      (runAll (fun v => v (structView c.desc vals)) c.desc.structValidators, s) := by
    intro s
    refine liveRunAll_eq (hv.struct.imp ?_) s
    intro m g h s
    rw [hview]; exact h _ s
  simp only [liveValidate, validateContents, Prog.andThen, h1]
  cases runAll (validateField c.desc vals) c.desc.fieldValidators with
  | error e => rfl
  | ok _ => exact h2 s

theorem liveWhateverLoop_eq {c : LiveClass S} {vals : Dict} {fs : List Field}
    (hc : ∀ f ∈ c.desc.components, structContains vals f.name = false → ComputesAs c f)
    (hp : ∀ f ∈ c.desc.components, PresentAs c f) (hd : c.depth = c.desc.components.length + 1)
    (hfs : ∀ f ∈ fs, f ∈ c.desc.components) (acc : Dict) (s : S) :
    liveWhateverLoop c vals fs acc s = (whateverLoop c.desc vals fs acc, s) := by
  induction fs generalizing acc s with
  | nil => rfl
  | cons f fs ih =>
    have hf := hfs f (List.mem_cons_self ..)
    have ih' := fun acc s => ih (fun g hg => hfs g (List.mem_cons_of_mem _ hg)) acc s
    simp only [liveWhateverLoop, whateverLoop, liveView_eq hc hp hd,
      computeValueForDump_live (v := structView c.desc vals) (ctx := .none) s (hc f hf) (hp f hf)]
    cases f.base.computeValueForDump (structView c.desc vals) .none with
    | ok v => exact ih' _ _
    | error e =>
      simp only
      split
      · exact ih' _ _
      · rfl

theorem liveChainLoop_eq {c : LiveClass S} {vals dct : Dict} {ks : List String}
    (hg : ∀ k s, liveGetItem c vals k s = (structGetItem c.desc vals k, s)) (s : S) :
    liveChainLoop c vals dct ks s = (chainLoop c.desc vals dct ks, s) := by
  induction ks generalizing s with
  | nil => rfl
  | cons k ks ih =>
    simp only [liveChainLoop, chainLoop]
    cases Dict.get? dct k with
    | some v =>
      simp only [Prog.andThen, Prog.pure_apply, ih]
      cases chainLoop c.desc vals dct ks <;> rfl
    | none =>
      simp only [Prog.andThen, hg]
      cases structGetItem c.desc vals k with
      | error e => rfl
      | ok v =>
        simp only [ih]
        cases chainLoop c.desc vals dct ks <;> rfl

theorem liveMissingLoop_eq {c : LiveClass S} {dct : Dict} {fs : List Field}
    (hc : ∀ f ∈ fs, dct.contains f.name = false → ComputesAs c f) (hp : ∀ f ∈ fs, PresentAs c f) (s : S) :
    liveMissingLoop c dct fs s = (missingLoop dct fs, s) := by
  induction fs generalizing s with
  | nil => rfl
  | cons f fs ih =>
    have ih' := fun s => ih (fun g hg => hc g (List.mem_cons_of_mem _ hg)) (fun g hg => hp g (List.mem_cons_of_mem _ hg)) s
    simp only [liveMissingLoop, missingLoop]
    split
    · exact ih' s
    · rename_i hn
      have hn : Dict.contains dct f.name = false := by simpa using hn
      simp only [Prog.andThen, computeValueForDump_live (v := Dict.view dct) (ctx := .none) s
        (hc f (List.mem_cons_self ..)) (hp f (List.mem_cons_self ..))]
      cases f.base.computeValueForDump (Dict.view dct) .none with
      | error e => rfl
      | ok v =>
        simp only [ih']
        cases missingLoop dct fs <;> rfl

theorem liveToDictShallow_eq {c : LiveClass S} {vals : Dict}
    (hc : ∀ f ∈ c.desc.components, structContains vals f.name = false → ComputesAs c f)
    (hp : ∀ f ∈ c.desc.components, PresentAs c f) (hd : c.depth = c.desc.components.length + 1) (s : S) :
    liveToDictShallow c vals s = (toDictShallow c.desc vals false, s) := by
  have hg : ∀ k s, liveGetItem c vals k s = (structGetItem c.desc vals k, s) := by
    intro k s
    unfold liveGetItem structGetItem; rw [hd]; exact liveGet_eq hc hp _ k s
  have h1 : liveWhateverPossible c vals s = (whateverPossible c.desc vals, s) := by
    simp only [liveWhateverPossible, whateverPossible, Prog.andThen,
      liveWhateverLoop_eq hc hp hd (fun f hf => hf) [] s]
    cases whateverLoop c.desc vals c.desc.components [] with
    | error e => rfl
    | ok dct => exact liveChainLoop_eq hg s
  simp only [liveToDictShallow, toDictShallow, Prog.andThen, h1]
  cases hw : whateverPossible c.desc vals with
  | error e => rfl
  | ok dct =>
    have hin : ∀ f ∈ c.desc.components, Dict.contains dct f.name = false → ComputesAs c f := by
      intro f hf hn
      refine hc f hf ?_
      rw [Bool.eq_false_iff]
      intro hs
      unfold whateverPossible at hw
      split at hw
      · simp at hw
      · rename_i raw _
        obtain ⟨h4, -, -⟩ := chainLoop_ok hw
        have : f.name ∈ Dict.keys dct := by
          rw [h4]
          exact List.mem_append_left _ (List.contains_iff_mem.1 hs)
        rw [(Dict.contains_iff dct f.name).2 this] at hn
        simp at hn
    simp only [liveMissingLoop_eq hin hp s]
    cases missingLoop dct c.desc.components with
    | error e => rfl
    | ok more => simp

theorem liveMapE_eq {α β : Type} {G : α → Prog S β} {g : α → Except Err β} (h : ∀ a s, G a s = (g a, s)) (l : List α) (s : S) :
    liveMapE G l s = (mapE g l, s) := by
  induction l generalizing s with
  | nil => rfl
  | cons a l ih =>
    simp only [liveMapE, mapE, Prog.andThen, h]
    cases g a with
    | error e => rfl
    | ok b =>
      simp only [ih]
      cases mapE g l <;> rfl

theorem liveMapDictE_eq {G : Value → Prog S Value} {g : Value → Except Err Value} (h : ∀ a s, G a s = (g a, s)) (d : Dict) (s : S) :
    liveMapDictE G d s = (mapDictE g d, s) := by
  unfold liveMapDictE mapDictE
  apply liveMapE_eq
  intro p s
  simp only [Prog.andThen, h]
  cases g p.2 <;> rfl

theorem liveToDicts_eq {C : LiveClasses S} (hC : ∀ cls c, C cls = some c → Deterministic c fun _ => False) (n : Nat) (v : Value)
    (s : S) : liveToDicts C n v s = (recursiveToDicts C.plain n v, s) := by
  induction n generalizing v s with
  | zero => rfl
  | succ n ih =>
    cases v
    case struct cls vals =>
      simp only [liveToDicts, recursiveToDicts, LiveClasses.plain]
      cases hcl : C cls with
      | none => rfl
      | some c =>
        have hdet := hC cls c hcl
        simp only [Option.map_some, Prog.andThen,
          liveToDictShallow_eq (vals := vals) (fun f hf _ => hdet.compute f hf id) hdet.present hdet.depth s]
        cases toDictShallow c.desc vals false with
        | error e => rfl
        | ok dct =>
          simp only [liveMapDictE_eq ih]
          cases mapDictE (recursiveToDicts (LiveClasses.plain C) n) dct <;> rfl
    case dict dct =>
      simp only [liveToDicts, recursiveToDicts, Prog.andThen, liveMapDictE_eq ih]
      cases mapDictE (recursiveToDicts (LiveClasses.plain C) n) dct <;> rfl
    case list l =>
      simp only [liveToDicts, recursiveToDicts, Prog.andThen, liveMapE_eq ih]
      cases mapE (recursiveToDicts (LiveClasses.plain C) n) l <;> rfl
    all_goals rfl

/-- Once every field has a value in the dictionary, only `present` is asked. -/
theorem liveDumpFields_eq {c : LiveClass S} {toStream : Field → Value → W} {all : Dict} {ctx : Value} {fs : List Field}
    (hc : ∀ f ∈ fs, all.contains f.name = false → ComputesAs c f) (hp : ∀ f ∈ fs, PresentAs c f) (s : S) :
    liveDumpFields c toStream all ctx fs s = (dumpFields toStream all ctx fs, s) := by
  induction fs generalizing s with
  | nil => rfl
  | cons f fs ih =>
    have ih' := fun s => ih (fun g hg => hc g (List.mem_cons_of_mem _ hg)) (fun g hg => hp g (List.mem_cons_of_mem _ hg)) s
    simp only [liveDumpFields, dumpFields, computeValueForDump_live (v := Dict.view all) (ctx := ctx) s
      (hc f (List.mem_cons_self ..)) (hp f (List.mem_cons_self ..))]
    cases f.base.computeValueForDump (Dict.view all) ctx with
    | error e => rfl
    | ok v =>
      simp only
      split
      · exact ih' s
      · simp only [W.seq]
        rcases toStream f v with ⟨bs, r⟩
        cases r with
        | error e => rfl
        | ok _ => simp only [ih']

/-! ### Any callables: one dictionary -/

/-- A dictionary with each key once, only names of fields, and no missing values. -/
def WholeDict (d : StructDesc) (T : Dict) : Prop := (Dict.keys T).Nodup ∧ ∀ p ∈ T, p.1 ∈ names d ∧ p.2 ≠ .undefined

theorem live_ne_undefined {c : LiveClass S} {b : FieldBase} {all : LiveView S} {ctx v : Value} {s s' : S}
    (h : c.computeValueForDump b all ctx s = (.ok v, s')) : v ≠ .undefined := by
  unfold LiveClass.computeValueForDump at h
  obtain ⟨w, s₁, -, h⟩ := Prog.andThen_ok h
  by_cases hw : w = .notPresent
  · simp only [hw, if_true, Prog.pure_apply, Prod.mk.injEq, Except.ok.injEq] at h
    rw [← h.1]; simp
  · simp only [hw, if_false] at h
    obtain ⟨b, s₂, -, h⟩ := Prog.andThen_ok h
    cases b with
    | false =>
      simp at h
      rw [← h.1]; simp
    | true =>
      simp at h
      obtain ⟨h, -⟩ := h
      split at h
      · simp at h
      · rename_i hu
        simp at h; subst h; exact hu

theorem WholeDict.set {d : StructDesc} {T : Dict} (h : WholeDict d T) {k : String} {v : Value} (hk : k ∈ names d) (hv : v ≠ .undefined) :
    WholeDict d (T.set k v) := by
  refine ⟨Dict.nodup_set h.1, ?_⟩
  intro p hp
  rcases mem_set hp with hp | rfl
  · exact h.2 p hp
  · exact ⟨hk, hv⟩

theorem liveWhateverLoop_tidy {c : LiveClass S} {vals acc dct : Dict} {fs : List Field} {s s' : S}
    (hfs : ∀ f ∈ fs, f ∈ c.desc.components) (ha : WholeDict c.desc acc) (h : liveWhateverLoop c vals fs acc s = (.ok dct, s')) :
    WholeDict c.desc dct := by
  induction fs generalizing acc s with
  | nil =>
    simp [liveWhateverLoop] at h
    rw [← h.1]; exact ha
  | cons f fs ih =>
    have ih' := fun {acc s} => ih (acc := acc) (s := s) (fun g hg => hfs g (List.mem_cons_of_mem _ hg))
    simp only [liveWhateverLoop] at h
    split at h
    · rename_i v s₁ hv
      exact ih' (ha.set (List.mem_map.2 ⟨f, hfs f (List.mem_cons_self ..), rfl⟩) (live_ne_undefined hv)) h
    · split at h
      · exact ih' ha h
      · simp at h

theorem liveGetItem_own {c : LiveClass S} {vals : Dict} {k : String} {v w : Value} {s s' : S} (hv : Dict.get? vals k = some v)
    (h : liveGetItem c vals k s = (.ok w, s')) : w = v := by
  unfold liveGetItem at h
  cases hd : c.depth with
  | zero => rw [hd] at h; simp [liveGet] at h
  | succ n =>
    rw [hd] at h
    simp only [liveGet] at h
    cases hf : c.desc.find? k with
    | none => rw [hf] at h; simp at h
    | some f =>
      rw [hf] at h
      simp only [hv, Prog.pure_apply, Prod.mk.injEq, Except.ok.injEq] at h
      exact h.1.symm

theorem liveChainLoop_ok {c : LiveClass S} {vals dct r : Dict} {ks : List String} {s s' : S}
    (h : liveChainLoop c vals dct ks s = (.ok r, s')) :
    Dict.keys r = ks ∧ ∀ p ∈ r, Dict.get? dct p.1 = some p.2 ∨
      (Dict.get? dct p.1 = none ∧ ∃ s s', liveGetItem c vals p.1 s = (.ok p.2, s')) := by
  induction ks generalizing r s s' with
  | nil => simp [liveChainLoop] at h; rw [h.1]; simp [Dict.keys]
  | cons k ks ih =>
    simp only [liveChainLoop] at h
    obtain ⟨v, s₁, hv, h⟩ := Prog.andThen_ok h
    obtain ⟨r', s₂, hr', h⟩ := Prog.andThen_ok h
    simp only [Prog.pure_apply, Prod.mk.injEq, Except.ok.injEq] at h
    obtain ⟨h, -⟩ := h
    subst h
    obtain ⟨h1, h2⟩ := ih hr'
    refine ⟨by simp [Dict.keys] at h1 ⊢; exact h1, ?_⟩
    intro p hp
    rcases List.mem_cons.1 hp with rfl | hp
    · cases hg : Dict.get? dct k with
      | some w =>
        rw [hg] at hv
        simp at hv
        left; rw [hv.1]
      | none =>
        rw [hg] at hv
        exact .inr ⟨rfl, s, s₁, hv⟩
    · exact h2 p hp

theorem liveWhateverPossible_tidy {c : LiveClass S} {vals dct : Dict} {s s' : S} (hi : Instance c.desc vals)
    (h : liveWhateverPossible c vals s = (.ok dct, s')) : WholeDict c.desc dct := by
  unfold liveWhateverPossible at h
  obtain ⟨raw, s₁, hraw, h⟩ := Prog.andThen_ok h
  have ht := liveWhateverLoop_tidy (fun f hf => hf) ⟨by simp [Dict.keys], by simp⟩ hraw
  obtain ⟨h1, h2⟩ := liveChainLoop_ok h
  refine ⟨?_, ?_⟩
  · rw [h1, List.nodup_append]
    refine ⟨definedKeys_nodup hi.1, ht.1.filter _, ?_⟩
    intro a ha b hb hab
    subst hab
    rw [List.mem_filter] at hb
    simp [ha] at hb
  · intro p hp
    rcases h2 p hp with h3 | ⟨h3, s, s', h4⟩
    · exact ht.2 (p.1, p.2) (Dict.get?_some_mem h3)
    · have hk : p.1 ∈ Dict.keys dct := List.mem_map.2 ⟨p, hp, rfl⟩
      rw [h1, List.mem_append] at hk
      rcases hk with hk | hk
      · obtain ⟨v, hv, hu⟩ := (mem_definedKeys hi.1).1 hk
        rw [liveGetItem_own hv h4]
        exact ⟨hi.2 _ (Dict.get?_some_key hv), hu⟩
      · exact absurd (List.mem_filter.1 hk).1 ((Dict.get?_none_iff _ _).1 h3)

theorem liveMissingLoop_ok {c : LiveClass S} {dct more : Dict} {fs : List Field} {s s' : S}
    (h : liveMissingLoop c dct fs s = (.ok more, s')) :
    (∀ p ∈ more, p.1 ∈ fs.map Field.name ∧ p.2 ≠ .undefined) ∧
    ∀ f ∈ fs, f.name ∈ Dict.keys dct ∨ f.name ∈ Dict.keys more := by
  induction fs generalizing more s s' with
  | nil => simp [liveMissingLoop] at h; rw [h.1]; simp
  | cons f fs ih =>
    simp only [liveMissingLoop] at h
    split at h
    · rename_i hc
      obtain ⟨h1, h2⟩ := ih h
      refine ⟨fun p hp => ⟨List.mem_cons_of_mem _ (h1 p hp).1, (h1 p hp).2⟩, ?_⟩
      intro g hg
      rcases List.mem_cons.1 hg with rfl | hg
      · exact .inl ((Dict.contains_iff _ _).1 hc)
      · exact h2 g hg
    · obtain ⟨v, s₁, hv, h⟩ := Prog.andThen_ok h
      obtain ⟨r, s₂, hr, h⟩ := Prog.andThen_ok h
      simp only [Prog.pure_apply, Prod.mk.injEq, Except.ok.injEq] at h
      obtain ⟨h, -⟩ := h
      subst h
      obtain ⟨h1, h2⟩ := ih hr
      refine ⟨?_, ?_⟩
      · intro p hp
        rcases List.mem_cons.1 hp with rfl | hp
        · exact ⟨List.mem_cons_self .., live_ne_undefined hv⟩
        · exact ⟨List.mem_cons_of_mem _ (h1 p hp).1, (h1 p hp).2⟩
      · intro g hg
        simp only [Dict.keys, List.map_cons, List.mem_cons]
        rcases List.mem_cons.1 hg with rfl | hg
        · exact .inr (.inl rfl)
        · rcases h2 g hg with h3 | h3
          · exact .inl h3
          · exact .inr (.inr h3)

theorem WholeDict.update {d : StructDesc} {T more : Dict} (h : WholeDict d T) (hm : ∀ p ∈ more, p.1 ∈ names d ∧ p.2 ≠ .undefined) :
    WholeDict d (T.update more) ∧ ∀ k, k ∈ Dict.keys T ∨ k ∈ Dict.keys more → k ∈ Dict.keys (T.update more) := by
  unfold Dict.update
  induction more generalizing T with
  | nil => exact ⟨h, by simp [Dict.keys]⟩
  | cons q more ih =>
    rw [List.foldl_cons]
    obtain ⟨h1, h2⟩ := ih (h.set (hm q (List.mem_cons_self ..)).1 (hm q (List.mem_cons_self ..)).2)
      fun p hp => hm p (List.mem_cons_of_mem _ hp)
    refine ⟨h1, ?_⟩
    intro k hk
    apply h2
    simp only [Dict.keys, List.map_cons, List.mem_cons] at hk
    have hset : k ∈ Dict.keys T ∨ k = q.1 → k ∈ Dict.keys (Dict.set T q.1 q.2) := by
      intro hx
      rw [Dict.keys_set]
      split
      · rename_i hc
        rcases hx with hx | rfl
        · exact hx
        · exact hc
      · simpa using hx
    rcases hk with hk | hk | hk
    · exact .inl (hset (.inl hk))
    · exact .inl (hset (.inr hk))
    · exact .inr hk

theorem liveToDictShallow_ok {c : LiveClass S} {vals dct : Dict} {s s' : S} (hd : UniqueNames c.desc) (hi : Instance c.desc vals)
    (h : liveToDictShallow c vals s = (.ok dct, s')) :
    WholeDict c.desc dct ∧ ∀ f ∈ c.desc.components, f.name ∈ Dict.keys dct ↔ f.base.discard = false := by
  unfold liveToDictShallow at h
  obtain ⟨d1, s₁, h1, h⟩ := Prog.andThen_ok h
  obtain ⟨more, s₂, h2, h⟩ := Prog.andThen_ok h
  simp only [Prog.pure_apply, Prod.mk.injEq, Except.ok.injEq] at h
  obtain ⟨h, -⟩ := h
  obtain ⟨h3, h4⟩ := liveMissingLoop_ok h2
  obtain ⟨h5, h6⟩ := (liveWhateverPossible_tidy hi h1).update h3
  have hget : ∀ k, Dict.get? dct k = _ := fun k => h ▸ Dict.get?_foldl_erase Field.name _ (d1.update more) k
  have hn : (Dict.keys dct).Nodup := h ▸ Dict.nodup_foldl_erase Field.name _ h5.1
  refine ⟨⟨hn, fun p hp => ?_⟩, fun f hf => ?_⟩
  · have hg := Dict.get?_of_mem hn hp
    rw [hget] at hg
    split at hg
    · simp at hg
    · exact h5.2 p (Dict.get?_some_mem hg)
  · rw [← not_iff_not, ← Dict.get?_none_iff, hget]
    constructor
    · intro hg hdis
      rw [if_neg] at hg
      · exact (Dict.get?_none_iff _ _).1 hg (h6 _ (h4 f hf))
      · intro hm
        obtain ⟨g, hg, hgn⟩ := hm
        have hg' := List.mem_filter.1 hg
        have hfg := find?_of_mem hd hg'.1
        rw [hgn, find?_of_mem hd hf] at hfg
        cases hfg
        rw [hdis] at hg'
        exact absurd hg'.2 (by simp)
    · intro hdis
      exact if_pos ⟨f, List.mem_filter.2 ⟨hf, by simpa using hdis⟩, rfl⟩

theorem liveMapE_ok {α β : Type} {G : α → Prog S β} {l : List α} {r : List β} {s s' : S} (h : liveMapE G l s = (.ok r, s')) :
    Paired (fun a b => ∃ s s', G a s = (.ok b, s')) l r := by
  induction l generalizing r s s' with
  | nil => simp [liveMapE] at h; rw [h.1]; exact .nil
  | cons a l ih =>
    simp only [liveMapE] at h
    obtain ⟨b, s₁, hb, h⟩ := Prog.andThen_ok h
    obtain ⟨bs, s₂, hbs, h⟩ := Prog.andThen_ok h
    simp only [Prog.pure_apply, Prod.mk.injEq, Except.ok.injEq] at h
    obtain ⟨h, -⟩ := h
    subst h
    exact .cons ⟨_, _, hb⟩ (ih hbs)

theorem liveMapDictE_ok {G : Value → Prog S Value} {d r : Dict} {s s' : S} (h : liveMapDictE G d s = (.ok r, s')) :
    Paired (fun p q => p.1 = q.1 ∧ ∃ s s', G p.2 s = (.ok q.2, s')) d r := by
  refine (liveMapE_ok h).imp ?_
  rintro ⟨k, v⟩ ⟨k', v'⟩ ⟨s, s', h⟩
  obtain ⟨w, s₁, hw, h⟩ := Prog.andThen_ok h
  simp only [Prog.pure_apply, Prod.mk.injEq, Except.ok.injEq] at h
  obtain ⟨⟨rfl, rfl⟩, -⟩ := h
  exact ⟨rfl, s, s₁, hw⟩

theorem mapE_still {α : Type} {g : α → Except Err α} {l : List α} (h : ∀ a ∈ l, g a = .ok a) : mapE g l = .ok l := by
  induction l with
  | nil => rfl
  | cons a l ih =>
    simp only [mapE, h a (List.mem_cons_self ..), ih fun b hb => h b (List.mem_cons_of_mem _ hb)]

theorem mapDictE_still {g : Value → Except Err Value} {d : Dict} (h : ∀ p ∈ d, g p.2 = .ok p.2) : mapDictE g d = .ok d := by
  refine mapE_still fun p hp => ?_
  simp only [h p hp, Except.map]

theorem Spec.Paired.right {α β : Type} {R : α → β → Prop} {as : List α} {bs : List β} (h : Paired R as bs) {b : β} (hb : b ∈ bs) :
    ∃ a ∈ as, R a b := by
  induction h with
  | nil => simp at hb
  | cons hab _ ih =>
    rcases List.mem_cons.1 hb with rfl | hb
    · exact ⟨_, List.mem_cons_self .., hab⟩
    · obtain ⟨a, ha, hr⟩ := ih hb
      exact ⟨a, List.mem_cons_of_mem _ ha, hr⟩

/-- What `recursive_to_dicts` returns holds no structs: doing it again changes nothing and calls nothing. -/
theorem liveToDicts_done {C : LiveClasses S} {n : Nat} {v w : Value} {s s' : S} (h : liveToDicts C n v s = (.ok w, s')) (Γ : Classes) :
    recursiveToDicts Γ n w = .ok w ∧ (w = .undefined → v = .undefined) := by
  induction n generalizing v w s s' with
  | zero => simp [liveToDicts] at h
  | succ n ih =>
    have hd : ∀ {l r : Dict} {s s' : S}, liveMapDictE (liveToDicts C n) l s = (.ok r, s') →
        recursiveToDicts Γ (n + 1) (.dict r) = .ok (.dict r) := fun hr => by
      have := liveMapDictE_ok hr
      simp only [recursiveToDicts]
      rw [mapDictE_still]
      · rfl
      · intro p hp
        obtain ⟨q, -, -, s, s', hq⟩ := this.right hp
        exact (ih hq).1
    cases v
    case struct cls vals =>
      simp only [liveToDicts] at h
      cases hcl : C cls with
      | none => rw [hcl] at h; simp at h
      | some c =>
        rw [hcl] at h
        obtain ⟨dct, s₁, -, h⟩ := Prog.andThen_ok h
        obtain ⟨r, s₂, hr, h⟩ := Prog.andThen_ok h
        simp only [Prog.pure_apply, Prod.mk.injEq, Except.ok.injEq] at h
        obtain ⟨h, -⟩ := h
        subst h
        exact ⟨hd hr, by simp⟩
    case dict dct =>
      simp only [liveToDicts] at h
      obtain ⟨r, s₂, hr, h⟩ := Prog.andThen_ok h
      simp only [Prog.pure_apply, Prod.mk.injEq, Except.ok.injEq] at h
      obtain ⟨h, -⟩ := h
      subst h
      exact ⟨hd hr, by simp⟩
    case list l =>
      simp only [liveToDicts] at h
      obtain ⟨r, s₂, hr, h⟩ := Prog.andThen_ok h
      simp only [Prog.pure_apply, Prod.mk.injEq, Except.ok.injEq] at h
      obtain ⟨h, -⟩ := h
      subst h
      refine ⟨?_, by simp⟩
      have := liveMapE_ok hr
      simp only [recursiveToDicts]
      rw [mapE_still]
      · rfl
      · intro p hp
        obtain ⟨q, -, s, s', hq⟩ := this.right hp
        exact (ih hq).1
    all_goals
      simp only [liveToDicts, Prog.pure_apply, Prod.mk.injEq, Except.ok.injEq] at h
      obtain ⟨h, -⟩ := h
      subst h
      simp [recursiveToDicts]

theorem Spec.Paired.map_eq {α β γ : Type} {R : α → β → Prop} {as : List α} {bs : List β} (h : Paired R as bs) {f : α → γ} {g : β → γ}
    (hfg : ∀ a b, R a b → f a = g b) : as.map f = bs.map g := by
  induction h with
  | nil => rfl
  | cons hab _ ih => simp [ih, hfg _ _ hab]

theorem liveToDict_ok {C : LiveClasses S} {n : Nat} {c : LiveClass S} {vals all : Dict} {s s' : S} (hd : UniqueNames c.desc)
    (hi : Instance c.desc vals) (h : liveToDict C n c vals s = (.ok all, s')) :
    WholeDict c.desc all ∧ (∀ f ∈ c.desc.components, f.name ∈ Dict.keys all ↔ f.base.discard = false) ∧ ∀ Γ : Classes, ∀ p ∈ all, recursiveToDicts Γ n p.2 = .ok p.2 := by
  unfold liveToDict at h
  obtain ⟨dct, s₁, h1, h⟩ := Prog.andThen_ok h
  obtain ⟨h2, h3⟩ := liveToDictShallow_ok hd hi h1
  have h4 := liveMapDictE_ok h
  have hk : Dict.keys dct = Dict.keys all := h4.map_eq fun _ _ h => h.1
  refine ⟨⟨hk ▸ h2.1, ?_⟩, fun f hf => hk ▸ h3 f hf, ?_⟩
  · intro p hp
    obtain ⟨q, hq, h5, s, s', h6⟩ := h4.right hp
    refine ⟨h5 ▸ (h2.2 q hq).1, ?_⟩
    intro hu
    exact (h2.2 q hq).2 ((liveToDicts_done h6 C.plain).2 hu)
  · intro Γ p hp
    obtain ⟨q, hq, h5, s, s', h6⟩ := h4.right hp
    exact (liveToDicts_done h6 Γ).1

end Verif
