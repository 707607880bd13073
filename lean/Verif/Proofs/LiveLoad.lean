import Verif.Spec.LiveLoad
import Verif.Proofs.Live
import Verif.Proofs.StructLoad

/-! # Loading with live callables: proofs -/
namespace Verif
open Spec

variable {S : Type}

theorem Prog.thenLoad_ok {α β : Type} {p : Prog S α} {s s' : Stream} {k : α → LR S β} {w w' : S} {b : β}
    (h : p.thenLoad s k w = ((.ok b, s'), w')) : ∃ a w₁, p w = (.ok a, w₁) ∧ k a w₁ = ((.ok b, s'), w') := by
  unfold Prog.thenLoad at h
  split at h
  · simp at h
  · rename_i a w₁ ha; exact ⟨a, w₁, ha, h⟩

/-- Go on with a result. -/
def resume {α β : Type} (r : Except Err α) (s : Stream) (k : α → LR S β) (w : S) : R β × S :=
  match r with
  | .error e => ((.error e, s), w)
  | .ok a => k a w

theorem Prog.thenLoad_pure {α β : Type} {p : Prog S α} {r : Except Err α} {w : S} (h : p w = (r, w)) (s : Stream) (k : α → LR S β) :
    p.thenLoad s k w = resume r s k w := by
  unfold Prog.thenLoad resume
  rw [h]
  cases r <;> rfl

/-! ### Deterministic callables: nothing new -/

theorem liveRunAll_validators {ms : List (Value → Prog S Unit)} {gs : List (Value → Except Err Unit)}
    (h : Paired (fun m g => ∀ v w, m v w = (g v, w)) ms gs) (v : Value) (w : S) :
    liveRunAll (fun m => m v) ms w = (runValidators gs v, w) := by
  induction h with
  | nil => rfl
  | cons hab _ ih =>
    simp only [liveRunAll, runValidators, Prog.andThen, hab v w]
    rename_i b _ _ _
    cases b v with
    | error e => rfl
    | ok _ => exact ih

theorem liveFinishLoad_eq {ms : List (Value → Prog S Unit)} {b : FieldBase} (h : Paired (fun m g => ∀ v w, m v w = (g v, w)) ms b.validators)
    (eq : Value → Value → Except Err Bool) (v : Value) (w : S) : liveFinishLoad ms b eq v w = (finishLoad b eq v, w) := by
  unfold liveFinishLoad finishLoad
  cases (if b.allowNull then eq v b.nullValue else .ok false) with
  | error e => rfl
  | ok isNull =>
    simp only
    cases (if b.const ≠ .undefined then eq (if isNull then .none else v) b.const else .ok true) with
    | error e => rfl
    | ok same =>
      cases same with
      | false => rfl
      | true =>
        simp only [Prog.andThen, liveRunAll_validators h]
        cases runValidators b.validators (if isNull then .none else v) <;> rfl

theorem liveLoadAndFinish_eq {ms : List (Value → Prog S Unit)} {b : FieldBase} (h : Paired (fun m g => ∀ v w, m v w = (g v, w)) ms b.validators)
    (eq : Value → Value → Except Err Bool) {doLive : Stream → LR S Value} {doLoad : Stream → R Value} (hd : ∀ s w, doLive s w = (doLoad s, w))
    (s : Stream) (w : S) : liveLoadAndFinish ms b eq doLive s w = (loadAndFinish b eq doLoad s, w) := by
  unfold liveLoadAndFinish loadAndFinish
  rw [hd]
  rcases doLoad s with ⟨r, s⟩
  cases r with
  | error e => rfl
  | ok v =>
    simp only
    rw [Prog.thenLoad_pure (liveFinishLoad_eq h eq v w)]
    cases finishLoad b eq v <;> rfl

theorem liveFromStreamWith_eq {k : Callables S} {f : Field} (hk : CallsAs k f) (eq : Value → Value → Except Err Bool)
    (nullRepr : Except Err Bytes) {doLive : Stream → LR S Value} {doLoad : Stream → R Value} (hd : ∀ s w, doLive s w = (doLoad s, w))
    (s : Stream) (ctx : Value) (loaded : Dict) (w : S) :
    liveFromStreamWith k f.base eq nullRepr doLive s ctx loaded w = (fromStreamWith f.base eq nullRepr doLoad s ctx loaded, w) := by
  have hfin := fun s => liveLoadAndFinish_eq hk.validators eq hd s w
  unfold liveFromStreamWith fromStreamWith
  rw [Prog.thenLoad_pure (hk.present _ _ _ w)]
  cases f.base.present loaded.view ctx (some s) with
  | error e => rfl
  | ok there =>
    cases there with
    | false => rfl
    | true =>
      simp only [resume, Bool.not_true, Bool.false_eq_true, if_false]
      split
      · cases nullRepr with
        | error e =>
          simp only
          split
          · split
            · rfl
            · exact hfin s
          · rfl
        | ok repr =>
          simp only
          cases hp : peekBytes s repr.length with
          | mk r s₁ =>
            cases r with
            | error e => rfl
            | ok peeked =>
              simp only
              split
              · rw [Prog.thenLoad_pure (liveRunAll_validators hk.validators .none w)]
                cases runValidators f.base.validators .none <;> rfl
              · exact hfin s₁
      · exact hfin s

theorem liveArrayLoop_eq {haltLive : Stream → List Value → Prog S (Bool × List Value)} {halt : Stream → List Value → Except Err (Bool × List Value)}
    {loadLive : Stream → LR S Value} {load : Stream → R Value} (hh : ∀ s vs w, haltLive s vs w = (halt s vs, w))
    (hl : ∀ s w, loadLive s w = (load s, w)) (fuel : Nat) (acc : List Value) (s : Stream) (w : S) :
    liveArrayLoop haltLive loadLive fuel acc s w = (arrayLoop halt load fuel acc s, w) := by
  induction fuel generalizing acc s w with
  | zero =>
    rw [liveArrayLoop.eq_def, arrayLoop.eq_def]
    simp only
    rw [Prog.thenLoad_pure (hh s acc w)]
    simp only [resume]
    rcases halt s acc with e | ⟨stop, acc⟩
    · rfl
    · cases stop with
      | true => rfl
      | false =>
        simp only [Bool.false_eq_true, if_false, hl]
        rcases load s with ⟨r, s⟩
        cases r <;> rfl
  | succ fuel ih =>
    rw [liveArrayLoop.eq_def, arrayLoop.eq_def]
    simp only
    rw [Prog.thenLoad_pure (hh s acc w)]
    simp only [resume]
    rcases halt s acc with e | ⟨stop, acc⟩
    · rfl
    · cases stop with
      | true => rfl
      | false =>
        simp only [Bool.false_eq_true, if_false, hl]
        rcases load s with ⟨r, s⟩
        cases r with
        | error e => rfl
        | ok v => exact ih _ _ _

theorem liveLoadFields_eq {live : Field → Stream → Dict → LR S Value} {load : Field → Stream → Dict → R Value} {fs : List Field}
    (h : ∀ f ∈ fs, ∀ s d w, live f s d w = (load f s d, w)) (results : Dict) (s : Stream) (w : S) :
    liveLoadFields live fs results s w = (loadFields load fs results s, w) := by
  induction fs generalizing results s w with
  | nil => rfl
  | cons f fs ih =>
    simp only [liveLoadFields, loadFields, h f List.mem_cons_self]
    rcases load f s results with ⟨r, s⟩
    cases r with
    | error e => rfl
    | ok v => exact ih (fun f hf => h f (List.mem_cons_of_mem _ hf)) _ _ _

/-- All fields of an instance have a value: looking at it runs no compute function. -/
theorem liveGetItem_stored {c : LiveClass S} {all : Dict} (hd : 0 < c.depth) (hall : ∀ f ∈ c.desc.components, all.get? f.name ≠ none)
    (hown : ∀ k ∈ all.keys, c.desc.has k = true) (k : String) : liveGetItem c all k = Prog.pure (all.view.get k) := by
  unfold liveGetItem
  obtain ⟨n, hn⟩ : ∃ n, c.depth = n + 1 := ⟨c.depth - 1, by omega⟩
  rw [hn]
  simp only [liveGet, Dict.view]
  cases hf : c.desc.find? k with
  | none =>
    cases hg : all.get? k with
    | none => rfl
    | some v =>
      have := hown k (Dict.get?_some_key hg)
      simp [StructDesc.has, hf] at this
  | some f =>
    have hm : f ∈ c.desc.components := List.mem_of_find?_eq_some hf
    have hname : f.name = k := by
      have := List.find?_some hf
      simpa using this
    cases hg : all.get? k with
    | none => exact absurd (hname ▸ hg) (hall f hm)
    | some v => rfl

theorem liveView_stored {c : LiveClass S} {all : Dict} (hd : 0 < c.depth) (hall : ∀ f ∈ c.desc.components, all.get? f.name ≠ none)
    (hown : ∀ k ∈ all.keys, c.desc.has k = true) : liveView c all = (asSeen all).live := by
  unfold liveView
  exact View.live_eta _ _ _ fun k s => by rw [liveGetItem_stored hd hall hown]; rfl

theorem loadValidate_eq {c : LoadClass S} {all : Dict} (h : LoadDeterministic c) (hall : ∀ f ∈ c.live.desc.components, all.get? f.name ≠ none)
    (hown : ∀ k ∈ all.keys, c.live.desc.has k = true) (w : S) : loadValidate c all w = (validateContents c.live.desc all, w) := by
  have hview := liveView_stored h.depth hall hown
  have hget := liveGetItem_stored h.depth hall hown
  have hview' : structView c.live.desc all = asSeen all := by
    unfold structView asSeen
    congr 1
    funext k
    unfold structGetItem
    simp only [structGet, Dict.view]
    cases hf : c.live.desc.find? k with
    | none =>
      cases hg : all.get? k with
      | none => rfl
      | some v =>
        have := hown k (Dict.get?_some_key hg)
        simp [StructDesc.has, hf] at this
    | some f =>
      have hm : f ∈ c.live.desc.components := List.mem_of_find?_eq_some hf
      have hname : f.name = k := by
        have := List.find?_some hf
        simpa using this
      cases hg : all.get? k with
      | none => exact absurd (hname ▸ hg) (hall f hm)
      | some v => rfl
  have hfield : ∀ (p : String × List (LiveView S → Value → Prog S Unit)) (q : String × List (View → Value → Except Err Unit)),
      (p.1 = q.1 ∧ Paired (fun m g => ∀ (v : View) (x : Value) (s : S), m v.live x s = (g v x, s)) p.2 q.2) →
      ∀ w, loadValidateField c all p w = (validateField c.live.desc all q, w) := by
    intro p q hpq w
    simp only [loadValidateField, validateField, ← hpq.1]
    cases hf : c.live.desc.find? p.1 with
    | none => rfl
    | some f =>
      have hm : f ∈ c.live.desc.components := List.mem_of_find?_eq_some hf
      have hname : f.name = p.1 := by
        have := List.find?_some hf
        simpa using this
      have hgi : structGetItem c.live.desc all p.1 = all.view.get p.1 := by
        have := congrArg View.get hview'
        exact congrFun this p.1
      simp only [hget, hgi]
      cases all.view.get p.1 with
      | error e => rfl
      | ok v =>
        have hv := liveRunAll_validators (h.calls f hm [] f rfl).validators v w
        rw [hname] at hv
        simp only [Prog.andThen, Prog.pure_apply, hv]
        cases runValidators f.base.validators v with
        | error e => rfl
        | ok _ =>
          simp only [hview, hview']
          exact liveRunAll_eq (hpq.2.imp fun m g hmg s => hmg _ _ s) w
  unfold loadValidate validateContents Prog.andThen
  rw [liveRunAll_eq (h.validate.fields.imp hfield) w]
  cases runAll (validateField c.live.desc all) c.live.desc.fieldValidators with
  | error e => rfl
  | ok _ =>
    simp only [hview, hview']
    exact liveRunAll_eq (h.validate.struct.imp fun m g hmg s => hmg _ s) w

/-- After the loop, every field has a value, and the caller's keyword arguments are still there. -/
theorem liveLoadFields_keys {live : Field → Stream → Dict → LR S Value} {fs : List Field} {results out : Dict} {s s' : Stream} {w w' : S}
    (h : liveLoadFields live fs results s w = ((.ok out, s'), w')) :
    ∀ k, k ∈ out.keys ↔ k ∈ results.keys ∨ k ∈ fs.map Field.name := by
  induction fs generalizing results s w with
  | nil =>
    simp only [liveLoadFields, Prod.mk.injEq, Except.ok.injEq] at h
    obtain ⟨⟨rfl, -⟩, -⟩ := h
    simp
  | cons f fs ih =>
    simp only [liveLoadFields] at h
    split at h
    · simp at h
    · intro k
      rw [ih h k, Dict.mem_keys_setDefault, List.map_cons, List.mem_cons]
      constructor
      · rintro ((h | h) | h)
        · exact .inr (.inl h)
        · exact .inl h
        · exact .inr (.inr h)
      · rintro (h | h | h)
        · exact .inl (.inr h)
        · exact .inl (.inl h)
        · exact .inr h

theorem liveStructFromStreamWith_eq {c : LoadClass S} (h : LoadDeterministic c) {live : Field → Stream → Dict → LR S Value}
    {load : Field → Stream → Dict → R Value} (hl : ∀ f ∈ c.live.desc.components, ∀ s d w, live f s d w = (load f s d, w))
    (s : Stream) (kw : Dict) (w : S) :
    liveStructFromStreamWith live c s kw w = (structFromStreamWith load c.live.desc s kw, w) := by
  have hkeys := fun out s' w' => liveLoadFields_keys (live := live) (fs := c.live.desc.components) (results := kw) (out := out) (s := s)
    (s' := s') (w := w) (w' := w')
  unfold liveStructFromStreamWith structFromStreamWith
  rw [liveLoadFields_eq hl] at hkeys ⊢
  rcases hr : loadFields load c.live.desc.components kw s with ⟨r, s₁⟩
  cases r with
  | error e => rfl
  | ok results =>
    simp only
    cases hi : structInit c.live.desc results with
    | error e => rfl
    | ok vals =>
      simp only
      obtain ⟨rfl, hown'⟩ := structInit_ok_iff.1 hi
      have hown := fun k hk => has_iff.2 (hown' k hk)
      have hv := loadValidate_eq (all := vals) h
        (fun f hf => by
          rw [Ne, Dict.get?_none_iff, not_not]
          exact (hkeys _ _ _ (by rw [hr]) _).2 (.inr (List.mem_map_of_mem hf)))
        hown w
      rw [Prog.thenLoad_pure hv]
      cases validateContents c.live.desc vals <;> rfl

theorem liveLoadStruct_eq {C : LoadClasses S} {live : LoadClass S → Stream → Value → LR S Dict} {load : StructDesc → Stream → Value → R Dict}
    (hs : ∀ cls c, C cls = some c → ∀ s ctx w, live c s ctx w = (load c.live.desc s ctx, w)) (cls : String) (s : Stream) (ctx : Value) (w : S) :
    liveLoadStruct C live cls s ctx w = (loadStruct C.plain load cls s ctx, w) := by
  unfold liveLoadStruct loadStruct LoadClasses.plain
  cases hc : C cls with
  | none => rfl
  | some c =>
    simp only [Option.map_some, hs cls c hc]

theorem liveLoad_eq {C : LoadClasses S} (hC : ∀ cls c, C cls = some c → LoadDeterministic c) (n : Nat) :
    (∀ (calls : List Nat → Callables S) f, (∀ p g, fieldAt f p = some g → CallsAs (calls p) g) → ∀ s ctx loaded w,
      liveFieldFromStream C n calls f s ctx loaded w = (fieldFromStream C.plain n f s ctx loaded, w) ∧
      liveFieldDoLoad C n calls f s ctx loaded w = (fieldDoLoad C.plain n f s ctx loaded, w)) ∧
    (∀ c, LoadDeterministic c → ∀ s ctx kw w,
      liveStructFromStream C n c s ctx kw w = (structFromStream C.plain n c.live.desc s ctx kw, w)) := by
  induction n with
  | zero => exact ⟨fun _ _ _ _ _ _ _ => ⟨rfl, rfl⟩, fun _ _ _ _ _ _ => rfl⟩
  | succ n ih =>
    refine ⟨fun calls f hf s ctx loaded w => ⟨?_, ?_⟩, fun c hc s ctx kw w => ?_⟩
    · simp only [liveFieldFromStream, fieldFromStream]
      exact liveFromStreamWith_eq (f := f) (hf [] f rfl) _ _ (fun s w => (ih.1 calls f hf s ctx loaded w).2) s ctx loaded w
    · cases f with
      | leaf b k => rfl
      | array b comp count halt =>
        simp only [liveFieldDoLoad, fieldDoLoad, liveContainerLoad, containerLoad]
        rw [liveArrayLoop_eq (halt := haltCheck b.name count halt ctx loaded) (load := fun s => fieldFromStream C.plain n comp s ctx loaded)]
        · intro s vs w
          have hk := (hf [] _ rfl).container
          unfold liveHaltCheck haltCheck
          cases halt with
          | none =>
            have hk : (calls []).halt = none := hk
            rw [hk]; rfl
          | some g =>
            obtain ⟨p, hp, hp'⟩ : ∃ p, (calls []).halt = some p ∧ ∀ s vs ctx d w, p s vs ctx d w = (g s vs ctx d, w) := hk
            rw [hp]; exact hp' _ _ _ _ _
        · intro s w
          exact (ih.1 (fun p => calls (0 :: p)) comp (fun p g hg => hf (0 :: p) g hg) s ctx loaded w).1
      | nested b cls =>
        simp only [liveFieldDoLoad, fieldDoLoad, liveContainerLoad, containerLoad]
        exact liveLoadStruct_eq (fun cls c hc s ctx w => ih.2 c (hC cls c hc) s ctx [] w) _ _ _ _
      | union b choices decider dump =>
        simp only [liveFieldDoLoad, fieldDoLoad, liveContainerLoad, containerLoad]
        have hk : ∀ s ctx l w, (calls []).decider s ctx l w = (decider s ctx l, w) := (hf [] _ rfl).container
        rw [Prog.thenLoad_pure (hk s ctx loaded w)]
        cases decider s ctx loaded with
        | error e => rfl
        | ok i =>
          simp only [resume]
          cases hi : choices[i]? with
          | none => rfl
          | some g =>
            cases g with
            | inl g =>
              exact (ih.1 (fun p => calls (i :: p)) g (fun p g' hg => hf (i :: p) g' (by simp only [fieldAt, hi]; exact hg)) s ctx loaded w).2
            | inr cls => exact liveLoadStruct_eq (fun cls c hc s ctx w => ih.2 c (hC cls c hc) s ctx [] w) _ _ _ _
    · simp only [liveStructFromStream, structFromStream]
      exact liveStructFromStreamWith_eq hc (fun f hf s d w => (ih.1 _ f (hc.calls f hf) s ctx d w).1) s kw w

/-! ### Whatever the callables do -/

theorem liveRunAll_passed {α : Type} {check : α → Prog S Unit} {l : List α} {w w' : S} (h : liveRunAll check l w = (.ok (), w')) :
    ∀ a ∈ l, CheckPassed (check a) := by
  induction l generalizing w with
  | nil => simp
  | cons a l ih =>
    obtain ⟨_, w₁, h₁, h₂⟩ := Prog.andThen_ok h
    intro b hb
    rcases List.mem_cons.1 hb with rfl | hb
    · exact ⟨w, w₁, h₁⟩
    · exact ih h₂ b hb

/-- What a successful `from_stream` went through. -/
theorem liveStructFromStreamWith_ok {fromStream : Field → Stream → Dict → LR S Value} {c : LoadClass S} {s s' : Stream} {kw vals : Dict}
    {w w' : S} (h : liveStructFromStreamWith fromStream c s kw w = ((.ok vals, s'), w')) :
    ∃ all w₁, liveLoadFields fromStream c.live.desc.components kw s w = ((.ok all, s'), w₁) ∧
      (∀ k ∈ all.keys, c.live.desc.has k = true) ∧ loadValidate c all w₁ = (.ok (), w') ∧ vals = dropDiscarded c.live.desc all := by
  unfold liveStructFromStreamWith at h
  split at h
  · simp at h
  · rename_i results s₁ w₁ hr
    split at h
    · simp at h
    · rename_i vals' hi
      obtain ⟨rfl, hown'⟩ := structInit_ok_iff.1 hi
      have hown := fun k hk => has_iff.2 (hown' k hk)
      obtain ⟨_, w₂, hv, h⟩ := Prog.thenLoad_ok h
      simp only [Prod.mk.injEq, Except.ok.injEq] at h
      obtain ⟨⟨rfl, rfl⟩, rfl⟩ := h
      exact ⟨_, w₁, hr, hown, hv, rfl⟩

theorem loadValidateField_ok {c : LoadClass S} {all : Dict} (hd : 0 < c.live.depth) (hall : ∀ f ∈ c.live.desc.components, all.get? f.name ≠ none)
    (hown : ∀ k ∈ all.keys, c.live.desc.has k = true) {p : String × List (LiveView S → Value → Prog S Unit)} {w w' : S}
    (h : loadValidateField c all p w = (.ok (), w')) :
    ∃ f v w₁, f ∈ c.live.desc.components ∧ f.name = p.1 ∧ all.get? p.1 = some v ∧
      liveRunAll (fun m => m v) (c.calls p.1 []).validators w = (.ok (), w₁) ∧
      liveRunAll (fun m => m (asSeen all).live v) p.2 w₁ = (.ok (), w') := by
  unfold loadValidateField at h
  cases hf : c.live.desc.find? p.1 with
  | none => rw [hf] at h; simp at h
  | some f =>
    rw [hf] at h
    simp only at h
    rw [liveGetItem_stored hd hall hown, liveView_stored hd hall hown] at h
    obtain ⟨v, w₁, h₁, h₂⟩ := Prog.andThen_ok h
    obtain ⟨_, w₂, h₂, h₃⟩ := Prog.andThen_ok h₂
    obtain ⟨hv, rfl⟩ := Prog.pure_ok h₁
    have hm : f ∈ c.live.desc.components := List.mem_of_find?_eq_some hf
    have hname : f.name = p.1 := by
      have := List.find?_some hf
      simpa using this
    refine ⟨f, v, w₂, hm, hname, ?_, h₂, h₃⟩
    simp only [Dict.view] at hv
    cases hg : all.get? p.1 with
    | none => rw [hg] at hv; simp at hv
    | some x => rw [hg] at hv; simp only [Except.ok.injEq] at hv; rw [hv]

theorem loadValidate_ok {c : LoadClass S} {all : Dict} (hd : 0 < c.live.depth) (hall : ∀ f ∈ c.live.desc.components, all.get? f.name ≠ none)
    (hown : ∀ k ∈ all.keys, c.live.desc.has k = true) {w w' : S} (h : loadValidate c all w = (.ok (), w')) :
    ∃ w₁, liveRunAll (loadValidateField c all) c.live.fieldValidators w = (.ok (), w₁) ∧
      liveRunAll (fun v => v (asSeen all).live) c.live.structValidators w₁ = (.ok (), w') := by
  unfold loadValidate at h
  obtain ⟨_, w₁, h₁, h₂⟩ := Prog.andThen_ok h
  rw [liveView_stored hd hall hown] at h₂
  exact ⟨w₁, h₁, h₂⟩

/-- A field that was read: `present` was asked first. -/
theorem liveFromStreamWith_ok {k : Callables S} {b : FieldBase} {eq : Value → Value → Except Err Bool} {nullRepr : Except Err Bytes}
    {doLoad : Stream → LR S Value} {s s' : Stream} {ctx : Value} {loaded : Dict} {w w' : S} {v : Value}
    (h : liveFromStreamWith k b eq nullRepr doLoad s ctx loaded w = ((.ok v, s'), w')) :
    ∃ there w₁, k.present loaded.view ctx s w = (.ok there, w₁) ∧
      (there = false → v = b.notPresentValue ∧ s' = s ∧ w' = w₁) ∧
      (there = true → ∃ w₂, liveRunAll (fun m => m v) k.validators w₂ = (.ok (), w') ∧
        ((∀ s, (doLoad s w₁).2 = w₁) → w₂ = w₁)) := by
  have hfin : ∀ s w₁, liveLoadAndFinish k.validators b eq doLoad s w₁ = ((.ok v, s'), w') →
      ∃ w₂, liveRunAll (fun m => m v) k.validators w₂ = (.ok (), w') ∧ ((∀ s, (doLoad s w₁).2 = w₁) → w₂ = w₁) := by
    intro s w₁ h
    unfold liveLoadAndFinish at h
    split at h
    · simp at h
    · rename_i v₀ s₀ w₀ hd
      obtain ⟨v₁, w₂, hf, h⟩ := Prog.thenLoad_ok h
      simp only [Prod.mk.injEq, Except.ok.injEq] at h
      obtain ⟨⟨rfl, rfl⟩, rfl⟩ := h
      unfold liveFinishLoad at hf
      cases hn : (if b.allowNull then eq v₀ b.nullValue else .ok false) with
      | error e => rw [hn] at hf; simp at hf
      | ok isNull =>
        rw [hn] at hf
        simp only at hf
        cases hc : (if b.const ≠ .undefined then eq (if isNull then .none else v₀) b.const else .ok true) with
        | error e => rw [hc] at hf; simp at hf
        | ok same =>
        rw [hc] at hf
        cases same with
        | false => simp at hf
        | true =>
          obtain ⟨_, w₃, hr, hf⟩ := Prog.andThen_ok hf
          obtain ⟨hv, rfl⟩ := Prog.pure_ok hf
          simp only [Except.ok.injEq] at hv
          rw [hv] at hr
          refine ⟨w₀, hr, fun hst => ?_⟩
          have := hst s
          rw [hd] at this
          exact this
  unfold liveFromStreamWith at h
  obtain ⟨there, w₁, hp, h⟩ := Prog.thenLoad_ok h
  refine ⟨there, w₁, hp, fun ht => ?_, fun ht => ?_⟩
  · subst ht
    simp only [Bool.not_false, if_true, Prod.mk.injEq, Except.ok.injEq] at h
    exact ⟨h.1.1.symm, h.1.2.symm, h.2.symm⟩
  · subst ht
    simp only [Bool.not_true, Bool.false_eq_true, if_false] at h
    split at h
    · split at h
      · split at h
        · split at h
          · simp at h
          · exact hfin _ _ h
        · simp at h
      · split at h
        · simp at h
        · split at h
          · obtain ⟨_, w₂, hr, h⟩ := Prog.thenLoad_ok h
            simp only [Prod.mk.injEq, Except.ok.injEq] at h
            obtain ⟨⟨rfl, -⟩, rfl⟩ := h
            exact ⟨w₁, hr, fun _ => rfl⟩
          · exact hfin _ _ h
    · exact hfin _ _ h

/-- The fields were read one after the other, starting with the dictionary `d`. -/
inductive Steps (Q : Dict → Field → Bool × Value → S → S → Prop) : Dict → List (Field × Bool × Value) → S → S → Prop where
  | nil (d : Dict) (w : S) : Steps Q d [] w w
  | cons {d : Dict} {f : Field} {x : Bool × Value} {l : List (Field × Bool × Value)} {w w₁ w' : S} :
    Q d f x w w₁ → Steps Q (d ++ [(f.name, x.2)]) l w₁ w' → Steps Q d ((f, x) :: l) w w'

theorem liveLoadFields_steps {live : Field → Stream → Dict → LR S Value} {Q : Dict → Field → Bool × Value → S → S → Prop} {fs : List Field}
    (hQ : ∀ f ∈ fs, ∀ s d w v s' w', live f s d w = ((.ok v, s'), w') → ∃ there, Q d f (there, v) w w')
    {results out : Dict} {s s' : Stream} {w w' : S} (hnd : (fs.map Field.name).Nodup) (hnew : ∀ f ∈ fs, results.get? f.name = none)
    (h : liveLoadFields live fs results s w = ((.ok out, s'), w')) :
    ∃ fields : List (Field × Bool × Value), fields.map (·.1) = fs ∧ out = results ++ fields.map (fun x => (x.1.name, x.2.2)) ∧
      Steps Q results fields w w' := by
  induction fs generalizing results s w with
  | nil =>
    simp only [liveLoadFields, Prod.mk.injEq, Except.ok.injEq] at h
    obtain ⟨⟨rfl, -⟩, rfl⟩ := h
    exact ⟨[], rfl, by simp, .nil _ _⟩
  | cons f fs ih =>
    simp only [liveLoadFields] at h
    split at h
    · simp at h
    · rename_i v s₁ w₁ hf
      obtain ⟨there, hq⟩ := hQ f List.mem_cons_self _ _ _ _ _ _ hf
      have hset : results.setDefault f.name v = results ++ [(f.name, v)] := by
        rw [setDefault_eq, if_pos (hnew f List.mem_cons_self)]
      rw [hset] at h
      rw [List.map_cons, List.nodup_cons] at hnd
      obtain ⟨fields, h₁, h₂, h₃⟩ := ih (fun g hg => hQ g (List.mem_cons_of_mem _ hg)) hnd.2 (fun g hg => by
        rw [Dict.get?_none_iff]
        intro hm
        simp only [Dict.keys, List.map_append, List.mem_append] at hm
        rcases hm with hm | hm
        · exact ((Dict.get?_none_iff _ _).1 (hnew g (List.mem_cons_of_mem _ hg))) hm
        · have : g.name = f.name := by simpa using hm
          exact hnd.1 (this ▸ List.mem_map_of_mem hg)) h
      exact ⟨(f, there, v) :: fields, by simp [h₁], by simp [h₂], .cons hq h₃⟩

theorem Steps.at {Q : Dict → Field → Bool × Value → S → S → Prop} {d : Dict} {fields : List (Field × Bool × Value)} {w w' : S}
    (h : Steps Q d fields w w') (i : Nat) (x : Field × Bool × Value) (hx : fields[i]? = some x) :
    ∃ w₁ w₂, Q (d ++ (fields.take i).map (fun x => (x.1.name, x.2.2))) x.1 x.2 w₁ w₂ := by
  induction h generalizing i with
  | nil => simp at hx
  | cons hq _ ih =>
    cases i with
    | zero =>
      simp only [List.getElem?_cons_zero, Option.some.injEq] at hx
      subst hx
      exact ⟨_, _, by simpa using hq⟩
    | succ i =>
      simp only [List.getElem?_cons_succ] at hx
      obtain ⟨w₁, w₂, h⟩ := ih i hx
      exact ⟨w₁, w₂, by simpa using h⟩

theorem Steps.record {Q : Dict → Field → Bool × Value → S → S → Prop} {α : Type} {record : S → List α} {g : Field × Bool × Value → List α}
    {d : Dict} {fields : List (Field × Bool × Value)} {w w' : S} (h : Steps Q d fields w w')
    (hg : ∀ f ∈ fields.map (·.1), ∀ d x w w', Q d f x w w' → record w' = record w ++ g (f, x)) :
    record w' = record w ++ fields.flatMap g := by
  induction h with
  | nil => simp
  | cons hq _ ih =>
    rw [ih (fun f hf => hg f (by rw [List.map_cons]; exact List.mem_cons_of_mem _ hf)), hg _ (by simp) _ _ _ _ hq]
    simp

theorem liveRunAll_record {α β : Type} {check : α → Prog S Unit} {record : S → List β} {g : Nat → List β} {l : List α} {w w' : S} {k : Nat}
    (hg : ∀ i a, l[i]? = some a → ∀ w w', check a w = (.ok (), w') → record w' = record w ++ g (k + i))
    (h : liveRunAll check l w = (.ok (), w')) : record w' = record w ++ (List.range' k l.length).flatMap g := by
  induction l generalizing w k with
  | nil =>
    obtain ⟨-, rfl⟩ := Prog.pure_ok h
    simp
  | cons a l ih =>
    obtain ⟨_, w₁, h₁, h₂⟩ := Prog.andThen_ok h
    have h₀ := hg 0 a rfl _ _ h₁
    have := ih (k := k + 1) (fun i b hb => by
      have := hg (i + 1) b (by simpa using hb)
      intro w w' hw
      rw [this w w' hw]
      congr 2
      omega) h₂
    rw [this, h₀]
    simp [List.range'_succ]

theorem liveRunAll_record_range {α β : Type} {check : α → Prog S Unit} {record : S → List β} {g : Nat → β} {l : List α} {w w' : S}
    (hg : ∀ i a, l[i]? = some a → ∀ w, record (check a w).2 = record w ++ [g i])
    (h : liveRunAll check l w = (.ok (), w')) : record w' = record w ++ (List.range l.length).map g := by
  have := liveRunAll_record (k := 0) (g := fun i => [g i]) (record := record) (fun i a ha w w' hw => by
    have := hg i a ha w
    rw [hw] at this
    simpa using this) h
  rw [this, List.range_eq_range']
  congr 1
  induction List.range' 0 l.length with
  | nil => rfl
  | cons a l ih => simp [ih]

theorem liveRunAll_record_flat {α β : Type} {check : α → Prog S Unit} {record : S → List β} {g : α → List β} {l : List α} {w w' : S}
    (hg : ∀ a ∈ l, ∀ w w', check a w = (.ok (), w') → record w' = record w ++ g a)
    (h : liveRunAll check l w = (.ok (), w')) : record w' = record w ++ l.flatMap g := by
  induction l generalizing w with
  | nil =>
    obtain ⟨-, rfl⟩ := Prog.pure_ok h
    simp
  | cons a l ih =>
    obtain ⟨_, w₁, h₁, h₂⟩ := Prog.andThen_ok h
    rw [ih (fun b hb => hg b (List.mem_cons_of_mem _ hb)) h₂, hg a List.mem_cons_self _ _ h₁]
    simp

end Verif
