import Verif.Proofs.RenamingDump

namespace Verif
open Spec

theorem AlikeR.refl {α : Type} (r : R α) : AlikeR Eq r r := ⟨rfl, SameE.refl _⟩

theorem AlikeR.fail {α β : Type} {Q : α → β → Prop} {e e' : Err} (h : e.anon = e'.anon) (s : Stream) :
    AlikeR Q (.error e, s) (.error e', s) := ⟨rfl, .error h⟩

theorem AlikeR.map {α β : Type} {a b : R α} (h : AlikeR Eq a b) (g : α → β) : AlikeR Eq (a.map g) (b.map g) := by
  obtain ⟨a1, a2⟩ := a
  obtain ⟨b1, b2⟩ := b
  obtain ⟨h1, h2⟩ := h
  refine ⟨h1, ?_⟩
  cases h2 with
  | ok h => cases h; exact .ok rfl
  | error h => exact .error h

theorem AlikeR.andThen {α β : Type} {a b : R α} (h : AlikeR Eq a b) {g g' : α → Except Err β} (hg : ∀ x, SameE (g x) (g' x)) :
    AlikeR Eq (a.andThen g) (b.andThen g') := by
  obtain ⟨a1, a2⟩ := a
  obtain ⟨b1, b2⟩ := b
  obtain ⟨h1, h2⟩ := h
  refine ⟨h1, ?_⟩
  cases h2 with
  | ok h => cases h; exact hg _
  | error h => exact .error h

theorem readExactSize_names (x y : String) {r r' : Except Err Int} (h : SameE r r') (s : Stream) :
    AlikeR Eq (readExactSize x r s) (readExactSize y r' s) := by
  simp only [readExactSize]
  cases h with
  | error h => exact AlikeR.fail h s
  | ok h =>
    subst h
    simp only
    split
    · exact ⟨rfl, .error rfl⟩
    · exact AlikeR.refl _

theorem stringzLoop_names (x y : String) (codec : CharCodec) (m : Option Int) (fuel nRead : Nat) (buf : Bytes) (acc : List Nat) (s : Stream) :
    AlikeR Eq (stringzLoop x codec m fuel nRead buf acc s) (stringzLoop y codec m fuel nRead buf acc s) := by
  have hend : ∀ (buf : Bytes) (s : Stream), AlikeR Eq
      ((if buf = [] then .error (.deser (some x)) else .error .unicodeErr, s) : R (List Nat))
      (if buf = [] then .error (.deser (some y)) else .error .unicodeErr, s) := by
    intro buf s
    split
    · exact ⟨rfl, .error rfl⟩
    · exact AlikeR.refl _
  induction fuel generalizing nRead buf acc s with
  | zero =>
    rw [stringzLoop.eq_def, stringzLoop.eq_def y]
    simp only
    split
    all_goals
      split
      · exact hend buf s
      · split
        · exact hend buf _
        · split
          · exact AlikeR.refl _
          · split
            · exact AlikeR.refl _
            · exact AlikeR.refl _
  | succ fuel ih =>
    rw [stringzLoop.eq_def, stringzLoop.eq_def y]
    simp only
    split
    all_goals
      split
      · exact hend buf s
      · split
        · exact hend buf _
        · split
          · exact AlikeR.refl _
          · split
            · exact AlikeR.refl _
            · exact ih _ _ _ _

section
variable {ρ : String → String} (hρ : Renaming ρ)

theorem leafLoad_renamed {b b' : FieldBase} (hb : BaseAlike ρ b b') {k k' : Leaf} (hk : LeafRenamed ρ k k') {r r' : Except Err Int}
    (hr : SameE r r') (s : Stream) (ctx : Value) (loaded : Dict) :
    AlikeR Eq (leafLoad b k r s ctx loaded) (leafLoad b' k' r' s ctx (Dict.rename ρ loaded)) := by
  cases hk with
  | custom h => exact h.load s ctx loaded
  | same h =>
    cases k with
    | custom o => exact absurd rfl (h _)
    | float fmt endian =>
      refine AlikeR.andThen (readExactSize_names _ _ hr s) fun data => ?_
      split
      · exact .ok rfl
      · exact .error rfl
    | integer signed endian =>
      simp only [leafLoad, hb.size]
      cases b.size with
      | none => exact ⟨rfl, .error rfl⟩
      | ref x => exact ⟨rfl, .error rfl⟩
      | fixed n => exact AlikeR.refl _
    | varint enc maxBytes => exact AlikeR.refl _
    | timestamp res aware signed endian =>
      cases hr with
      | error h => exact AlikeR.fail h s
      | ok h => subst h; exact AlikeR.refl _
    | bytes => exact AlikeR.map (readExactSize_names _ _ hr s) _
    | string codec pad => exact AlikeR.andThen (readExactSize_names _ _ hr s) fun data => SameE.refl _
    | stringz codec pad =>
      cases hr with
      | ok h => subst h; exact AlikeR.map (stringzLoop_names _ _ _ _ _ _ _ _ _) _
      | @error e e' h =>
        cases e <;> cases e' <;> first
          | exact AlikeR.fail h s
          | exact AlikeR.map (stringzLoop_names _ _ _ _ _ _ _ _ _) _
          | (exfalso; cases h)
    | uuid fmt =>
      simp only [leafLoad]
      split
      · exact ⟨rfl, .error rfl⟩
      · exact AlikeR.refl _

theorem finishLoad_renamed {b b' : FieldBase} (hb : BaseAlike ρ b b') (eq : Value → Value → Except Err Bool) (v : Value) :
    SameE (finishLoad b eq v) (finishLoad b' eq v) := by
  simp only [finishLoad, hb.allowNull, hb.nullValue, hb.const, hb.validators]
  cases (if b.allowNull then eq v b.nullValue else .ok false) with
  | error e => exact .error rfl
  | ok isNull =>
    simp only
    generalize (if isNull = true then Value.none else v) = w
    cases (if b.const ≠ .undefined then eq w b.const else .ok true) with
    | error e => exact .error rfl
    | ok ok =>
      cases ok
      · exact .error rfl
      · exact SameE.refl _

theorem loadAndFinish_renamed {b b' : FieldBase} (hb : BaseAlike ρ b b') (eq : Value → Value → Except Err Bool) {dl dl' : Stream → R Value}
    (hd : ∀ s, AlikeR Eq (dl s) (dl' s)) (s : Stream) : AlikeR Eq (loadAndFinish b eq dl s) (loadAndFinish b' eq dl' s) := by
  have h := hd s
  simp only [loadAndFinish]
  generalize dl s = a at h
  generalize dl' s = a' at h
  obtain ⟨a1, a2⟩ := a
  obtain ⟨b1, b2⟩ := a'
  obtain ⟨h1, h2⟩ := h
  simp only at h1 h2
  subst h1
  cases h2 with
  | ok h => subst h; exact ⟨rfl, finishLoad_renamed hb eq _⟩
  | error h => exact AlikeR.fail (anon_setErrField h _ _) _

include hρ in
theorem fromStreamWith_renamed {b b' : FieldBase} (hb : BaseAlike ρ b b') (eq : Value → Value → Except Err Bool) {nr nr' : Except Err Bytes}
    (hn : SameE nr nr') {dl dl' : Stream → R Value} (hd : ∀ s, AlikeR Eq (dl s) (dl' s)) (s : Stream) (c : Value) (loaded : Dict) :
    AlikeR Eq (fromStreamWith b eq nr dl s c loaded) (fromStreamWith b' eq nr' dl' s c (Dict.rename ρ loaded)) := by
  have hp := hb.present _ _ c (some s) (rename_view hρ loaded)
  have hl := loadAndFinish_renamed hb eq hd
  simp only [fromStreamWith, hb.notPresentValue, hb.allowNull, hb.nullValue, hb.validators]
  generalize b.present loaded.view c (some s) = p at hp
  generalize b'.present (Dict.rename ρ loaded).view c (some s) = p' at hp
  cases hp with
  | error h => exact AlikeR.fail h s
  | @ok p _ h =>
    subst h
    cases p
    · exact AlikeR.refl _
    · simp only
      split
      · cases hn with
        | error h =>
          simp only [anon_isUnserializable h]
          split
          · split
            · exact ⟨rfl, .error rfl⟩
            · exact hl s
          · exact AlikeR.fail h s
        | ok h =>
          subst h
          simp only
          split
          · exact AlikeR.refl _
          · split
            · exact AlikeR.refl _
            · exact hl _
      · exact hl s

theorem arrayLoop_same {halt halt' : Stream → List Value → Except Err (Bool × List Value)} {load load' : Stream → R Value}
    (hh : ∀ s vs, SameE (halt s vs) (halt' s vs)) (hl : ∀ s, AlikeR Eq (load s) (load' s)) (fuel : Nat) (acc : List Value) (s : Stream) :
    AlikeR Eq (arrayLoop halt load fuel acc s) (arrayLoop halt' load' fuel acc s) := by
  induction fuel generalizing acc s with
  | zero =>
    rw [arrayLoop.eq_def, arrayLoop.eq_def]
    simp only
    have h1 := hh s acc
    generalize halt s acc = q at h1
    generalize halt' s acc = q' at h1
    cases h1 with
    | error h => exact AlikeR.fail h s
    | @ok p _ h =>
      subst h
      obtain ⟨stop, acc⟩ := p
      cases stop
      · have h2 := hl s
        simp only
        generalize load s = a at h2
        generalize load' s = a' at h2
        obtain ⟨a1, a2⟩ := a
        obtain ⟨b1, b2⟩ := a'
        obtain ⟨h3, h4⟩ := h2
        simp only at h3 h4
        subst h3
        cases h4 with
        | error h => exact AlikeR.fail h _
        | ok h => exact AlikeR.refl _
      · exact AlikeR.refl _
  | succ fuel ih =>
    rw [arrayLoop.eq_def, arrayLoop.eq_def halt']
    simp only
    have h1 := hh s acc
    generalize halt s acc = q at h1
    generalize halt' s acc = q' at h1
    cases h1 with
    | error h => exact AlikeR.fail h s
    | @ok p _ h =>
      subst h
      obtain ⟨stop, acc⟩ := p
      cases stop
      · have h2 := hl s
        simp only
        generalize load s = a at h2
        generalize load' s = a' at h2
        obtain ⟨a1, a2⟩ := a
        obtain ⟨b1, b2⟩ := a'
        obtain ⟨h3, h4⟩ := h2
        simp only at h3 h4
        subst h3
        cases h4 with
        | error h => exact AlikeR.fail h _
        | ok h => subst h; exact ih _ _
      · exact AlikeR.refl _

include hρ in
theorem haltCheck_renamed (x y : String) (count : Count) {halt halt' : Option (Stream → List Value → Value → Dict → Except Err (Bool × List Value))}
    (hh : Both (fun h h' => ∀ s vs ctx loaded, SameE (h s vs ctx loaded) (h' s vs ctx (Dict.rename ρ loaded))) halt halt') (c : Value)
    (loaded : Dict) (s : Stream) (vs : List Value) :
    SameE (haltCheck x count halt c loaded s vs) (haltCheck y (countRenamed ρ count) halt' c (Dict.rename ρ loaded) s vs) := by
  cases hh with
  | some h => exact h s vs c loaded
  | none =>
    have h1 : SameE (shouldHalt x count s vs loaded) (shouldHalt y (countRenamed ρ count) s vs (Dict.rename ρ loaded)) := by
      have hc := finalElementCount_renamed hρ count loaded
      cases count with
      | none => exact SameE.refl _
      | fixed n => exact SameE.refl _
      | ref z =>
        simp only [shouldHalt, countRenamed] at hc ⊢
        generalize finalElementCount (.ref z) loaded = q at hc
        generalize finalElementCount (.ref (ρ z)) (Dict.rename ρ loaded) = q' at hc
        cases hc with
        | error h => exact .error h
        | @ok n _ h =>
          subst h
          cases n
          · exact .error rfl
          · exact .ok rfl
    simp only [haltCheck]
    generalize shouldHalt x count s vs loaded = q at h1
    generalize shouldHalt y (countRenamed ρ count) s vs (Dict.rename ρ loaded) = q' at h1
    cases h1 with
    | error h => exact .error h
    | ok h => subst h; exact .ok rfl

include hρ in
theorem fieldNullRepr_renamed (Γ : Classes) (n : Nat) {f f' : Field} (hf : FieldRenamed ρ f f') (loaded : Dict) :
    SameE (fieldNullRepr Γ n f loaded) (fieldNullRepr Γ n f' (Dict.rename ρ loaded)) := by
  have hcd := fun {g g'} (hg : FieldRenamed ρ g g') v c all =>
    containerDump_renamed hρ (Γ := Γ) (ts := fieldToStream Γ n) (ss := structToStream Γ n)
      (fun f f' v c all hf => fieldToStream_renamed hρ Γ n hf v c all) hg v c all
  cases hf with
  | leaf hb hk => exact leafNullRepr_renamed hρ hb hk loaded
  | array hb hc hh => exact (containerNulls_renamed hρ hb (fun v => hcd (.array hb hc hh) v .none loaded) loaded).2
  | nested hb => exact (containerNulls_renamed hρ hb (fun v => hcd (.nested hb) v .none loaded) loaded).2
  | union hb hc hl hd => exact (containerNulls_renamed hρ hb (fun v => hcd (.union hb hc hl hd) v .none loaded) loaded).2

/-- What the induction on the fuel shows. -/
structure LoadRenamed (ρ : String → String) (Γ : Classes) (n : Nat) : Prop where
  field : ∀ f f' s c loaded, FieldRenamed ρ f f' → AlikeR Eq (fieldFromStream Γ n f s c loaded) (fieldFromStream Γ n f' s c (Dict.rename ρ loaded))
  raw : ∀ f f' s c loaded, FieldRenamed ρ f f' → AlikeR Eq (fieldDoLoad Γ n f s c loaded) (fieldDoLoad Γ n f' s c (Dict.rename ρ loaded))

include hρ in
theorem containerLoad_renamed {Γ : Classes} {n : Nat} (ih : LoadRenamed ρ Γ n) {f f' : Field} (hf : FieldRenamed ρ f f') (s : Stream) (c : Value)
    (loaded : Dict) :
    AlikeR Eq (containerLoad Γ n (fieldFromStream Γ n) (fieldDoLoad Γ n) (fun d s ctx => structFromStream Γ n d s ctx []) f s c loaded)
      (containerLoad Γ n (fieldFromStream Γ n) (fieldDoLoad Γ n) (fun d s ctx => structFromStream Γ n d s ctx []) f' s c (Dict.rename ρ loaded)) := by
  cases hf with
  | leaf => exact AlikeR.refl _
  | array hb hc hh =>
    exact AlikeR.map (arrayLoop_same (haltCheck_renamed hρ _ _ _ hh c loaded) (fun s => ih.field _ _ s c loaded hc) n [] s) _
  | nested hb => exact AlikeR.refl _
  | @union b b' cs cs' ld ld' dd dd' hb hc hl hd =>
    have h1 := hl s c loaded
    simp only [containerLoad]
    generalize ld s c loaded = q at h1
    generalize ld' s c (Dict.rename ρ loaded) = q' at h1
    cases h1 with
    | error h => exact AlikeR.fail h s
    | @ok i _ h =>
      subst h
      have h2 := hc.get? i
      simp only
      generalize cs[i]? = a at h2
      generalize cs'[i]? = a' at h2
      cases h2 with
      | none => exact AlikeR.refl _
      | some h =>
        cases h with
        | field h => exact ih.raw _ _ s c loaded h
        | cls x => exact AlikeR.refl _

include hρ in
theorem loadRenamed (Γ : Classes) (n : Nat) : LoadRenamed ρ Γ n := by
  induction n with
  | zero => exact ⟨fun _ _ _ _ _ _ => AlikeR.refl _, fun _ _ _ _ _ _ => AlikeR.refl _⟩
  | succ n ih =>
    refine ⟨fun f f' s c loaded hf => ?_, fun f f' s c loaded hf => ?_⟩
    · simp only [fieldFromStream]
      exact fromStreamWith_renamed hρ hf.base.toBaseAlike _ (fieldNullRepr_renamed hρ Γ n hf loaded) (fun s => ih.raw f f' s c loaded hf) s c loaded
    · cases hf with
      | leaf hb hk => exact leafLoad_renamed hb.toBaseAlike hk (leafExpectedSize_renamed hρ hb hk loaded) s c loaded
      | array hb hc hh => exact containerLoad_renamed hρ ih (.array hb hc hh) s c loaded
      | nested hb => exact containerLoad_renamed hρ ih (.nested hb) s c loaded
      | union hb hc hl hd => exact containerLoad_renamed hρ ih (.union hb hc hl hd) s c loaded

include hρ in
theorem loadFields_renamed {ls ls' : Field → Stream → Dict → R Value} {fs fs' : List Field} (hfs : Each (FieldRenamed ρ) fs fs')
    (h : ∀ f f' s loaded, FieldRenamed ρ f f' → AlikeR Eq (ls f s loaded) (ls' f' s (Dict.rename ρ loaded))) (results : Dict) (s : Stream) :
    AlikeR (fun a b => b = Dict.rename ρ a) (loadFields ls fs results s) (loadFields ls' fs' (Dict.rename ρ results) s) := by
  induction hfs generalizing results s with
  | nil => exact ⟨rfl, .ok rfl⟩
  | @cons f f' fs fs' hf hs ih =>
    have h1 := h f f' s results hf
    simp only [loadFields]
    generalize ls f s results = a at h1
    generalize ls' f' s (Dict.rename ρ results) = a' at h1
    obtain ⟨a1, a2⟩ := a
    obtain ⟨b1, b2⟩ := a'
    obtain ⟨h3, h4⟩ := h1
    simp only at h3 h4
    subst h3
    cases h4 with
    | error h => exact AlikeR.fail h _
    | ok h =>
      subst h
      simp only [hf.name, ← rename_setDefault hρ]
      exact ih _ _

include hρ in
theorem structFromStream_renamed (Γ : Classes) (n : Nat) {d e : StructDesc} (h : Renamed ρ d e) (s : Stream) (c : Value) (kw : Dict) :
    AlikeR (fun a b => b = Dict.rename ρ a) (structFromStream Γ n d s c kw) (structFromStream Γ n e s c (Dict.rename ρ kw)) := by
  cases n with
  | zero => exact AlikeR.fail rfl s
  | succ n =>
    have hl := loadFields_renamed hρ (ls := fun f s loaded => fieldFromStream Γ n f s c loaded)
      (ls' := fun f s loaded => fieldFromStream Γ n f s c loaded) h.components
      (fun f f' s loaded hf => (loadRenamed hρ Γ n).field f f' s c loaded hf) kw s
    simp only [structFromStream, structFromStreamWith]
    generalize loadFields _ d.components kw s = a at hl
    generalize loadFields _ e.components (Dict.rename ρ kw) s = a' at hl
    obtain ⟨a1, a2⟩ := a
    obtain ⟨b1, b2⟩ := a'
    obtain ⟨h3, h4⟩ := hl
    simp only at h3 h4
    subst h3
    cases h4 with
    | error h => exact AlikeR.fail h _
    | @ok results _ hr =>
      subst hr
      have hi := structInit_renamed hρ h.components results
      simp only
      generalize structInit d results = q at hi
      generalize structInit e (Dict.rename ρ results) = q' at hi
      cases hi with
      | error h => exact AlikeR.fail h _
      | @ok vals _ hv =>
        subst hv
        have hv := validateContents_renamed hρ h vals
        simp only
        generalize validateContents d vals = p at hv
        generalize validateContents e (Dict.rename ρ vals) = p' at hv
        cases hv with
        | error h => exact AlikeR.fail h _
        | ok _ => exact ⟨rfl, .ok (discard_renamed hρ h.components vals)⟩

/-! ### Partial loads and dumps, assignments -/

include hρ in
theorem last_renamed (x : String) (last : Option String) : (some (ρ x) = last.map ρ) ↔ (some x = last) := by
  cases last with
  | none => simp
  | some l => simp only [Option.map_some, Option.some.injEq]; exact ⟨hρ.inj _ _, fun h => by rw [h]⟩

include hρ in
theorem partialLoadLoop_renamed {ls ls' : Field → Stream → Dict → R Value} (last : Option String) {fs fs' : List Field}
    (hfs : Each (FieldRenamed ρ) fs fs')
    (h : ∀ f f' s loaded, FieldRenamed ρ f f' → AlikeR Eq (ls f s loaded) (ls' f' s (Dict.rename ρ loaded))) (results : Dict) (s : Stream) :
    AlikeR (fun a b => b = Dict.rename ρ a) (partialLoadLoop ls last fs results s)
      (partialLoadLoop ls' (last.map ρ) fs' (Dict.rename ρ results) s) := by
  induction hfs generalizing results s with
  | nil => exact ⟨rfl, .ok rfl⟩
  | @cons f f' fs fs' hf hs ih =>
    have h1 := h f f' s results hf
    have hlast : (last.map ρ = none) ↔ (last = none) := by cases last <;> simp
    simp only [partialLoadLoop, hf.name, hf.base.discard, last_renamed hρ, hlast]
    generalize ls f s results = a at h1
    generalize ls' f' s (Dict.rename ρ results) = a' at h1
    obtain ⟨a1, a2⟩ := a
    obtain ⟨b1, b2⟩ := a'
    obtain ⟨h3, h4⟩ := h1
    simp only at h3 h4
    subst h3
    cases h4 with
    | error h =>
      simp only [anon_isEOF h]
      split
      · exact ⟨rfl, .ok rfl⟩
      · exact AlikeR.fail h _
    | ok h =>
      subst h
      have hset : ∀ v, (if f.base.discard = true then Dict.rename ρ results else (Dict.rename ρ results).set (ρ f.name) v) =
          Dict.rename ρ (if f.base.discard = true then results else results.set f.name v) := by
        intro v
        split
        · rfl
        · exact (rename_set hρ results f.name v).symm
      simp only [hset]
      split
      · exact ⟨rfl, .ok rfl⟩
      · exact ih _ _

include hρ in
theorem structPartialLoad_renamed (Γ : Classes) (n : Nat) {d e : StructDesc} (h : Renamed ρ d e) (s : Stream) (last : Option String) (c : Value) :
    AlikeR (fun a b => b = Dict.rename ρ a) (structPartialLoad Γ n d s last c) (structPartialLoad Γ n e s (last.map ρ) c) := by
  have hany : (last.map ρ).any (fun l => !e.has l) = last.any fun l => !d.has l := by
    cases last with
    | none => rfl
    | some l => simp [has_renamed hρ h.components]
  have hl := partialLoadLoop_renamed hρ (ls := fun f s loaded => fieldFromStream Γ n f s c loaded)
    (ls' := fun f s loaded => fieldFromStream Γ n f s c loaded) last h.components
    (fun f f' s loaded hf => (loadRenamed hρ Γ n).field f f' s c loaded hf) [] s
  simp only [structPartialLoad, hany]
  split
  · exact ⟨rfl, .error rfl⟩
  · rw [show Dict.rename ρ [] = [] from rfl] at hl
    generalize partialLoadLoop _ last d.components [] s = a at hl
    generalize partialLoadLoop _ (last.map ρ) e.components [] s = a' at hl
    obtain ⟨a1, a2⟩ := a
    obtain ⟨b1, b2⟩ := a'
    obtain ⟨h3, h4⟩ := hl
    simp only at h3 h4
    subst h3
    cases h4 with
    | error h => exact AlikeR.fail h _
    | ok hr => subst hr; exact ⟨rfl, structInit_renamed hρ h.components _⟩

include hρ in
theorem partialDumpLoop_renamed {ts ts' : Field → Value → W} (vals : Dict) (last : Option String) {fs fs' : List Field}
    (hfs : Each (FieldRenamed ρ) fs fs') (h : ∀ f f' v, FieldRenamed ρ f f' → SameW (ts f v) (ts' f' v)) :
    SameW (partialDumpLoop ts vals last fs) (partialDumpLoop ts' (Dict.rename ρ vals) (last.map ρ) fs') := by
  induction hfs with
  | nil => exact SameW.refl _
  | @cons f f' fs fs' hf hs ih =>
    have hlast : (last.map ρ = none) ↔ (last = none) := by cases last <;> simp
    simp only [partialDumpLoop, hf.name, hf.base.default, hf.base.required, rename_get? hρ, last_renamed hρ, hlast]
    cases f.base.default with
    | error e => exact SameW.fail rfl
    | ok fb =>
      simp only
      generalize (vals.get? f.name).getD fb = v
      have hgo : SameW ((ts f v).seq fun _ => if some f.name = last then W.ok [] else partialDumpLoop ts vals last fs)
          ((ts' f' v).seq fun _ => if some f.name = last then W.ok [] else partialDumpLoop ts' (Dict.rename ρ vals) (last.map ρ) fs') := by
        refine SameW.seq (h f f' v hf) ?_
        split
        · exact SameW.refl _
        · exact ih
      split
      · split
        · exact SameW.refl _
        · cases f.base.required with
          | error e => exact SameW.fail rfl
          | ok r =>
            cases r
            · exact hgo
            · exact ⟨rfl, .error rfl⟩
      · exact hgo

include hρ in
theorem structPartialDump_renamed (Γ : Classes) (n : Nat) {d e : StructDesc} (h : Renamed ρ d e) (vals : Dict) (last : Option String) (c : Value) :
    SameW (structPartialDump Γ n d vals last c) (structPartialDump Γ n e (Dict.rename ρ vals) (last.map ρ) c) :=
  partialDumpLoop_renamed hρ vals last h.components fun _ _ v hf => fieldToStream_renamed hρ Γ n hf v c []

include hρ in
theorem structSetItem_renamed {d e : StructDesc} (h : Renamed ρ d e) (vals : Dict) (k : String) (v : Value) :
    SameE (structSetItem d vals k v).1 (structSetItem e (Dict.rename ρ vals) (ρ k) v).1 ∧
      (structSetItem e (Dict.rename ρ vals) (ρ k) v).2 = Dict.rename ρ (structSetItem d vals k v).2 := by
  have hf := find?_renamed hρ h.components k
  simp only [structSetItem]
  generalize d.find? k = a at hf
  generalize e.find? (ρ k) = b at hf
  cases hf with
  | none => exact ⟨.error rfl, rfl⟩
  | @some f f' hf =>
    have hc : f'.base.computeFn.isSome = f.base.computeFn.isSome := by
      have := hf.base.computeFn
      generalize f.base.computeFn = x at this
      generalize f'.base.computeFn = y at this
      cases this <;> rfl
    simp only [fieldSet, hc, hf.base.const, hf.base.validators, hf.name]
    split
    · exact ⟨.error rfl, rfl⟩
    · cases runValidators f.base.validators v with
      | error e => exact ⟨.error rfl, rfl⟩
      | ok u => exact ⟨.ok rfl, (rename_set hρ vals f.name v).symm⟩

/-! ### Sizes, and `get_field` -/

include hρ in
theorem fieldExpectedSize_renamed (Γ : Classes) (n : Nat) {f f' : Field} (hf : FieldRenamed ρ f f') (values : Dict) :
    SameE (fieldExpectedSize Γ n f values) (fieldExpectedSize Γ n f' (Dict.rename ρ values)) := by
  have hcd := fun {g g'} (hg : FieldRenamed ρ g g') v c all =>
    containerDump_renamed hρ (Γ := Γ) (ts := fieldToStream Γ n) (ss := structToStream Γ n)
      (fun f f' v c all hf => fieldToStream_renamed hρ Γ n hf v c all) hg v c all
  cases hf with
  | leaf hb hk => exact leafExpectedSize_renamed hρ hb hk values
  | array hb hc hh => exact (containerNulls_renamed hρ hb (fun v => hcd (.array hb hc hh) v .none values) values).1
  | nested hb => exact (containerNulls_renamed hρ hb (fun v => hcd (.nested hb) v .none values) values).1
  | union hb hc hl hd => exact (containerNulls_renamed hρ hb (fun v => hcd (.union hb hc hl hd) v .none values) values).1

theorem sumSizes_same {sz sz' : Field → Except Err Int} {fs fs' : List Field} (hfs : Each (FieldRenamed ρ) fs fs')
    (h : ∀ f f', FieldRenamed ρ f f' → SameE (sz f) (sz' f')) : SameE (sumSizes sz fs) (sumSizes sz' fs') := by
  induction hfs with
  | nil => exact .ok rfl
  | @cons f f' fs fs' hf hs ih =>
    have h1 := h f f' hf
    simp only [sumSizes]
    generalize sz f = a at h1
    generalize sz' f' = a' at h1
    cases h1 with
    | error h => exact .error h
    | ok h =>
      subst h
      simp only
      generalize sumSizes sz fs = b at ih
      generalize sumSizes sz' fs' = b' at ih
      cases ih with
      | error h => exact .error h
      | ok h => subst h; exact .ok rfl

include hρ in
theorem fieldLen_renamed (Γ : Classes) (n : Nat) (cur : Dict) {f f' : Field} (hf : FieldRenamed ρ f f') :
    SameE (fieldLen Γ n cur f) (fieldLen Γ n (Dict.rename ρ cur) f') := by
  have h1 := fieldExpectedSize_renamed hρ Γ n hf cur
  have h2 := computeValueForDump_renamed hf.base (rename_view hρ cur) .none
  have h3 := fun v => SameW.toExcept (fieldToStream_renamed hρ Γ n hf v .none [])
  have hrest : SameE (match fieldExpectedSize Γ n f cur with
      | .ok k => (.ok k : Except Err Int)
      | .error e => if e.isBinobj then
          match f.base.computeValueForDump cur.view .none with
          | .error e => .error e
          | .ok v => (fieldToBytes Γ n f v .none).map fun b => (b.length : Int)
        else .error e) (match fieldExpectedSize Γ n f' (Dict.rename ρ cur) with
      | .ok k => (.ok k : Except Err Int)
      | .error e => if e.isBinobj then
          match f'.base.computeValueForDump (Dict.rename ρ cur).view .none with
          | .error e => .error e
          | .ok v => (fieldToBytes Γ n f' v .none).map fun b => (b.length : Int)
        else .error e) := by
    generalize fieldExpectedSize Γ n f cur = a at h1 ⊢
    generalize fieldExpectedSize Γ n f' (Dict.rename ρ cur) = a' at h1 ⊢
    cases h1 with
    | ok h => subst h; exact .ok rfl
    | error h =>
      simp only [anon_isBinobj h]
      split
      · generalize f.base.computeValueForDump cur.view .none = b at h2 ⊢
        generalize f'.base.computeValueForDump (Dict.rename ρ cur).view .none = b' at h2 ⊢
        cases h2 with
        | error h => exact .error h
        | @ok v _ h =>
          subst h
          have := h3 v
          simp only [fieldToBytes]
          rw [show Dict.rename ρ [] = [] from rfl] at this
          generalize (fieldToStream Γ n f v .none []).toExcept = c at this
          generalize (fieldToStream Γ n f' v .none []).toExcept = c' at this
          cases this with
          | error h => exact .error h
          | ok h => subst h; exact .ok rfl
      · exact .error h
  simp only [fieldLen, hf.base.size]
  cases f.base.size with
  | fixed k => exact .ok rfl
  | none => exact hrest
  | ref x => exact hrest

include hρ in
theorem structLen_renamed (Γ : Classes) (n : Nat) {d e : StructDesc} (h : Renamed ρ d e) (vals : Dict) :
    SameE (structLen Γ n d vals) (structLen Γ n e (Dict.rename ρ vals)) := by
  have hw := whateverPossible_renamed hρ h.components vals
  simp only [structLen]
  generalize whateverPossible d vals = r at hw
  generalize whateverPossible e (Dict.rename ρ vals) = r' at hw
  cases hw with
  | error h => exact .error h
  | ok hd => subst hd; exact sumSizes_same h.components fun f f' hf => fieldLen_renamed hρ Γ n _ hf

include hρ in
theorem structGetSize_renamed (Γ : Classes) (n : Nat) {d e : StructDesc} (h : Renamed ρ d e) (values : Dict) :
    SameE (structGetSize Γ n d values) (structGetSize Γ n e (Dict.rename ρ values)) := by
  have hs := sumSizes_same (sz := fun f => fieldExpectedSize Γ n f values) (sz' := fun f => fieldExpectedSize Γ n f (Dict.rename ρ values))
    h.components fun f f' hf => fieldExpectedSize_renamed hρ Γ n hf values
  simp only [structGetSize]
  generalize sumSizes _ d.components = a at hs
  generalize sumSizes _ e.components = a' at hs
  cases hs with
  | ok h => subst h; exact .ok rfl
  | @error e e' h =>
    cases e <;> cases e' <;> first
      | exact .error h
      | exact .ok rfl
      | (exfalso; cases h)

include hρ in
theorem structGetField_renamed (Γ : Classes) (n : Nat) {d e : StructDesc} (h : Renamed ρ d e) (s : Stream) (x : String)
    (ho : ∀ f g, d.find? x = some f → e.find? (ρ x) = some g → g.base.offset = f.base.offset) (c : Value) :
    AlikeR Eq (structGetField Γ n d s x c) (structGetField Γ n e s (ρ x) c) := by
  have hf := find?_renamed hρ h.components x
  simp only [structGetField]
  generalize d.find? x = a at hf ho
  generalize e.find? (ρ x) = b at hf ho
  cases hf with
  | none => exact ⟨rfl, .error rfl⟩
  | @some f f' hf =>
    simp only [ho f f' rfl rfl]
    cases f.base.offset with
    | some off =>
      simp only
      split
      · exact ⟨rfl, .error rfl⟩
      · rename_i t _
        have h1 := (loadRenamed hρ Γ n).field f f' t c [] hf
        rw [show Dict.rename ρ [] = [] from rfl] at h1
        exact ⟨by rw [h1.1], h1.2⟩
    | none =>
      have hp := structPartialLoad_renamed hρ Γ n h s (some x) c
      simp only [Option.map_some] at hp
      simp only
      generalize structPartialLoad Γ n d s (some x) c = p at hp
      generalize structPartialLoad Γ n e s (some (ρ x)) c = p' at hp
      obtain ⟨p1, p2⟩ := p
      obtain ⟨q1, q2⟩ := p'
      obtain ⟨h3, h4⟩ := hp
      simp only at h3 h4
      subst h3
      cases h4 with
      | error h => exact ⟨rfl, .error h⟩
      | ok hv => subst hv; exact ⟨rfl, structGetItem_renamed hρ h.components _ x⟩

end

end Verif
