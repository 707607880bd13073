import Verif.Proofs.IteratorDump

/-!
# One-shot iterators: `partial_dump`, `len`, `==`, and what a dump leaves behind
-/

namespace Verif

open Spec

/-! ### `partial_dump` -/

theorem partialDumpLoopS_refines {ts : Field → Value → Its → WS} {ts' : Field → Value → W} {vals : Dict} {last : Option String}
    {σ₀ : Its} (hall : Apart (.dict vals)) {fs : List Field}
    (hts : ∀ f ∈ fs, ∀ v σ, Apart v → Fresh σ → Refines (ts f v σ) (ts' f (fill σ v)) (iterators v) σ)
    (hfs : ∀ f ∈ fs, BlindField f) (hn : (fs.map Field.name).Nodup) {σ : Its} (hσ : Fresh σ)
    (hsame : ∀ f ∈ fs, ∀ v, Dict.get? vals f.name = some v → ∀ k ∈ iterators v, σ k = σ₀ k) :
    Refines (partialDumpLoopS ts vals last fs σ) (partialDumpLoop ts' (fillDict σ₀ vals) last fs) (iteratorsDict vals) σ := by
  induction fs generalizing σ with
  | nil => exact Refines.still _ _ _
  | cons f fs ih =>
    simp only [List.map_cons, List.nodup_cons] at hn
    have ih := fun {σ} => @ih (fun g hg => hts g (List.mem_cons_of_mem _ hg)) (fun g hg => hfs g (List.mem_cons_of_mem _ hg)) hn.2 σ
    have hb := hfs f (List.mem_cons_self ..)
    simp only [partialDumpLoopS, partialDumpLoop, get?_fillDict]
    cases hdef : f.base.default with
    | error e => exact Refines.still _ _ _
    | ok fallback =>
      have hfb := hb.base.default fallback hdef
      have hget : ((Dict.get? vals f.name).map (fill σ₀)).getD fallback = fill σ₀ ((Dict.get? vals f.name).getD fallback) := by
        cases Dict.get? vals f.name with
        | none => exact (fill_iterFree hfb.2).symm
        | some v => rfl
      simp only [hget, fill_undefined]
      have hsrc : IterFree ((Dict.get? vals f.name).getD fallback) ∨
          Dict.get? vals f.name = some ((Dict.get? vals f.name).getD fallback) := by
        cases Dict.get? vals f.name with
        | none => exact Or.inl hfb
        | some v => exact Or.inr rfl
      generalize (Dict.get? vals f.name).getD fallback = v at hsrc
      have hva : Apart v := by
        rcases hsrc with h1 | h1
        · exact h1.apart
        · exact get_apart_value hall h1
      have hsub : ∀ k ∈ iterators v, k ∈ iteratorsDict vals ∧ Dict.get? vals f.name = some v := by
        intro k hk
        rcases hsrc with h1 | h1
        · rw [h1.2] at hk; cases hk
        · exact ⟨mem_iteratorsDict.2 ⟨_, Dict.get?_some_mem h1, hk⟩, h1⟩
      have hfill : fill σ₀ v = fill σ v :=
        fill_congr v fun k hk => (hsame f (List.mem_cons_self ..) v (hsub k hk).2 k hk).symm
      rw [hfill]
      have hv := hts f (List.mem_cons_self ..) v σ hva hσ
      have hgo : Refines ((ts f v σ).seq fun σ => if some f.name = last then (W.ok [], σ) else partialDumpLoopS ts vals last fs σ)
          ((ts' f (fill σ v)).seq fun _ => if some f.name = last then W.ok []
            else partialDumpLoop ts' (fillDict σ₀ vals) last fs) (iteratorsDict vals) σ := by
        refine (hv.seq (ks' := iteratorsDict vals) ?_).mono ?_
        · split
          · exact Refines.still _ _ _
          · refine ih (hv.2.fresh hσ) ?_
            intro g hg w hw k hk
            have hne : f.name ≠ g.name := fun hx => hn.1 (hx ▸ List.mem_map.2 ⟨g, hg, rfl⟩)
            rw [hv.2.1 k fun hx => get_apart hall.2 (hsub k hx).2 hw hne hx hk]
            exact hsame g (List.mem_cons_of_mem _ hg) w hw k hk
        · intro k hk
          rcases List.mem_append.1 hk with h1 | h1
          · exact (hsub k h1).1
          · exact h1
      split
      · split
        · exact Refines.still _ _ _
        · cases f.base.required with
          | error e => exact Refines.still _ _ _
          | ok r =>
            cases r with
            | true => exact Refines.still _ _ _
            | false => exact hgo
      · exact hgo

theorem structPartialDumpS_refines {Γ : Classes} (hΓ : ∀ c d, Γ c = some d → BlindClass d) {n : Nat} {d : StructDesc}
    (hd : BlindClass d) {vals : Dict} (hv : Apart (.dict vals)) (last : Option String) (ctx : Value) {σ : Its} (hσ : Fresh σ) :
    Refines (structPartialDumpS Γ n d vals last ctx σ) (structPartialDump Γ n d (fillDict σ vals) last ctx)
      (iteratorsDict vals) σ := by
  unfold structPartialDumpS structPartialDump
  exact partialDumpLoopS_refines hv
    (fun f hf v ρ hv' hρ => (refines_step hΓ n).1 f v ctx [] ρ ρ (hd.fields f hf) hv' hρ) hd.fields hd.unique hσ
    (fun _ _ _ _ _ _ => rfl)

/-! ### `len` -/

theorem fieldExpectedSize_fill {Γ : Classes} (hΓ : ∀ c d, Γ c = some d → BlindClass d) {n : Nat} {f : Field} (hb : BlindField f)
    (all : Dict) (τ : Its) : fieldExpectedSize Γ n f (fillDict τ all) = fieldExpectedSize Γ n f all := by
  obtain ⟨hf, hs⟩ := refines_step hΓ n
  have hcont := containerExpectedSize_fill hΓ hf hs hb (all := all) (τ := τ)
  cases hb with
  | leaf h1 h2 => exact leafExpectedSize_fill h1 h2 all
  | _ => exact hcont

/-- One summand of `len`. -/
theorem fieldLenS_refines {Γ : Classes} (hΓ : ∀ c d, Γ c = some d → BlindClass d) {n : Nat} {current : Dict}
    (hc : Apart (.dict current)) {f : Field} (hb : BlindField f) {σ σ₀ : Its} (hσ : Fresh σ)
    (hsame : ∀ v, Dict.get? current f.name = some v → ∀ k ∈ iterators v, σ k = σ₀ k) :
    (fieldLenS Γ n current f σ).1 = fieldLen Γ n (fillDict σ₀ current) f ∧
    ∃ ks, Advanced ks σ (fieldLenS Γ n current f σ).2 ∧
      ∀ k ∈ ks, ∃ v, Dict.get? current f.name = some v ∧ k ∈ iterators v := by
  have still : ∃ ks, Advanced ks σ σ ∧ ∀ k ∈ ks, ∃ v, Dict.get? current f.name = some v ∧ k ∈ iterators v :=
    ⟨[], Advanced.refl _ _, fun k hk => nomatch hk⟩
  unfold fieldLenS fieldLen
  rw [fieldExpectedSize_fill hΓ hb]
  have hrest : ∀ e : Err,
      (if e.isBinobj then
        match f.base.computeValueForDump current.view .none with
        | .error e => (.error e, σ)
        | .ok v =>
          let r := fieldToStreamS Γ n f v .none [] σ
          (r.1.toExcept.map fun b => (b.length : Int), r.2)
        else (.error e, σ) : Except Err Int × Its).1 =
      (if e.isBinobj then
        match f.base.computeValueForDump (Dict.view (fillDict σ₀ current)) .none with
        | .error e => .error e
        | .ok v => (fieldToBytes Γ n f v .none).map fun b => (b.length : Int)
        else .error e) ∧
      ∃ ks, Advanced ks σ (if e.isBinobj then
        match f.base.computeValueForDump current.view .none with
        | .error e => (.error e, σ)
        | .ok v =>
          let r := fieldToStreamS Γ n f v .none [] σ
          (r.1.toExcept.map fun b => (b.length : Int), r.2)
        else (.error e, σ) : Except Err Int × Its).2 ∧
        ∀ k ∈ ks, ∃ v, Dict.get? current f.name = some v ∧ k ∈ iterators v := by
    intro e
    rw [view_fillDict, computeValueForDump_fill hb.base]
    by_cases he : e.isBinobj = true
    · simp only [if_pos he]
      cases hcv : f.base.computeValueForDump current.view .none with
      | error e => exact ⟨rfl, still⟩
      | ok v =>
        simp only [Except.map]
        have hsrc := dictView_source hb hcv
        have hva : Apart v := by
          rcases hsrc with h1 | h1
          · exact h1.apart
          · exact get_apart_value hc h1
        have hsub : ∀ k ∈ iterators v, Dict.get? current f.name = some v := by
          intro k hk
          rcases hsrc with h1 | h1
          · rw [h1.2] at hk; cases hk
          · exact h1
        have hfill : fill σ₀ v = fill σ v := fill_congr v fun k hk => (hsame v (hsub k hk) k hk).symm
        have hv := (refines_step hΓ n).1 f v .none [] σ σ hb hva hσ
        refine ⟨?_, iterators v, hv.2, fun k hk => ⟨v, hsub k hk, hk⟩⟩
        rw [hfill, hv.1]
        rfl
    · rw [if_neg he, if_neg he]
      exact ⟨rfl, still⟩
  cases f.base.size with
  | fixed k => exact ⟨rfl, still⟩
  | none =>
    cases fieldExpectedSize Γ n f current with
    | ok k => exact ⟨rfl, still⟩
    | error e => exact hrest e
  | ref r =>
    cases fieldExpectedSize Γ n f current with
    | ok k => exact ⟨rfl, still⟩
    | error e => exact hrest e

theorem sumSizesS_refines {Γ : Classes} (hΓ : ∀ c d, Γ c = some d → BlindClass d) {n : Nat} {current : Dict}
    (hc : Apart (.dict current)) {fs : List Field} (hfs : ∀ f ∈ fs, BlindField f) (hn : (fs.map Field.name).Nodup) {σ σ₀ : Its}
    (hσ : Fresh σ) (hsame : ∀ f ∈ fs, ∀ v, Dict.get? current f.name = some v → ∀ k ∈ iterators v, σ k = σ₀ k) :
    (sumSizesS (fieldLenS Γ n current) fs σ).1 = sumSizes (fieldLen Γ n (fillDict σ₀ current)) fs ∧
    Advanced (iteratorsDict current) σ (sumSizesS (fieldLenS Γ n current) fs σ).2 := by
  induction fs generalizing σ with
  | nil => exact ⟨rfl, Advanced.refl _ _⟩
  | cons f fs ih =>
    simp only [List.map_cons, List.nodup_cons] at hn
    have ih := fun {σ} => @ih (fun g hg => hfs g (List.mem_cons_of_mem _ hg)) hn.2 σ
    obtain ⟨h1, ks, h2, h3⟩ := fieldLenS_refines hΓ (n := n) hc (hfs f (List.mem_cons_self ..)) hσ
      (hsame f (List.mem_cons_self ..))
    have hks : ∀ k ∈ ks, k ∈ iteratorsDict current := by
      intro k hk
      obtain ⟨v, hv, hk⟩ := h3 k hk
      exact mem_iteratorsDict.2 ⟨_, Dict.get?_some_mem hv, hk⟩
    simp only [sumSizesS, sumSizes, ← h1]
    rcases hr : fieldLenS Γ n current f σ with ⟨r, σ'⟩
    rw [hr] at h2
    simp only at h2
    cases r with
    | error e => exact ⟨rfl, h2.mono hks⟩
    | ok m =>
      simp only
      obtain ⟨h4, h5⟩ := ih (σ := σ') (h2.fresh hσ) (by
        intro g hg w hw k hk
        have hne : f.name ≠ g.name := fun hx => hn.1 (hx ▸ List.mem_map.2 ⟨g, hg, rfl⟩)
        rw [h2.1 k fun hx => by
          obtain ⟨v, hv, hk'⟩ := h3 k hx
          exact get_apart hc.2 hv hw hne hk' hk]
        exact hsame g (List.mem_cons_of_mem _ hg) w hw k hk)
      rw [← h4]
      rcases hr2 : sumSizesS (fieldLenS Γ n current) fs σ' with ⟨r2, σ''⟩
      rw [hr2] at h5
      have hadv : Advanced (iteratorsDict current) σ σ'' := by
        refine (h2.trans h5).mono fun k hk => ?_
        rcases List.mem_append.1 hk with h6 | h6
        · exact hks k h6
        · exact h6
      cases r2 with
      | error e => exact ⟨rfl, hadv⟩
      | ok m2 => exact ⟨rfl, hadv⟩

theorem structLenS_refines {Γ : Classes} (hΓ : ∀ c d, Γ c = some d → BlindClass d) {n : Nat} {d : StructDesc}
    (hd : BlindClass d) {vals : Dict} (hv : Apart (.dict vals)) {σ : Its} (hσ : Fresh σ) :
    (structLenS Γ n d vals σ).1 = structLen Γ n d (fillDict σ vals) ∧
    Advanced (iteratorsDict vals) σ (structLenS Γ n d vals σ).2 := by
  unfold structLenS structLen
  rw [whateverPossible_fill hd]
  cases hw : whateverPossible d vals with
  | error e => exact ⟨rfl, Advanced.refl _ _⟩
  | ok current =>
    simp only [Except.map]
    obtain ⟨h1, h2⟩ := whateverPossible_keeps hd hv.1 hw
    have hk := keeps_of_get hv.1 h1 h2
    obtain ⟨h3, h4⟩ := sumSizesS_refines hΓ (n := n) (current := current) ⟨hk.1, hk.2.2 hv.2⟩ hd.fields hd.unique (σ₀ := σ) hσ
      (fun _ _ _ _ _ _ => rfl)
    exact ⟨h3, h4.mono hk.2.1⟩

/-! ### `==` -/

theorem comparableDictS_advanced {Γ : Classes} (hΓ : ∀ c d, Γ c = some d → BlindClass d) {n : Nat} {cls : String}
    {vals : Dict} (hv : Apart (.dict vals)) {σ : Its} (hσ : Fresh σ) :
    Advanced (iteratorsDict vals) σ (comparableDictS Γ n cls vals σ).2 := by
  unfold comparableDictS
  cases hc : Γ cls with
  | none => exact Advanced.refl _ _
  | some d =>
    have h := (structLenS_refines hΓ (n := n) (hΓ cls d hc) hv hσ).2
    simp only
    split
    · exact h
    · split <;> exact h

theorem structEqS_advanced {Γ : Classes} (hΓ : ∀ c d, Γ c = some d → BlindClass d) {n : Nat} {cls : String}
    {vals : Dict} (hv : Apart (.dict vals)) {other : Value} (ho : Apart other) {σ : Its} (hσ : Fresh σ) :
    Advanced (iteratorsDict vals ++ iterators other) σ (structEqS Γ n cls vals other σ).2 := by
  cases n with
  | zero => exact Advanced.refl _ _
  | succ n =>
    simp only [structEqS]
    split
    · exact Advanced.refl _ _
    · have h1 := comparableDictS_advanced hΓ (n := n) (cls := cls) hv hσ
      have h2 : Advanced (iterators other) (comparableDictS Γ n cls vals σ).2
          (comparableOtherS Γ n other (comparableDictS Γ n cls vals σ).2).2 := by
        cases other with
        | struct c vals' => exact comparableDictS_advanced hΓ (n := n) (cls := c) ho (h1.fresh hσ)
        | _ => exact Advanced.refl _ _
      split
      · exact h1.mono fun k hk => List.mem_append_left _ hk
      · split <;> exact h1.trans h2

theorem comparableDictS_iterFree {Γ : Classes} (hΓ : ∀ c d, Γ c = some d → BlindClass d) {n : Nat} {cls : String}
    {vals : Dict} (hv : IterFree (.dict vals)) {σ : Its} (hσ : Fresh σ) :
    comparableDictS Γ n cls vals σ = (comparableDict Γ n cls vals, σ) := by
  have hadv := comparableDictS_advanced hΓ (n := n) (cls := cls) hv.apart hσ
  rw [show iteratorsDict vals = [] from hv.2] at hadv
  refine Prod.ext ?_ hadv.nil
  unfold comparableDictS comparableDict
  cases hc : Γ cls with
  | none => rfl
  | some d =>
    have h := (structLenS_refines hΓ (n := n) (hΓ cls d hc) hv.apart hσ).1
    rw [fillDict_iterFree (show iteratorsDict vals = [] from hv.2)] at h
    simp only [h]
    cases lenHint (structLen Γ n d vals) with
    | error e => rfl
    | ok _ =>
      simp only
      cases definedDict d vals <;> rfl

theorem structEqS_iterFree {Γ : Classes} (hΓ : ∀ c d, Γ c = some d → BlindClass d) {n : Nat} {cls : String}
    {vals : Dict} (hv : IterFree (.dict vals)) {other : Value} (ho : IterFree other) {σ : Its} (hσ : Fresh σ) :
    structEqS Γ n cls vals other σ = (structEq Γ n cls vals other, σ) := by
  cases n with
  | zero => rfl
  | succ n =>
    have hr : structEq Γ (n + 1) cls vals other = structEqWith Γ n (pyEq Γ n) cls vals other := by
      unfold structEq pyEq
      cases other <;> rfl
    have ho' : comparableOtherS Γ n other σ = (comparableOther Γ n other, σ) := by
      cases other with
      | struct c vals' =>
        simp only [comparableOtherS, comparableOther, comparableDictS_iterFree hΓ (show IterFree (.dict vals') from ho) hσ]
      | _ => rfl
    rw [hr]
    unfold structEqWith
    simp only [structEqS, comparableDictS_iterFree hΓ hv hσ]
    split
    · rfl
    · cases comparableDict Γ n cls vals with
      | error e => rfl
      | ok self =>
        simp only [ho']
        cases comparableOther Γ n other with
        | error e => rfl
        | ok o => cases o <;> rfl

/-! ### What a dump leaves behind -/

theorem WS.seq_ok {a : WS} {b : Its → WS} (h : (a.seq b).1.2 = .ok ()) :
    a.1.2 = .ok () ∧ (b a.2).1.2 = .ok () ∧ (a.seq b).2 = (b a.2).2 := by
  unfold WS.seq at h ⊢
  cases hx : a.1.2 with
  | error e => simp only [hx] at h; cases h
  | ok u => simp only [hx] at h ⊢; exact ⟨trivial, h, trivial⟩

theorem drainS_exhausts {name : String} {ts : Value → Its → WS} {nElems : Option Int} {k : List Value} {fuel nWritten : Nat}
    {σ : Its} (h : (drainS name ts nElems k fuel nWritten σ).1.2 = .ok ()) :
    (drainS name ts nElems k fuel nWritten σ).2 k = [] := by
  induction fuel generalizing nWritten σ with
  | zero => cases h
  | succ fuel ih =>
    simp only [drainS] at h ⊢
    cases hk : σ k with
    | nil =>
      simp only [hk] at h ⊢
      cases nElems with
      | none => exact hk
      | some m =>
        simp only at h ⊢
        split <;> exact hk
    | cons v vs =>
      simp only [hk] at h ⊢
      split at h
      · cases h
      · rename_i hne
        rw [if_neg hne]
        obtain ⟨-, h2, h3⟩ := WS.seq_ok h
        rw [h3]
        exact ih h2

theorem toExcept_ok {w : W} {bs : Bytes} (h : w.toExcept = .ok bs) : w.2 = .ok () := by
  unfold W.toExcept at h
  split at h
  · cases h
  · rename_i u hu; rw [hu]

theorem array_exhausts {Γ : Classes} {n : Nat} {b : FieldBase} {comp : Field} {count : Count} {halt} {k : List Value}
    {ctx : Value} {all : Dict} {σ : Its}
    (h : (fieldToStreamS Γ n (.array b comp count halt) (.iter k) ctx all σ).1.2 = .ok ()) :
    (fieldToStreamS Γ n (.array b comp count halt) (.iter k) ctx all σ).2 k = [] := by
  cases n with
  | zero => cases h
  | succ n =>
    simp only [fieldToStreamS, toStreamWithS, containerDumpS, Field.base] at h ⊢
    rw [if_neg (by simp)] at h ⊢
    simp only at h ⊢
    rw [if_neg (by simp)] at h ⊢
    split at h
    · cases h
    · rw [if_neg (by simp)] at h ⊢
      split at h
      · cases h
      · rename_i bs hbs
        simp only
        have hok := toExcept_ok hbs
        unfold arrayDumpS at hok ⊢
        cases hc : finalElementCount count all with
        | error e => simp only [hc] at hok; cases hok
        | ok m =>
          simp only [hc] at hok ⊢
          exact drainS_exhausts hok

/-- Dumping an exhausted iterator through an array field that sets no bounds writes nothing. -/
theorem array_empty {Γ : Classes} {n : Nat} {b : FieldBase} {comp : Field} {halt} {ctx : Value} {all : Dict}
    (hs : b.size = .none) (hv : runValidators b.validators (.iter []) = .ok ()) :
    fieldToStream Γ (n + 1) (.array b comp .none halt) (.iter []) ctx all = W.ok [] := by
  simp only [fieldToStream, toStreamWith, containerDump, Field.base]
  rw [if_neg (by simp)]
  simp only
  rw [if_neg (by simp)]
  simp only [hv]
  rw [if_neg (by simp)]
  simp only [arrayDump, finalElementCount, arrayElements, dumpUnsized, W.toExcept, W.ok, finishDump, hs]
  simp

end Verif
