import Verif.Proofs.RenamingLoad
import Verif.Spec.RenamingDecl

namespace Verif
open Spec

theorem Spec.Each.append {α β : Type} {R : α → β → Prop} {as as' : List α} {bs bs' : List β} (h : Each R as bs) (h' : Each R as' bs') :
    Each R (as ++ as') (bs ++ bs') := by
  induction h with
  | nil => exact h'
  | cons h _ ih => exact .cons h ih

theorem Spec.Each.filter {α β : Type} {R : α → β → Prop} {as : List α} {bs : List β} (h : Each R as bs) {p : α → Bool} {q : β → Bool}
    (hpq : ∀ a b, R a b → q b = p a) : Each R (as.filter p) (bs.filter q) := by
  induction h with
  | nil => exact .nil
  | @cons a b as bs h _ ih =>
    simp only [List.filter_cons, hpq a b h]
    split
    · exact .cons h ih
    · exact ih

theorem Spec.Each.any {α β : Type} {R : α → β → Prop} {as : List α} {bs : List β} (h : Each R as bs) {p : α → Bool} {q : β → Bool}
    (hpq : ∀ a b, R a b → q b = p a) : bs.any q = as.any p := by
  induction h with
  | nil => rfl
  | @cons a b as bs h _ ih => simp only [List.any_cons, hpq a b h, ih]

theorem Spec.Each.map {α β γ δ : Type} {R : α → β → Prop} {Q : γ → δ → Prop} {as : List α} {bs : List β} (h : Each R as bs) {g : α → γ} {g' : β → δ}
    (hg : ∀ a b, R a b → Q (g a) (g' b)) : Each Q (as.map g) (bs.map g') := by
  induction h with
  | nil => exact .nil
  | cons h _ ih => exact .cons (hg _ _ h) ih

theorem Spec.Each.imp {α β : Type} {R Q : α → β → Prop} {as : List α} {bs : List β} (h : Each R as bs) (hg : ∀ a b, R a b → Q a b) : Each Q as bs := by
  induction h with
  | nil => exact .nil
  | cons h _ ih => exact .cons (hg _ _ h) ih

theorem Spec.Each.and {α β : Type} {R Q : α → β → Prop} {as : List α} {bs : List β} (h : Each R as bs) (h' : Each Q as bs) :
    Each (fun a b => R a b ∧ Q a b) as bs := by
  induction h with
  | nil => exact .nil
  | cons h _ ih =>
    cases h' with
    | cons h1 h2 => exact .cons ⟨h, h1⟩ (ih h2)

/-- Method validators under the old and the new names. -/
abbrev FVRenamed (ρ : String → String) (p q : String × List (View → Value → Except Err Unit)) : Prop :=
  q.1 = ρ p.1 ∧ Each (fun m m' => ∀ V V' v, ViewAlike ρ V V' → SameE (m V v) (m' V' v)) p.2 q.2

section
variable {ρ : String → String} (hρ : Renaming ρ)

theorem withBase_renamed {f f' : Field} (hf : FieldRenamed ρ f f') {b b' : FieldBase} (hb : BaseRenamed ρ b b') :
    FieldRenamed ρ (f.withBase b) (f'.withBase b') := by
  cases hf with
  | leaf _ hk => exact .leaf hb hk
  | array _ hc hh => exact .array hb hc hh
  | nested _ => exact .nested hb
  | union _ hc hl hd => exact .union hb hc hl hd

theorem setEndian_renamed {f f' : Field} (hf : FieldRenamed ρ f f') (e : Endian) : FieldRenamed ρ (f.setEndian e) (f'.setEndian e) := by
  cases hf with
  | leaf hb hk =>
    cases hk with
    | same h =>
      rename_i k
      cases k with
      | integer signed e' => exact .leaf hb (.same nofun)
      | _ => exact .leaf hb (.same h)
    | custom h => exact .leaf hb (.custom h)
  | array hb hc hh => exact .array hb hc hh
  | nested hb => exact .nested hb
  | union hb hc hl hd => exact .union hb hc hl hd

@[simp] theorem base_withBase (f : Field) (b : FieldBase) : (f.withBase b).base = b := by cases f <;> rfl

theorem base_setEndian' (f : Field) (e : Endian) : (f.setEndian e).base = f.base := by
  cases f with
  | leaf b k => cases k <;> rfl
  | _ => rfl

/-- A bound field under the old and the new names. -/
abbrev BoundRenamed (ρ : String → String) (f f' : Field) : Prop := FieldRenamed ρ f f' ∧ f'.base.offset = f.base.offset

include hρ in
theorem maybeAssignName_renamed {f f' : Field} (hf : FieldRenamed ρ f f') (ht : f'.base.typeName = f.base.typeName)
    (he : f'.base.explicit = f.base.explicit) (x : String) :
    AlikeE (fun g g' => FieldRenamed ρ g g' ∧ g'.base.typeName = g.base.typeName ∧ g'.base.explicit = g.base.explicit)
      (maybeAssignName f x) (maybeAssignName f' (ρ x)) := by
  have h1 : (f'.name = "") ↔ (f.name = "") := by
    rw [hf.name]
    exact ⟨fun h => hρ.inj _ _ (h.trans hρ.empty.symm), fun h => by rw [h, hρ.empty]⟩
  have h2 : (ρ x ≠ f'.name) ↔ (x ≠ f.name) := by
    rw [hf.name]
    exact ⟨fun h hc => h (by rw [hc]), fun h hc => h (hρ.inj _ _ hc)⟩
  simp only [maybeAssignName, h1, h2]
  split
  · refine .ok ⟨withBase_renamed hf ?_, by simpa using ht, by simpa using he⟩
    have hb := hf.base
    exact { name := rfl, const := hb.const, dflt := hb.dflt, factory := hb.factory, discard := hb.discard, nullValue := hb.nullValue
            size := hb.size, validators := hb.validators, present := hb.present, notPresentValue := hb.notPresentValue
            computeFn := hb.computeFn }
  · split
    · exact .error rfl
    · exact .ok ⟨hf, ht, he⟩

include hρ in
theorem bindToContainer_renamed (defaults : List (String × Endian)) {f f' : Field} (hf : FieldRenamed ρ f f')
    (ht : f'.base.typeName = f.base.typeName) (he : f'.base.explicit = f.base.explicit) (x : String) (i : Nat) (o : Option Int) :
    AlikeE (BoundRenamed ρ) (bindToContainer defaults f x i o) (bindToContainer defaults f' (ρ x) i o) := by
  have h := maybeAssignName_renamed hρ hf ht he x
  simp only [bindToContainer]
  generalize maybeAssignName f x = a at h
  generalize maybeAssignName f' (ρ x) = a' at h
  cases h with
  | error h => exact .error h
  | @ok g g' h =>
    obtain ⟨hg, hgt, hge⟩ := h
    have hb := hg.base
    have hw : FieldRenamed ρ (g.withBase { g.base with index := i, offset := o }) (g'.withBase { g'.base with index := i, offset := o }) :=
      withBase_renamed hg { name := hb.name, const := hb.const, dflt := hb.dflt, factory := hb.factory, discard := hb.discard
                            nullValue := hb.nullValue, size := hb.size, validators := hb.validators, present := hb.present
                            notPresentValue := hb.notPresentValue, computeFn := hb.computeFn }
    have hov : overridingDefault (g'.withBase { g'.base with index := i, offset := o }).base defaults "endian" =
        overridingDefault (g.withBase { g.base with index := i, offset := o }).base defaults "endian" := by
      simp only [overridingDefault, base_withBase, hgt, hge]
    simp only [hov]
    cases overridingDefault (g.withBase { g.base with index := i, offset := o }).base defaults "endian" with
    | none => exact .ok ⟨hw, by simp⟩
    | some e => exact .ok ⟨setEndian_renamed hw e, by simp [base_setEndian']⟩

include hρ in
theorem collectAssignedFields_renamed (defaults : List (String × Endian)) {items items' : List (String × ClassItem)}
    (h : Each (ItemRenamed ρ) items items') {comps comps' : List Field} (hc : Each (BoundRenamed ρ) comps comps') (o : Option Int) (found : Nat) :
    AlikeE (fun a b => Each (BoundRenamed ρ) a.1 b.1 ∧ b.2 = a.2) (collectAssignedFields defaults items comps o found)
      (collectAssignedFields defaults items' comps' o found) := by
  induction h generalizing comps comps' o found with
  | nil => exact .ok ⟨hc, rfl⟩
  | cons hi _ ih =>
    cases hi with
    | validator _ => exact ih hc o found
    | structValidator _ => exact ih hc o found
    | @field x f f' hf ht he =>
      have hany : comps'.any (fun g => decide (g.name = ρ x)) = comps.any (fun g => decide (g.name = x)) := by
        refine hc.any fun a b hab => ?_
        have : (b.name = ρ x) ↔ (a.name = x) := by
          rw [hab.1.name]
          exact ⟨hρ.inj _ _, fun h => by rw [h]⟩
        simp only [this]
      simp only [collectAssignedFields, hany, ← hc.length]
      split
      · exact .error rfl
      · have hb := bindToContainer_renamed hρ defaults hf ht he x comps.length o
        generalize bindToContainer defaults f x comps.length o = a at hb
        generalize bindToContainer defaults f' (ρ x) comps.length o = a' at hb
        cases hb with
        | error h => exact .error h
        | @ok g g' hg =>
          have hn : nextOffset o g'.base.size = nextOffset o g.base.size := by
            rw [hg.1.base.size]
            cases o <;> cases g.base.size <;> rfl
          simp only [hn]
          exact ih (hc.append (.cons hg .nil)) _ _

include hρ in
theorem initialValidators_renamed {items items' : List (String × ClassItem)} (h : Each (ItemRenamed ρ) items items')
    {fv fv' : List (String × List (View → Value → Except Err Unit))} (hf : Each (FVRenamed ρ) fv fv') :
    Each (FVRenamed ρ) (initialValidators fv items) (initialValidators fv' items') := by
  unfold initialValidators
  induction h generalizing fv fv' with
  | nil => exact hf
  | cons hi _ ih =>
    cases hi with
    | validator _ => exact ih hf
    | structValidator _ => exact ih hf
    | @field x f f' _ _ _ =>
      simp only [List.foldl_cons]
      refine ih ((hf.filter fun a b hab => ?_).append (.cons ⟨rfl, .nil⟩ .nil))
      have : (b.1 ≠ ρ x) ↔ (a.1 ≠ x) := by
        rw [hab.1]
        exact ⟨fun h hc => h (by rw [hc]), fun h hc => h (hρ.inj _ _ hc)⟩
      simp only [this]

include hρ in
theorem appendValidator_renamed {fn fn' : View → Value → Except Err Unit} (hfn : ∀ V V' v, ViewAlike ρ V V' → SameE (fn V v) (fn' V' v))
    (names : List String) {fv fv' : List (String × List (View → Value → Except Err Unit))} (hf : Each (FVRenamed ρ) fv fv') :
    AlikeE (Each (FVRenamed ρ)) (appendValidator fn names fv) (appendValidator fn' (names.map ρ) fv') := by
  induction names generalizing fv fv' with
  | nil => exact .ok hf
  | cons x names ih =>
    have hx : ∀ a b, FVRenamed ρ a b → ((b.1 = ρ x) ↔ (a.1 = x)) := fun a b hab => by
      rw [hab.1]
      exact ⟨hρ.inj _ _, fun h => by rw [h]⟩
    have hany : fv'.any (fun p => decide (p.1 = ρ x)) = fv.any (fun p => decide (p.1 = x)) := hf.any fun a b hab => by simp only [hx a b hab]
    simp only [List.map_cons, appendValidator, hany]
    split
    · refine ih (hf.map fun a b hab => ?_)
      simp only [hx a b hab]
      split
      · exact ⟨hab.1, hab.2.append (.cons hfn .nil)⟩
      · exact hab
    · exact .error rfl

include hρ in
theorem bindValidators_renamed {items items' : List (String × ClassItem)} (h : Each (ItemRenamed ρ) items items')
    {fv fv' : List (String × List (View → Value → Except Err Unit))} (hf : Each (FVRenamed ρ) fv fv') {sv sv' : List (View → Except Err Unit)}
    (hs : Each (fun m m' => ∀ V V', ViewAlike ρ V V' → SameE (m V) (m' V')) sv sv') :
    AlikeE (fun a b => Each (FVRenamed ρ) a.1 b.1 ∧ Each (fun m m' => ∀ V V', ViewAlike ρ V V' → SameE (m V) (m' V')) a.2 b.2)
      (bindValidators items fv sv) (bindValidators items' fv' sv') := by
  induction h generalizing fv fv' sv sv' with
  | nil => exact .ok ⟨hf, hs⟩
  | cons hi _ ih =>
    cases hi with
    | field _ _ _ => exact ih hf hs
    | structValidator hfn => exact ih hf (hs.append (.cons hfn .nil))
    | @validator x y names fn fn' hfn =>
      have ha := appendValidator_renamed hρ hfn names hf
      simp only [bindValidators]
      generalize appendValidator fn names fv = a at ha
      generalize appendValidator fn' (names.map ρ) fv' = a' at ha
      cases ha with
      | error h => exact .error h
      | ok h => exact ih h hs

include hρ in
theorem fromClassWith_renamed {decl decl' : ClassDecl} (hb : Each (ItemRenamed ρ) decl.body decl'.body) (hm : decl'.metaOpts = decl.metaOpts)
    {comps comps' : List Field} (hc : Each (BoundRenamed ρ) comps comps')
    {fv fv' : List (String × List (View → Value → Except Err Unit))} (hf : Each (FVRenamed ρ) fv fv') {sv sv' : List (View → Except Err Unit)}
    (hs : Each (fun m m' => ∀ V V', ViewAlike ρ V V' → SameE (m V) (m' V')) sv sv') (inh : Option (List (String × Endian))) (o : Option Int) :
    AlikeE (ClassRenamed ρ) (fromClassWith decl comps fv sv inh o) (fromClassWith decl' comps' fv' sv' inh o) := by
  have h1 := collectAssignedFields_renamed hρ ((decl.metaOpts.or inh).getD []) hb hc o 0
  have h2 := bindValidators_renamed hρ hb (initialValidators_renamed hρ hb hf) hs
  simp only [fromClassWith, hm]
  generalize collectAssignedFields _ decl.body comps o 0 = a at h1
  generalize collectAssignedFields _ decl'.body comps' o 0 = a' at h1
  cases h1 with
  | error h => exact .error h
  | ok h =>
    simp only
    generalize bindValidators decl.body _ sv = b at h2
    generalize bindValidators decl'.body _ sv' = b' at h2
    cases h2 with
    | error h => exact .error h
    | ok h' => exact .ok ⟨⟨h.1.imp fun _ _ h => h.1, h'.1, h'.2⟩, h.1.imp fun _ _ h => h.2, rfl⟩

include hρ in
theorem fromClass_renamed (Γ : Classes) (n : Nat) {decl decl' : ClassDecl} (h : DeclRenamed ρ Γ decl decl') :
    AlikeE (ClassRenamed ρ) (fromClass Γ n decl) (fromClass Γ n decl') := by
  have hbs := h.bases
  simp only [fromClass]
  generalize decl.bases = bs at hbs
  generalize decl'.bases = bs' at hbs
  cases hbs with
  | nil => exact fromClassWith_renamed hρ h.body h.metaOpts .nil .nil .nil none (some 0)
  | @cons base base' rest rest' hb hr =>
    cases hr with
    | cons _ _ => exact .error rfl
    | nil =>
      simp only
      generalize Γ base = a at hb
      generalize Γ base' = a' at hb
      cases hb with
      | none => exact .error rfl
      | @some b b' hb =>
        have hz := structGetSize_renamed hρ Γ n hb.renamed []
        rw [show Dict.rename ρ [] = [] from rfl] at hz
        simp only
        generalize structGetSize Γ n b [] = z at hz
        generalize structGetSize Γ n b' [] = z' at hz
        cases hz with
        | error h => exact .error h
        | ok hz =>
          subst hz
          simp only [hb.metaOpts]
          exact fromClassWith_renamed hρ h.body h.metaOpts (hb.renamed.components.and hb.offsets) hb.renamed.fieldValidators
            hb.renamed.structValidators _ _

include hρ in
theorem find?_offset {d e : StructDesc} (h : Each (FieldRenamed ρ) d.components e.components) (ho : SameOffsets d e) (x : String) (f g : Field)
    (hf : d.find? x = some f) (hg : e.find? (ρ x) = some g) : g.base.offset = f.base.offset := by
  unfold SameOffsets at ho
  unfold StructDesc.find? at hf hg
  generalize d.components = l at *
  generalize e.components = l' at *
  induction h with
  | nil => cases hf
  | @cons a b _ _ hab _ ih =>
    cases ho with
    | cons h1 h2 =>
      have hx : (b.name = ρ x) ↔ (a.name = x) := by
        rw [hab.name]
        exact ⟨hρ.inj _ _, fun h => by rw [h]⟩
      simp only [List.find?_cons, hx] at hf hg
      by_cases hc : a.name = x
      · simp only [hc, decide_true, Option.some.injEq] at hf hg
        rw [← hf, ← hg, h1]
      · simp only [hc, decide_false] at hf hg
        exact ih hf hg h2

end

end Verif
