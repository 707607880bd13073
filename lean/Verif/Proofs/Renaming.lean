import Verif.Spec.Renaming

namespace Verif
open Spec

/-! ### Exceptions -/

theorem SameE.refl {α : Type} (r : Except Err α) : SameE r r := by
  cases r with
  | ok a => exact .ok rfl
  | error e => exact .error rfl

theorem SameE.of_eq {α : Type} {r r' : Except Err α} (h : r = r') : SameE r r' := h ▸ SameE.refl r

theorem anon_isBinobj {e e' : Err} (h : e.anon = e'.anon) : e.isBinobj = e'.isBinobj := by
  have : ∀ e : Err, e.isBinobj = e.anon.isBinobj := by intro e; cases e <;> rfl
  rw [this e, this e', h]

theorem anon_isUnserializable {e e' : Err} (h : e.anon = e'.anon) : e.isUnserializable = e'.isUnserializable := by
  have : ∀ e : Err, e.isUnserializable = e.anon.isUnserializable := by intro e; cases e <;> rfl
  rw [this e, this e', h]

theorem anon_isEOF {e e' : Err} (h : e.anon = e'.anon) : e.isEOF = e'.isEOF := by
  have : ∀ e : Err, e.isEOF = e.anon.isEOF := by intro e; cases e <;> rfl
  rw [this e, this e', h]

/-- Whether the exception is an `UndefinedSizeError`. -/
theorem anon_undefinedSize {e e' : Err} (h : e.anon = e'.anon) : (∃ x, e = .undefinedSize x) ↔ ∃ x, e' = .undefinedSize x := by
  have : ∀ e : Err, (∃ x, e = .undefinedSize x) ↔ e.anon = .undefinedSize "" := by
    intro e
    cases e <;> simp [Err.anon]
  rw [this e, this e', h]

theorem anon_setErrField {e e' : Err} (h : e.anon = e'.anon) (x y : String) : (setErrField x e).anon = (setErrField y e').anon := by
  have : ∀ x (e : Err), (setErrField x e).anon = e.anon := by intro x e; cases e <;> rfl
  rw [this, this, h]

/-! ### Dictionaries -/

section
variable {ρ : String → String} (hρ : Renaming ρ)
include hρ

theorem Spec.Renaming.beq (x y : String) : (ρ x == ρ y) = (x == y) := by
  by_cases h : x = y
  · subst h
    rw [beq_self_eq_true, beq_self_eq_true]
  · have : ρ x ≠ ρ y := fun h' => h (hρ.inj _ _ h')
    rw [beq_eq_false_iff_ne.2 h, beq_eq_false_iff_ne.2 this]

theorem rename_get? (d : Dict) (k : String) : (Dict.rename ρ d).get? (ρ k) = d.get? k := by
  induction d with
  | nil => rfl
  | cons p d ih =>
    simp only [Dict.rename, Dict.get?, List.map_cons, List.lookup, hρ.beq] at ih ⊢
    cases k == p.1
    · exact ih
    · rfl

theorem rename_contains (d : Dict) (k : String) : (Dict.rename ρ d).contains (ρ k) = d.contains k := by
  have := rename_get? hρ d k
  simp only [Dict.get?] at this
  simp only [Dict.contains, this]

theorem rename_set (d : Dict) (k : String) (v : Value) : Dict.rename ρ (d.set k v) = (Dict.rename ρ d).set (ρ k) v := by
  induction d with
  | nil => rfl
  | cons p d ih =>
    obtain ⟨k', v'⟩ := p
    simp only [Dict.set, Dict.rename, List.map_cons] at ih ⊢
    by_cases h : k' = k
    · simp [h]
    · have h' : ρ k' ≠ ρ k := fun h' => h (hρ.inj _ _ h')
      simp [h, h', ih]

theorem rename_erase (d : Dict) (k : String) : Dict.rename ρ (d.erase k) = (Dict.rename ρ d).erase (ρ k) := by
  simp only [Dict.erase, Dict.rename, List.filter_map]
  congr 2
  funext p
  have : (p.1 = k) ↔ (ρ p.1 = ρ k) := ⟨fun h => by rw [h], hρ.inj _ _⟩
  simp only [Function.comp, ne_eq, this]

omit hρ in
theorem rename_keys (d : Dict) : (Dict.rename ρ d).keys = d.keys.map ρ := by
  simp [Dict.rename, Dict.keys, Function.comp_def]

theorem rename_update (d e : Dict) : Dict.rename ρ (d.update e) = (Dict.rename ρ d).update (Dict.rename ρ e) := by
  induction e generalizing d with
  | nil => rfl
  | cons p e ih =>
    have := ih (d.set p.1 p.2)
    simp only [Dict.update, Dict.rename, List.map_cons, List.foldl_cons] at this ⊢
    rw [this]
    have h := rename_set hρ d p.1 p.2
    simp only [Dict.rename] at h
    rw [h]

theorem rename_setDefault (d : Dict) (k : String) (v : Value) :
    Dict.rename ρ (d.setDefault k v) = (Dict.rename ρ d).setDefault (ρ k) v := by
  simp only [Dict.setDefault, rename_contains hρ]
  split
  · rfl
  · exact rename_set hρ d k v

theorem rename_view (d : Dict) : ViewAlike ρ d.view (Dict.rename ρ d).view := by
  intro k
  refine ⟨rename_contains hρ d k, ?_⟩
  simp only [Dict.view, rename_get? hρ]
  cases d.get? k with
  | some v => exact .ok rfl
  | none => exact .error rfl

omit hρ in
theorem Spec.BaseAlike.default {b b' : FieldBase} (hb : BaseAlike ρ b b') : b'.default = b.default := by
  simp only [FieldBase.default, hb.factory, hb.dflt]

omit hρ in
theorem Spec.BaseAlike.allowNull {b b' : FieldBase} (hb : BaseAlike ρ b b') : b'.allowNull = b.allowNull := by
  simp only [FieldBase.allowNull, hb.nullValue]

omit hρ in
theorem Spec.BaseAlike.required {b b' : FieldBase} (hb : BaseAlike ρ b b') : b'.required = b.required := by
  simp only [FieldBase.required, hb.const, hb.default]

/-- The first half of `compute_value_for_dump`. -/
def FieldBase.ownValue (b : FieldBase) (all : View) : Except Err Value :=
  if all.contains b.name then all.get b.name
  else if b.dflt ≠ .undefined then b.default
  else
    match b.computeFn with
    | some fn => fn all
    | none => .ok .undefined

omit hρ in
theorem computeValueForDump_renamed {b b' : FieldBase} (hb : BaseRenamed ρ b b') {V V' : View} (hV : ViewAlike ρ V V') (ctx : Value) :
    SameE (b.computeValueForDump V ctx) (b'.computeValueForDump V' ctx) := by
  have h1 : SameE (b.ownValue V) (b'.ownValue V') := by
    simp only [FieldBase.ownValue, hb.name, (hV b.name).1, hb.dflt, hb.default]
    split
    · exact (hV b.name).2
    · split
      · exact SameE.refl _
      · have := hb.computeFn
        generalize b.computeFn = c at this
        generalize b'.computeFn = c' at this
        cases this with
        | none => exact .ok rfl
        | some h => exact h V V' hV
  have hp := hb.present V V' ctx none hV
  have hx : ∀ (b : FieldBase) V, b.computeValueForDump V ctx = match b.ownValue V with
      | .error e => .error e
      | .ok v =>
        if v = .notPresent then .ok .notPresent
        else
          match b.present V ctx none with
          | .error e => .error e
          | .ok false => .ok .notPresent
          | .ok true => if v = .undefined then .error (.missingRequired b.name) else .ok v := fun _ _ => rfl
  rw [hx, hx]
  generalize b.ownValue V = r at h1
  generalize b'.ownValue V' = r' at h1
  cases h1 with
  | error h => exact .error h
  | @ok v _ h =>
    subst h
    simp only
    split
    · exact .ok rfl
    · generalize b.present V ctx none = q at hp
      generalize b'.present V' ctx none = q' at hp
      cases hp with
      | error h => exact .error h
      | @ok p _ h =>
        subst h
        cases p
        · exact .ok rfl
        · simp only
          split
          · exact .error rfl
          · exact .ok rfl

/-! ### Classes and instances -/

omit hρ in
theorem Spec.FieldRenamed.base {f f' : Field} (h : FieldRenamed ρ f f') : BaseRenamed ρ f.base f'.base := by
  cases h <;> assumption

omit hρ in
theorem Spec.FieldRenamed.name {f f' : Field} (h : FieldRenamed ρ f f') : f'.name = ρ f.name := h.base.name

omit hρ in
theorem Spec.Each.length {α β : Type} {R : α → β → Prop} {as : List α} {bs : List β} (h : Each R as bs) : as.length = bs.length := by
  induction h with
  | nil => rfl
  | cons _ _ ih => simp [ih]

theorem find?_renamed {d e : StructDesc} (h : Each (FieldRenamed ρ) d.components e.components) (k : String) :
    Both (FieldRenamed ρ) (d.find? k) (e.find? (ρ k)) := by
  simp only [StructDesc.find?]
  generalize d.components = cs at h
  generalize e.components = cs' at h
  induction h with
  | nil => exact .none
  | @cons f f' fs fs' hf hs ih =>
    have : (f'.name = ρ k) ↔ (f.name = k) := by
      rw [hf.name]
      exact ⟨hρ.inj _ _, fun h => by rw [h]⟩
    by_cases hk : f.name = k
    · rw [List.find?_cons_of_pos (by simpa using hk), List.find?_cons_of_pos (by simpa using this.2 hk)]
      exact .some hf
    · rw [List.find?_cons_of_neg (by simpa using hk), List.find?_cons_of_neg (by simpa using fun h => hk (this.1 h))]
      exact ih

theorem has_renamed {d e : StructDesc} (h : Each (FieldRenamed ρ) d.components e.components) (k : String) : e.has (ρ k) = d.has k := by
  have := find?_renamed hρ h k
  simp only [StructDesc.has]
  generalize d.find? k = a at this
  generalize e.find? (ρ k) = b at this
  cases this <;> rfl

omit hρ in
theorem definedKeys_rename (vals : Dict) : definedKeys (Dict.rename ρ vals) = (definedKeys vals).map ρ := by
  have : (Dict.rename ρ vals).filter (fun p => decide (p.2 ≠ .undefined)) = Dict.rename ρ (vals.filter fun p => decide (p.2 ≠ .undefined)) := by
    simp only [Dict.rename, List.filter_map]
    rfl
  rw [definedKeys, this, rename_keys]
  rfl

theorem map_contains (l : List String) (k : String) : (l.map ρ).contains (ρ k) = l.contains k := by
  induction l with
  | nil => rfl
  | cons a l ih => simp only [List.map_cons, List.contains_cons, hρ.beq, ih]

theorem structContains_rename (vals : Dict) (k : String) : structContains (Dict.rename ρ vals) (ρ k) = structContains vals k := by
  simp only [structContains, definedKeys_rename, map_contains hρ]

theorem structGet_renamed {d e : StructDesc} (h : Each (FieldRenamed ρ) d.components e.components) (vals : Dict) (n : Nat) (k : String) :
    SameE (structGet d vals n k) (structGet e (Dict.rename ρ vals) n (ρ k)) := by
  induction n generalizing k with
  | zero => exact .error rfl
  | succ n ih =>
    simp only [structGet, rename_get? hρ]
    have hf := find?_renamed hρ h k
    generalize d.find? k = a at hf
    generalize e.find? (ρ k) = b at hf
    cases hf with
    | none => exact .error rfl
    | some hf =>
      cases vals.get? k with
      | some v => exact .ok rfl
      | none => exact computeValueForDump_renamed hf.base (fun k => ⟨structContains_rename hρ vals k, ih k⟩) .none

theorem structGetItem_renamed {d e : StructDesc} (h : Each (FieldRenamed ρ) d.components e.components) (vals : Dict) (k : String) :
    SameE (structGetItem d vals k) (structGetItem e (Dict.rename ρ vals) (ρ k)) := by
  simp only [structGetItem, ← h.length]
  exact structGet_renamed hρ h vals _ k

theorem structView_renamed {d e : StructDesc} (h : Each (FieldRenamed ρ) d.components e.components) (vals : Dict) :
    ViewAlike ρ (structView d vals) (structView e (Dict.rename ρ vals)) :=
  fun k => ⟨structContains_rename hρ vals k, structGetItem_renamed hρ h vals k⟩

omit hρ in
theorem runAll_each {α β : Type} {R : α → β → Prop} {c : α → Except Err Unit} {c' : β → Except Err Unit} {as : List α} {bs : List β}
    (h : Each R as bs) (hc : ∀ a b, R a b → SameE (c a) (c' b)) : SameE (runAll c as) (runAll c' bs) := by
  induction h with
  | nil => exact .ok rfl
  | @cons a b as bs hab hs ih =>
    simp only [runAll]
    have := hc a b hab
    generalize c a = r at this
    generalize c' b = r' at this
    cases this with
    | error h => exact .error h
    | ok h => exact ih

theorem structInit_renamed {d e : StructDesc} (h : Each (FieldRenamed ρ) d.components e.components) (kw : Dict) :
    AlikeE (fun a b => b = Dict.rename ρ a) (structInit d kw) (structInit e (Dict.rename ρ kw)) := by
  have hf : (Dict.rename ρ kw).keys.filter (fun k => !e.has k) = (kw.keys.filter fun k => !d.has k).map ρ := by
    rw [rename_keys, List.filter_map]
    congr 2
    funext k
    simp only [Function.comp, has_renamed hρ h]
  simp only [structInit, hf]
  cases hx : kw.keys.filter fun k => !d.has k with
  | nil => exact .ok rfl
  | cons a as => exact .error (by simp [Err.anon])

theorem validateContents_renamed {d e : StructDesc} (h : Renamed ρ d e) (vals : Dict) :
    SameE (validateContents d vals) (validateContents e (Dict.rename ρ vals)) := by
  have hV := structView_renamed hρ h.components vals
  have h1 : SameE (runAll (validateField d vals) d.fieldValidators) (runAll (validateField e (Dict.rename ρ vals)) e.fieldValidators) := by
    refine runAll_each h.fieldValidators fun p q hpq => ?_
    simp only [validateField, hpq.1]
    have hf := find?_renamed hρ h.components p.1
    generalize d.find? p.1 = a at hf
    generalize e.find? (ρ p.1) = b at hf
    cases hf with
    | none => exact .error rfl
    | some hf =>
      have hg := structGetItem_renamed hρ h.components vals p.1
      simp only [hf.base.validators]
      generalize structGetItem d vals p.1 = r at hg
      generalize structGetItem e (Dict.rename ρ vals) (ρ p.1) = r' at hg
      cases hg with
      | error h => exact .error h
      | @ok v _ hv =>
        subst hv
        simp only
        split
        · exact .error rfl
        · exact runAll_each hpq.2 fun m m' hm => hm _ _ v hV
  simp only [validateContents]
  generalize runAll (validateField d vals) d.fieldValidators = r at h1
  generalize runAll (validateField e (Dict.rename ρ vals)) e.fieldValidators = r' at h1
  cases h1 with
  | error h => exact .error h
  | ok _ => exact runAll_each h.structValidators fun m m' hm => hm _ _ hV

/-- Results that are dictionaries, under the old and the new names. -/
abbrev RenamedDict (ρ : String → String) : Except Err Dict → Except Err Dict → Prop := AlikeE fun a b => b = Dict.rename ρ a

theorem whateverLoop_renamed {d e : StructDesc} (h : Each (FieldRenamed ρ) d.components e.components) (vals : Dict) {fs fs' : List Field}
    (hfs : Each (FieldRenamed ρ) fs fs') (acc : Dict) :
    RenamedDict ρ (whateverLoop d vals fs acc) (whateverLoop e (Dict.rename ρ vals) fs' (Dict.rename ρ acc)) := by
  induction hfs generalizing acc with
  | nil => exact .ok rfl
  | @cons f f' fs fs' hf hs ih =>
    have hc := computeValueForDump_renamed hf.base (structView_renamed hρ h vals) .none
    simp only [whateverLoop, hf.name]
    generalize f.base.computeValueForDump (structView d vals) .none = r at hc
    generalize f'.base.computeValueForDump (structView e (Dict.rename ρ vals)) .none = r' at hc
    cases hc with
    | ok hv => subst hv; simp only; rw [← rename_set hρ]; exact ih _
    | error he =>
      simp only [anon_isBinobj he]
      split
      · exact ih acc
      · exact .error he

/-- The value in the dictionary, else another. -/
def Dict.getOr (d : Dict) (k : String) (r : Except Err Value) : Except Err Value :=
  match d.get? k with
  | some v => .ok v
  | none => r

theorem chainLoop_renamed {d e : StructDesc} (h : Each (FieldRenamed ρ) d.components e.components) (vals dct : Dict) (ks : List String) :
    RenamedDict ρ (chainLoop d vals dct ks) (chainLoop e (Dict.rename ρ vals) (Dict.rename ρ dct) (ks.map ρ)) := by
  induction ks with
  | nil => exact .ok rfl
  | cons k ks ih =>
    have hg := structGetItem_renamed hρ h vals k
    have hx : ∀ d vals (dct : Dict) k ks, chainLoop d vals dct (k :: ks) = match dct.getOr k (structGetItem d vals k) with
        | .error e => .error e
        | .ok v =>
          match chainLoop d vals dct ks with
          | .error e => .error e
          | .ok r => .ok ((k, v) :: r) := fun _ _ _ _ _ => rfl
    rw [List.map_cons, hx, hx]
    have hv : SameE (dct.getOr k (structGetItem d vals k)) ((Dict.rename ρ dct).getOr (ρ k) (structGetItem e (Dict.rename ρ vals) (ρ k))) := by
      simp only [Dict.getOr, rename_get? hρ]
      cases dct.get? k with
      | some v => exact .ok rfl
      | none => exact hg
    generalize dct.getOr k _ = r at hv
    generalize (Dict.rename ρ dct).getOr (ρ k) _ = r' at hv
    cases hv with
    | error h => exact .error h
    | ok hv =>
      subst hv
      simp only
      generalize chainLoop d vals dct ks = q at ih
      generalize chainLoop e (Dict.rename ρ vals) (Dict.rename ρ dct) (ks.map ρ) = q' at ih
      cases ih with
      | error h => exact .error h
      | ok h => subst h; exact .ok rfl

theorem whateverPossible_renamed {d e : StructDesc} (h : Each (FieldRenamed ρ) d.components e.components) (vals : Dict) :
    RenamedDict ρ (whateverPossible d vals) (whateverPossible e (Dict.rename ρ vals)) := by
  have hw := whateverLoop_renamed hρ h vals h []
  simp only [whateverPossible]
  rw [show Dict.rename ρ [] = [] from rfl] at hw
  generalize whateverLoop d vals d.components [] = r at hw
  generalize whateverLoop e (Dict.rename ρ vals) e.components [] = r' at hw
  cases hw with
  | error h => exact .error h
  | @ok dct _ hd =>
    subst hd
    simp only
    have : definedKeys (Dict.rename ρ vals) ++ (Dict.rename ρ dct).keys.filter (fun k => !(definedKeys (Dict.rename ρ vals)).contains k) =
        (definedKeys vals ++ dct.keys.filter fun k => !(definedKeys vals).contains k).map ρ := by
      rw [definedKeys_rename, rename_keys, List.filter_map, List.map_append]
      congr 3
      funext k
      simp only [Function.comp, map_contains hρ]
    rw [this]
    exact chainLoop_renamed hρ h vals dct _

theorem missingLoop_renamed {fs fs' : List Field} (hfs : Each (FieldRenamed ρ) fs fs') (dct : Dict) :
    RenamedDict ρ (missingLoop dct fs) (missingLoop (Dict.rename ρ dct) fs') := by
  induction hfs with
  | nil => exact .ok rfl
  | @cons f f' fs fs' hf hs ih =>
    have hc := computeValueForDump_renamed hf.base (rename_view hρ dct) .none
    simp only [missingLoop, hf.name, rename_contains hρ]
    split
    · exact ih
    · generalize f.base.computeValueForDump dct.view .none = r at hc
      generalize f'.base.computeValueForDump (Dict.rename ρ dct).view .none = r' at hc
      cases hc with
      | error h => exact .error h
      | ok hv =>
        subst hv
        simp only
        generalize missingLoop dct fs = q at ih
        generalize missingLoop (Dict.rename ρ dct) fs' = q' at ih
        cases ih with
        | error h => exact .error h
        | ok h => subst h; exact .ok rfl

theorem discard_renamed {fs fs' : List Field} (hfs : Each (FieldRenamed ρ) fs fs') (dct : Dict) :
    (fs'.filter (·.base.discard)).foldl (fun dct f => Dict.erase dct f.name) (Dict.rename ρ dct) =
      Dict.rename ρ ((fs.filter (·.base.discard)).foldl (fun dct f => Dict.erase dct f.name) dct) := by
  induction hfs generalizing dct with
  | nil => rfl
  | @cons f f' fs fs' hf hs ih =>
    simp only [List.filter_cons, hf.base.discard]
    split
    · simp only [List.foldl_cons, hf.name, ← rename_erase hρ, ih]
    · exact ih dct

theorem toDictShallow_renamed {d e : StructDesc} (h : Each (FieldRenamed ρ) d.components e.components) (vals : Dict) (keep : Bool) :
    RenamedDict ρ (toDictShallow d vals keep) (toDictShallow e (Dict.rename ρ vals) keep) := by
  have hw := whateverPossible_renamed hρ h vals
  simp only [toDictShallow]
  generalize whateverPossible d vals = r at hw
  generalize whateverPossible e (Dict.rename ρ vals) = r' at hw
  cases hw with
  | error h => exact .error h
  | @ok dct _ hd =>
    subst hd
    have hm := missingLoop_renamed hρ h dct
    simp only
    generalize missingLoop dct d.components = q at hm
    generalize missingLoop (Dict.rename ρ dct) e.components = q' at hm
    cases hm with
    | error h => exact .error h
    | ok hm =>
      subst hm
      simp only [← rename_update hρ]
      refine .ok ?_
      split
      · rfl
      · exact discard_renamed hρ h _

omit hρ in
theorem mapDictE_rename (g : Value → Except Err Value) (dct : Dict) : RenamedDict ρ (mapDictE g dct) (mapDictE g (Dict.rename ρ dct)) := by
  simp only [mapDictE]
  induction dct with
  | nil => exact .ok rfl
  | cons p dct ih =>
    simp only [Dict.rename, List.map_cons, mapE] at ih ⊢
    cases g p.2 with
    | error e => exact .error rfl
    | ok v =>
      rw [show Except.map (fun v => (p.1, v)) (.ok v : Except Err Value) = .ok (p.1, v) from rfl,
        show Except.map (fun v => (ρ p.1, v)) (.ok v : Except Err Value) = .ok (ρ p.1, v) from rfl]
      simp only
      generalize mapE _ dct = q at ih ⊢
      generalize mapE _ (List.map _ dct) = q' at ih ⊢
      cases ih with
      | error h => exact .error h
      | ok h => subst h; exact .ok rfl

theorem structToDict_renamed (Γ : Classes) (n : Nat) {d e : StructDesc} (h : Each (FieldRenamed ρ) d.components e.components) (vals : Dict)
    (keep : Bool) : RenamedDict ρ (structToDict Γ n d vals keep) (structToDict Γ n e (Dict.rename ρ vals) keep) := by
  have hw := toDictShallow_renamed hρ h vals keep
  simp only [structToDict]
  generalize toDictShallow d vals keep = r at hw
  generalize toDictShallow e (Dict.rename ρ vals) keep = r' at hw
  cases hw with
  | error h => exact .error h
  | ok hd => subst hd; exact mapDictE_rename _ _

end

end Verif
