import Verif.Proofs.Objects

/-! Helper lemmas: commands do the same on stores that differ in where the objects are. -/

namespace Verif
open Spec

/-- The same reference where the objects are elsewhere. -/
def Ref.ren (f : Nat → Nat) : Ref → Ref
  | .imm v => .imm v
  | .obj l => .obj (f l)

def renD (f : Nat → Nat) (d : List (String × Ref)) : List (String × Ref) := d.map fun p => (p.1, p.2.ren f)

def Obj.ren (f : Nat → Nat) : Obj → Obj
  | .list items => .list (items.map (Ref.ren f))
  | .dict items => .dict (renD f items)
  | .bytearray b => .bytearray b
  | .inst cls vals => .inst cls (renD f vals)

def RefOk (Q : Nat → Prop) (r : Ref) : Prop := ∀ l, r = .obj l → Q l

/-- The objects `Q` of `σ` are in `τ` too, where `f` says. -/
structure Sim (f : Nat → Nat) (Q : Nat → Prop) (σ τ : Store) : Prop where
  inj : ∀ a b, Q a → Q b → f a = f b → a = b
  bound : ∀ l, Q l → l < σ.length
  closed : ∀ l o, Q l → σ[l]? = some o → ∀ r ∈ refsOf o, RefOk Q r
  same : ∀ l, Q l → τ[f l]? = (σ[l]?).map (Obj.ren f)

/-- More objects. -/
def Ext (f : Nat → Nat) (Q : Nat → Prop) (f' : Nat → Nat) (Q' : Nat → Prop) : Prop := ∀ l, Q l → Q' l ∧ f' l = f l

theorem Ext.refl (f : Nat → Nat) (Q : Nat → Prop) : Ext f Q f Q := fun _ h => ⟨h, rfl⟩

theorem Ext.trans {f g h : Nat → Nat} {P Q R : Nat → Prop} (h1 : Ext f P g Q) (h2 : Ext g Q h R) : Ext f P h R :=
  fun l hl => ⟨(h2 l (h1 l hl).1).1, (h2 l (h1 l hl).1).2.trans (h1 l hl).2⟩

theorem Ext.ok {f f' : Nat → Nat} {Q Q' : Nat → Prop} (h : Ext f Q f' Q') {r : Ref} (hr : RefOk Q r) : RefOk Q' r :=
  fun l hl => (h l (hr l hl)).1

theorem Ext.ren {f f' : Nat → Nat} {Q Q' : Nat → Prop} (h : Ext f Q f' Q') {r : Ref} (hr : RefOk Q r) : r.ren f' = r.ren f := by
  cases r with
  | imm v => rfl
  | obj l => simp only [Ref.ren]; rw [(h l (hr l rfl)).2]

theorem Ext.renL {f f' : Nat → Nat} {Q Q' : Nat → Prop} (h : Ext f Q f' Q') {rs : List Ref} (hr : ∀ r ∈ rs, RefOk Q r) :
    rs.map (Ref.ren f') = rs.map (Ref.ren f) := List.map_congr_left fun r hm => h.ren (hr r hm)

theorem renD_fst (f : Nat → Nat) (d : List (String × Ref)) : (renD f d).map (·.1) = d.map (·.1) := by simp [renD]

theorem renD_snd (f : Nat → Nat) (d : List (String × Ref)) : (renD f d).map (·.2) = (d.map (·.2)).map (Ref.ren f) := by simp [renD]

theorem renD_zip (f : Nat → Nat) (ks : List String) (rs : List Ref) : renD f (ks.zip rs) = ks.zip (rs.map (Ref.ren f)) := by
  unfold renD
  rw [List.zip_map_right]
  rfl

theorem Ext.renDict {f f' : Nat → Nat} {Q Q' : Nat → Prop} (h : Ext f Q f' Q') {d : List (String × Ref)} (hr : ∀ r ∈ d.map (·.2), RefOk Q r) :
    renD f' d = renD f d := List.map_congr_left fun p hm => by rw [h.ren (hr p.2 (List.mem_map.2 ⟨p, hm, rfl⟩))]

theorem Ext.renObj {f f' : Nat → Nat} {Q Q' : Nat → Prop} (h : Ext f Q f' Q') {o : Obj} (hr : ∀ r ∈ refsOf o, RefOk Q r) : o.ren f' = o.ren f := by
  cases o with
  | list items => simp only [Obj.ren]; rw [h.renL (rs := items) hr]
  | dict items => simp only [Obj.ren]; rw [h.renDict hr]
  | bytearray b => rfl
  | inst cls vals => simp only [Obj.ren]; rw [h.renDict hr]

theorem refsOf_ren (f : Nat → Nat) (o : Obj) : refsOf (o.ren f) = (refsOf o).map (Ref.ren f) := by
  cases o <;> simp [refsOf, Obj.ren, renD]

section
variable {f : Nat → Nat} {Q : Nat → Prop} {σ τ : Store}

theorem Sim.get (h : Sim f Q σ τ) {l : Nat} (hl : Q l) : ∃ o, σ[l]? = some o ∧ τ[f l]? = some (o.ren f) ∧ ∀ r ∈ refsOf o, RefOk Q r := by
  have h1 := List.getElem?_eq_getElem (h.bound l hl)
  exact ⟨_, h1, by rw [h.same l hl, h1]; rfl, h.closed l _ hl h1⟩

theorem Sim.bound' (h : Sim f Q σ τ) {l : Nat} (hl : Q l) : f l < τ.length := by
  obtain ⟨o, _, h1, _⟩ := h.get hl
  exact (List.getElem?_eq_some_iff.1 h1).1

/-- Creating corresponding objects. -/
theorem Sim.new (h : Sim f Q σ τ) {o : Obj} (ho : ∀ r ∈ refsOf o, RefOk Q r) :
    ∃ f' Q', Ext f Q f' Q' ∧ Sim f' Q' (σ.new o).1 (τ.new (o.ren f)).1 ∧ (τ.new (o.ren f)).2 = (σ.new o).2.ren f' ∧ RefOk Q' (σ.new o).2 := by
  have hne : ∀ l, Q l → l ≠ σ.length := fun l hl => Nat.ne_of_lt (h.bound l hl)
  have hext : Ext f Q (fun l => if l = σ.length then τ.length else f l) (fun l => Q l ∨ l = σ.length) :=
    fun l hl => ⟨Or.inl hl, if_neg (hne l hl)⟩
  refine ⟨fun l => if l = σ.length then τ.length else f l, fun l => Q l ∨ l = σ.length, hext, ⟨?_, ?_, ?_, ?_⟩, ?_, ?_⟩
  · intro a b ha hb hab
    rcases ha with ha | rfl <;> rcases hb with hb | rfl
    · rw [if_neg (hne a ha), if_neg (hne b hb)] at hab; exact h.inj a b ha hb hab
    · rw [if_neg (hne a ha), if_pos rfl] at hab; exact absurd hab (Nat.ne_of_lt (h.bound' ha))
    · rw [if_neg (hne b hb), if_pos rfl] at hab; exact absurd hab.symm (Nat.ne_of_lt (h.bound' hb))
    · rfl
  · intro l hl
    simp only [Store.new, List.length_append, List.length_singleton]
    rcases hl with hl | rfl
    · have := h.bound l hl; omega
    · omega
  · intro l o' hl ho' r hr
    simp only [Store.new] at ho'
    rcases hl with hl | rfl
    · rw [List.getElem?_append_left (h.bound l hl)] at ho'
      exact hext.ok (h.closed l o' hl ho' r hr)
    · rw [List.getElem?_concat_length] at ho'
      cases ho'
      exact hext.ok (ho r hr)
  · intro l hl
    simp only [Store.new]
    rcases hl with hl | rfl
    · rw [if_neg (hne l hl), List.getElem?_append_left (h.bound l hl), List.getElem?_append_left (h.bound' hl)]
      obtain ⟨o', h1, h2, h3⟩ := h.get hl
      rw [h1, h2]
      exact congrArg some (hext.renObj h3).symm
    · rw [if_pos rfl, List.getElem?_concat_length, List.getElem?_concat_length]
      exact congrArg some (hext.renObj ho).symm
  · simp [Store.new, Ref.ren]
  · intro l hl
    simp only [Store.new, Ref.obj.injEq] at hl
    exact Or.inr hl.symm

/-- Changing corresponding objects. -/
theorem Sim.set (h : Sim f Q σ τ) {l : Nat} (hl : Q l) {o : Obj} (ho : ∀ r ∈ refsOf o, RefOk Q r) :
    Sim f Q (σ.set l o) (τ.set (f l) (o.ren f)) := by
  refine ⟨h.inj, fun k hk => by rw [List.length_set]; exact h.bound k hk, ?_, ?_⟩
  · intro k o' hk ho' r hr
    by_cases hkl : l = k
    · subst hkl
      rw [List.getElem?_set_self (h.bound l hl)] at ho'
      cases ho'
      exact ho r hr
    · rw [List.getElem?_set_ne hkl] at ho'
      exact h.closed k o' hk ho' r hr
  · intro k hk
    by_cases hkl : l = k
    · subst hkl
      rw [List.getElem?_set_self (h.bound l hl), List.getElem?_set_self (h.bound' hl)]
      rfl
    · rw [List.getElem?_set_ne hkl, List.getElem?_set_ne fun e => hkl (h.inj l k hl hk e)]
      exact h.same k hk

theorem mapM_ren {g g' : Ref → Option Value} {rs : List Ref} (h : ∀ r ∈ rs, g' (r.ren f) = g r) : (rs.map (Ref.ren f)).mapM g' = rs.mapM g := by
  induction rs with
  | nil => rfl
  | cons r rs ih =>
    simp only [List.map_cons, List.mapM_cons]
    rw [h r List.mem_cons_self, ih fun r hr => h r (List.mem_cons_of_mem _ hr)]

theorem Sim.contents (h : Sim f Q σ τ) : ∀ k r, RefOk Q r → contents τ k (r.ren f) = contents σ k r := by
  intro k
  induction k with
  | zero => intro r _; rfl
  | succ k ih =>
    intro r hr
    cases r with
    | imm v => rfl
    | obj l =>
      obtain ⟨o, h1, h2, h3⟩ := h.get (hr l rfl)
      simp only [Ref.ren, Verif.contents]
      rw [h1, h2]
      cases o with
      | bytearray b => rfl
      | list items => simp only [Obj.ren]; rw [mapM_ren (rs := items) fun r hm => ih r (h3 r hm)]
      | dict items => simp only [Obj.ren]; rw [renD_fst, renD_snd, mapM_ren (rs := items.map fun x : String × Ref => x.2) fun r hm => ih r (h3 r hm)]
      | inst cls vals => simp only [Obj.ren]; rw [renD_fst, renD_snd, mapM_ren (rs := vals.map fun x : String × Ref => x.2) fun r hm => ih r (h3 r hm)]

theorem Sim.deepCopy (h : Sim f Q σ τ) (n : Nat) {rs : List Ref} (hr : ∀ r ∈ rs, RefOk Q r) : deepCopy τ n (rs.map (Ref.ren f)) = deepCopy σ n rs := by
  unfold Verif.deepCopy
  rw [mapM_ren fun r hm => h.contents n r (hr r hm)]

/-! ### Dictionaries of references -/

theorem renD_lookup (d : List (String × Ref)) (k : String) : (renD f d).lookup k = (d.lookup k).map (Ref.ren f) := by
  induction d with
  | nil => rfl
  | cons p t ih =>
    obtain ⟨k', r⟩ := p
    simp only [renD, List.map_cons, List.lookup_cons] at ih ⊢
    split
    · rfl
    · exact ih

theorem renD_refSet (d : List (String × Ref)) (k : String) (r : Ref) : refSet (renD f d) k (r.ren f) = renD f (refSet d k r) := by
  induction d with
  | nil => rfl
  | cons p t ih =>
    obtain ⟨k', r'⟩ := p
    simp only [renD, List.map_cons, refSet] at ih ⊢
    split
    · rfl
    · simp only [List.map_cons]; rw [ih]

theorem renD_refErase (d : List (String × Ref)) (k : String) : refErase (renD f d) k = renD f (refErase d k) := by
  simp only [refErase, renD, List.filter_map]
  rfl

theorem ren_undefined (r : Ref) : r.ren f = .imm .undefined ↔ r = .imm .undefined := by
  cases r <;> simp [Ref.ren]

theorem renD_defined (d : List (String × Ref)) : refDefined (renD f d) = renD f (refDefined d) := by
  simp only [refDefined, renD, List.filter_map]
  congr 1
  refine List.filter_congr fun p _ => ?_
  simp [ren_undefined]

/-- The defaults are immutable. -/
def Imm (g : String → Ref) : Prop := ∀ name, ∃ v, g name = .imm v

theorem Imm.ren {g : String → Ref} (h : Imm g) (name : String) : (g name).ren f = g name := by
  obtain ⟨v, hv⟩ := h name
  rw [hv]; rfl

theorem objGet_ren {c : ObjClass} (hc : Imm c.defaults) (vals : List (String × Ref)) (name : String) :
    objGet c (renD f vals) name = (objGet c vals name).map (Ref.ren f) := by
  unfold objGet
  rw [renD_lookup]
  split
  · rfl
  · cases vals.lookup name with
    | some r => rfl
    | none =>
      simp only [Option.map_none]
      split
      · rfl
      · simp only [Except.map]; rw [hc.ren]

theorem objWhatever_ren {c : ObjClass} (hc : Imm c.defaults) (vals : List (String × Ref)) : ∀ (fs : List Field) (acc : List (String × Ref)),
    objWhatever c (renD f vals) fs (renD f acc) = renD f (objWhatever c vals fs acc) := by
  intro fs
  induction fs with
  | nil => intro acc; rfl
  | cons g fs ih =>
    intro acc
    simp only [objWhatever]
    rw [renD_defined, renD_lookup]
    cases (refDefined vals).lookup g.name with
    | some r => simp only [Option.map_some]; rw [renD_refSet, ih]
    | none =>
      simp only [Option.map_none]
      split
      · exact ih acc
      · rw [← ih, ← renD_refSet, hc.ren]

theorem objChain_ren (vals dct : List (String × Ref)) : objChain (renD f vals) (renD f dct) = renD f (objChain vals dct) := by
  have hown : (refDefined (renD f vals)).map (fun p => (p.1, ((renD f dct).lookup p.1).getD p.2)) =
      renD f ((refDefined vals).map fun p => (p.1, (dct.lookup p.1).getD p.2)) := by
    rw [renD_defined]
    simp only [renD, List.map_map]
    refine List.map_congr_left fun p _ => ?_
    simp only [Function.comp]
    have := renD_lookup (f := f) dct p.1
    simp only [renD] at this
    rw [this]
    cases dct.lookup p.1 <;> rfl
  unfold objChain
  simp only
  rw [hown, renD_fst]
  generalize (refDefined vals).map (fun p => (p.1, (dct.lookup p.1).getD p.2)) = own
  simp only [renD, List.map_append, List.filter_map]
  rfl

theorem foldl_refErase_ren (fs : List Field) : ∀ d : List (String × Ref),
    fs.foldl (fun dct g => refErase dct g.name) (renD f d) = renD f (fs.foldl (fun dct g => refErase dct g.name) d) := by
  induction fs with
  | nil => intro d; rfl
  | cons g fs ih => intro d; simp only [List.foldl_cons]; rw [renD_refErase, ih]

theorem objShallow_ren {c : ObjClass} (hc : Imm c.defaults) (vals : List (String × Ref)) (keep : Bool) :
    objShallow c (renD f vals) keep = (objShallow c vals keep).map (renD f) := by
  unfold objShallow
  simp only
  have h1 : objWhatever c (renD f vals) c.desc.components [] = renD f (objWhatever c vals c.desc.components []) := objWhatever_ren hc vals _ []
  rw [h1, objChain_ren]
  generalize objChain vals (objWhatever c vals c.desc.components []) = d
  have h2 : (fun g : Field => ((renD f d).lookup g.name).isNone) = fun g : Field => (d.lookup g.name).isNone := by
    funext g
    rw [renD_lookup]
    simp
  rw [h2]
  split
  · rfl
  · simp only [Except.map]
    split
    · rfl
    · rw [foldl_refErase_ren]

end

/-! ### Operations that create objects -/

/-- Corresponding outcomes. -/
inductive SimOut (f : Nat → Nat) (Q : Nat → Prop) : Except Err (Store × Ref) → Except Err (Store × Ref) → Prop where
  | error (e : Err) : SimOut f Q (.error e) (.error e)
  | ok {f' : Nat → Nat} {Q' : Nat → Prop} {σ' τ' : Store} {r r' : Ref} : Ext f Q f' Q' → Sim f' Q' σ' τ' → RefOk Q' r → r' = r.ren f' →
      SimOut f Q (.ok (σ', r)) (.ok (τ', r'))

inductive SimOuts (f : Nat → Nat) (Q : Nat → Prop) : Except Err (Store × List Ref) → Except Err (Store × List Ref) → Prop where
  | error (e : Err) : SimOuts f Q (.error e) (.error e)
  | ok {f' : Nat → Nat} {Q' : Nat → Prop} {σ' τ' : Store} {rs rs' : List Ref} : Ext f Q f' Q' → Sim f' Q' σ' τ' → (∀ r ∈ rs, RefOk Q' r) →
      rs' = rs.map (Ref.ren f') → SimOuts f Q (.ok (σ', rs)) (.ok (τ', rs'))

theorem Sim.outNew {f : Nat → Nat} {Q : Nat → Prop} {σ τ : Store} (h : Sim f Q σ τ) {o o' : Obj} (ho : ∀ r ∈ refsOf o, RefOk Q r) (he : o' = o.ren f) :
    SimOut f Q (.ok (σ.new o)) (.ok (τ.new o')) := by
  subst he
  obtain ⟨f', Q', h1, h2, h3, h4⟩ := h.new ho
  exact .ok h1 h2 h4 h3

theorem SimOut.mono {f g : Nat → Nat} {P Q : Nat → Prop} (h : Ext f P g Q) {x y : Except Err (Store × Ref)} (hx : SimOut g Q x y) : SimOut f P x y := by
  cases hx with
  | error e => exact .error e
  | ok h1 h2 h3 h4 => exact .ok (h.trans h1) h2 h3 h4

theorem mapRefs_sim {g : Store → Ref → Except Err (Store × Ref)}
    (hg : ∀ f Q σ τ r, Sim f Q σ τ → RefOk Q r → SimOut f Q (g σ r) (g τ (r.ren f))) :
    ∀ rs f Q σ τ, Sim f Q σ τ → (∀ r ∈ rs, RefOk Q r) → SimOuts f Q (mapRefs g σ rs) (mapRefs g τ (rs.map (Ref.ren f))) := by
  intro rs
  induction rs with
  | nil => intro f Q σ τ h _; exact .ok (Ext.refl f Q) h (by simp) rfl
  | cons r rs ih =>
    intro f Q σ τ h hr
    have h1 := hg f Q σ τ r h (hr r List.mem_cons_self)
    simp only [List.map_cons, mapRefs]
    generalize g σ r = x, g τ (r.ren f) = y at h1
    cases h1 with
    | error e => exact .error e
    | @ok f1 Q1 σ1 τ1 r1 r1' e1 s1 o1 w1 =>
      have hr1 : ∀ r ∈ rs, RefOk Q r := fun r hm => hr r (List.mem_cons_of_mem _ hm)
      have h2 := ih f1 Q1 σ1 τ1 s1 fun r hm => e1.ok (hr1 r hm)
      rw [e1.renL hr1] at h2
      simp only
      generalize mapRefs g σ1 rs = x, mapRefs g τ1 (rs.map (Ref.ren f)) = y at h2
      cases h2 with
      | error e => exact .error e
      | @ok f2 Q2 σ2 τ2 rs2 rs2' e2 s2 o2 w2 =>
        refine .ok (e1.trans e2) s2 ?_ ?_
        · intro q hq
          rcases List.mem_cons.1 hq with rfl | hq
          · exact e2.ok o1
          · exact o2 q hq
        · rw [List.map_cons, w1, w2, e2.ren o1]

theorem renD_zip_snd {ks : List String} {rs : List Ref} {Q : Nat → Prop} (h : ∀ r ∈ rs, RefOk Q r) :
    ∀ r ∈ (ks.zip rs).map (·.2), RefOk Q r := fun r hr => h r (zip_snd_mem hr)

theorem ImmutableDefaults.defaults {C : ObjClasses} (hC : ImmutableDefaults C) {cls : String} {c : ObjClass} (hc : C cls = some c) : Imm c.defaults :=
  fun name => (hC cls c hc name).1

theorem ImmutableDefaults.notPresent {C : ObjClasses} (hC : ImmutableDefaults C) {cls : String} {c : ObjClass} (hc : C cls = some c) : Imm c.notPresent :=
  fun name => (hC cls c hc name).2

theorem objShallow_ok {c : ObjClass} (hc : Imm c.defaults) {vals dct : List (String × Ref)} {keep : Bool} {Q : Nat → Prop}
    (hv : ∀ r ∈ vals.map (·.2), RefOk Q r) (h : objShallow c vals keep = .ok dct) : ∀ r ∈ dct.map (·.2), RefOk Q r := by
  have := objShallow_mem (S := RefOk Q) hv (fun name => by
    intro l hl
    obtain ⟨v, hv⟩ := hc name
    rw [hv] at hl; cases hl) h
  intro r hr
  obtain ⟨p, hp, rfl⟩ := List.mem_map.1 hr
  first
  | exact this p hp
  | exact this _ hr

/-- The tail of `to_dict`. -/
theorem dict_sim {g : Store → Ref → Except Err (Store × Ref)}
    (hg : ∀ f Q σ τ r, Sim f Q σ τ → RefOk Q r → SimOut f Q (g σ r) (g τ (r.ren f)))
    {f : Nat → Nat} {Q : Nat → Prop} {σ τ : Store} (h : Sim f Q σ τ) {d : List (String × Ref)} (hd : ∀ r ∈ d.map (·.2), RefOk Q r) :
    SimOut f Q
      (match mapRefs g σ (d.map (·.2)) with
        | .error e => .error e
        | .ok (σ, rs) => .ok (σ.new (.dict ((d.map (·.1)).zip rs))))
      (match mapRefs g τ ((renD f d).map (·.2)) with
        | .error e => .error e
        | .ok (σ, rs) => .ok (σ.new (.dict (((renD f d).map (·.1)).zip rs)))) := by
  have h1 := mapRefs_sim hg (d.map (·.2)) f Q σ τ h hd
  rw [renD_snd, renD_fst]
  generalize mapRefs g σ (d.map (·.2)) = x, mapRefs g τ ((d.map (·.2)).map (Ref.ren f)) = y at h1
  cases h1 with
  | error e => exact .error e
  | @ok f1 Q1 σ1 τ1 rs rs' e1 s1 o1 w1 =>
    refine SimOut.mono e1 (s1.outNew (renD_zip_snd o1) ?_)
    simp only [Obj.ren]
    rw [renD_zip, w1]

theorem objToDicts_sim {C : ObjClasses} (hC : ImmutableDefaults C) : ∀ n f Q σ τ r, Sim f Q σ τ → RefOk Q r →
    SimOut f Q (objToDicts C n σ r) (objToDicts C n τ (r.ren f)) := by
  intro n
  induction n with
  | zero => intro f Q σ τ r _ _; exact .error _
  | succ n ih =>
    intro f Q σ τ r h hr
    cases r with
    | imm v => exact .ok (Ext.refl f Q) h (fun l hl => by cases hl) rfl
    | obj l =>
      obtain ⟨o, h1, h2, h3⟩ := h.get (hr l rfl)
      simp only [Ref.ren, objToDicts]
      rw [h1, h2]
      cases o with
      | bytearray b => exact .ok (Ext.refl f Q) h hr rfl
      | list items =>
        simp only [Obj.ren]
        have h4 := mapRefs_sim ih items f Q σ τ h h3
        generalize mapRefs (objToDicts C n) σ items = x, mapRefs (objToDicts C n) τ (items.map (Ref.ren f)) = y at h4
        cases h4 with
        | error e => exact .error e
        | @ok f1 Q1 σ1 τ1 rs rs' e1 s1 o1 w1 =>
          exact SimOut.mono e1 (s1.outNew o1 (by rw [w1]; rfl))
      | dict items => exact dict_sim ih h h3
      | inst cls vals =>
        simp only [Obj.ren]
        cases hc : C cls with
        | none => exact .error _
        | some c =>
          simp only
          rw [objShallow_ren (ImmutableDefaults.defaults hC hc)]
          cases hs : objShallow c vals false with
          | error e => exact .error _
          | ok dct => exact dict_sim ih h (objShallow_ok (ImmutableDefaults.defaults hC hc) h3 hs)

theorem objToDict_sim {C : ObjClasses} (hC : ImmutableDefaults C) {n : Nat} {c : ObjClass} (hc : Imm c.defaults) {f : Nat → Nat} {Q : Nat → Prop}
    {σ τ : Store} (h : Sim f Q σ τ) {vals : List (String × Ref)} (hv : ∀ r ∈ vals.map (·.2), RefOk Q r) (keep : Bool) :
    SimOut f Q (objToDict C n σ c vals keep) (objToDict C n τ c (renD f vals) keep) := by
  unfold objToDict
  rw [objShallow_ren hc]
  cases hs : objShallow c vals keep with
  | error e => exact .error _
  | ok dct => exact dict_sim (objToDicts_sim hC n) h (objShallow_ok hc hv hs)

/-- Corresponding outcomes of building something. -/
structure Built (f : Nat → Nat) (Q : Nat → Prop) (f' : Nat → Nat) (Q' : Nat → Prop) (σ' τ' : Store) : Prop where
  ext : Ext f Q f' Q'
  sim : Sim f' Q' σ' τ'

theorem Sim.built {f : Nat → Nat} {Q : Nat → Prop} {σ τ : Store} (h : Sim f Q σ τ) : Built f Q f Q σ τ := ⟨Ext.refl f Q, h⟩

mutual
theorem build_sim : ∀ (v : Value) (f : Nat → Nat) (Q : Nat → Prop) (σ τ : Store), Sim f Q σ τ →
    ∃ f' Q', Built f Q f' Q' (Store.build σ v).1 (Store.build τ v).1 ∧ RefOk Q' (Store.build σ v).2 ∧
      (Store.build τ v).2 = (Store.build σ v).2.ren f'
  | .list l, f, Q, σ, τ, h => by
    obtain ⟨f1, Q1, ⟨e1, s1⟩, o1, w1⟩ := buildList_sim l f Q σ τ h
    simp only [Store.build]
    obtain ⟨f2, Q2, e2, s2, w2, o2⟩ := s1.new (o := .list (Store.buildList σ l).2) o1
    rw [w1]
    exact ⟨f2, Q2, ⟨e1.trans e2, s2⟩, o2, w2⟩
  | .dict d, f, Q, σ, τ, h => by
    obtain ⟨f1, Q1, ⟨e1, s1⟩, o1, w1⟩ := buildDict_sim d f Q σ τ h
    simp only [Store.build]
    obtain ⟨f2, Q2, e2, s2, w2, o2⟩ := s1.new (o := .dict (Store.buildDict σ d).2) o1
    rw [w1]
    exact ⟨f2, Q2, ⟨e1.trans e2, s2⟩, o2, w2⟩
  | .struct cls vals, f, Q, σ, τ, h => by
    obtain ⟨f1, Q1, ⟨e1, s1⟩, o1, w1⟩ := buildDict_sim vals f Q σ τ h
    simp only [Store.build]
    obtain ⟨f2, Q2, e2, s2, w2, o2⟩ := s1.new (o := .inst cls (Store.buildDict σ vals).2) o1
    rw [w1]
    exact ⟨f2, Q2, ⟨e1.trans e2, s2⟩, o2, w2⟩
  | .none, f, Q, σ, τ, h => ⟨f, Q, h.built, fun l hl => (by cases hl), rfl⟩
  | .notPresent, f, Q, σ, τ, h => ⟨f, Q, h.built, fun l hl => (by cases hl), rfl⟩
  | .undefined, f, Q, σ, τ, h => ⟨f, Q, h.built, fun l hl => (by cases hl), rfl⟩
  | .dflt, f, Q, σ, τ, h => ⟨f, Q, h.built, fun l hl => (by cases hl), rfl⟩
  | .int _, f, Q, σ, τ, h => ⟨f, Q, h.built, fun l hl => (by cases hl), rfl⟩
  | .bytes _, f, Q, σ, τ, h => ⟨f, Q, h.built, fun l hl => (by cases hl), rfl⟩
  | .str _, f, Q, σ, τ, h => ⟨f, Q, h.built, fun l hl => (by cases hl), rfl⟩
  | .float _, f, Q, σ, τ, h => ⟨f, Q, h.built, fun l hl => (by cases hl), rfl⟩
  | .uuid _, f, Q, σ, τ, h => ⟨f, Q, h.built, fun l hl => (by cases hl), rfl⟩
  | .datetime _ _, f, Q, σ, τ, h => ⟨f, Q, h.built, fun l hl => (by cases hl), rfl⟩
  | .iter _, f, Q, σ, τ, h => ⟨f, Q, h.built, fun l hl => (by cases hl), rfl⟩
theorem buildList_sim : ∀ (vs : List Value) (f : Nat → Nat) (Q : Nat → Prop) (σ τ : Store), Sim f Q σ τ →
    ∃ f' Q', Built f Q f' Q' (Store.buildList σ vs).1 (Store.buildList τ vs).1 ∧ (∀ r ∈ (Store.buildList σ vs).2, RefOk Q' r) ∧
      (Store.buildList τ vs).2 = (Store.buildList σ vs).2.map (Ref.ren f')
  | [], f, Q, σ, τ, h => ⟨f, Q, h.built, (by simp [Store.buildList]), rfl⟩
  | v :: vs, f, Q, σ, τ, h => by
    obtain ⟨f1, Q1, ⟨e1, s1⟩, o1, w1⟩ := build_sim v f Q σ τ h
    obtain ⟨f2, Q2, ⟨e2, s2⟩, o2, w2⟩ := buildList_sim vs f1 Q1 _ _ s1
    simp only [Store.buildList]
    refine ⟨f2, Q2, ⟨e1.trans e2, s2⟩, ?_, ?_⟩
    · intro q hq
      rcases List.mem_cons.1 hq with rfl | hq
      · exact e2.ok o1
      · exact o2 q hq
    · rw [List.map_cons, w1, w2, e2.ren o1]
theorem buildDict_sim : ∀ (vs : List (String × Value)) (f : Nat → Nat) (Q : Nat → Prop) (σ τ : Store), Sim f Q σ τ →
    ∃ f' Q', Built f Q f' Q' (Store.buildDict σ vs).1 (Store.buildDict τ vs).1 ∧ (∀ r ∈ (Store.buildDict σ vs).2.map (·.2), RefOk Q' r) ∧
      (Store.buildDict τ vs).2 = renD f' (Store.buildDict σ vs).2
  | [], f, Q, σ, τ, h => ⟨f, Q, h.built, (by simp [Store.buildDict]), rfl⟩
  | (k, v) :: vs, f, Q, σ, τ, h => by
    obtain ⟨f1, Q1, ⟨e1, s1⟩, o1, w1⟩ := build_sim v f Q σ τ h
    obtain ⟨f2, Q2, ⟨e2, s2⟩, o2, w2⟩ := buildDict_sim vs f1 Q1 _ _ s1
    simp only [Store.buildDict]
    refine ⟨f2, Q2, ⟨e1.trans e2, s2⟩, ?_, ?_⟩
    · intro q hq
      rw [List.map_cons] at hq
      rcases List.mem_cons.1 hq with rfl | hq
      · exact e2.ok o1
      · exact o2 q hq
    · rw [w1, w2]
      simp only [renD, List.map_cons]
      rw [e2.ren o1]
end

theorem buildFields_sim {c : ObjClass} (hc : Imm c.notPresent) {absent : List String} : ∀ (vs : Dict) (f : Nat → Nat) (Q : Nat → Prop) (σ τ : Store),
    Sim f Q σ τ → ∃ f' Q', Built f Q f' Q' (Store.buildFields c absent σ vs).1 (Store.buildFields c absent τ vs).1 ∧
      (∀ r ∈ (Store.buildFields c absent σ vs).2.map (·.2), RefOk Q' r) ∧
      (Store.buildFields c absent τ vs).2 = renD f' (Store.buildFields c absent σ vs).2 := by
  intro vs
  induction vs with
  | nil => intro f Q σ τ h; exact ⟨f, Q, h.built, by simp [Store.buildFields], rfl⟩
  | cons p vs ih =>
    obtain ⟨k, v⟩ := p
    intro f Q σ τ h
    simp only [Store.buildFields]
    split
    · obtain ⟨f2, Q2, b2, o2, w2⟩ := ih f Q σ τ h
      refine ⟨f2, Q2, b2, ?_, ?_⟩
      · intro q hq
        simp only [List.map_cons] at hq
        rcases List.mem_cons.1 hq with rfl | hq
        · intro l hl
          obtain ⟨v, hv⟩ := hc k
          rw [hv] at hl; cases hl
        · exact o2 q hq
      · simp only [w2, renD, List.map_cons]
        rw [hc.ren]
    · obtain ⟨f1, Q1, ⟨e1, s1⟩, o1, w1⟩ := build_sim v f Q σ τ h
      obtain ⟨f2, Q2, ⟨e2, s2⟩, o2, w2⟩ := ih f1 Q1 _ _ s1
      refine ⟨f2, Q2, ⟨e1.trans e2, s2⟩, ?_, ?_⟩
      · intro q hq
        simp only [List.map_cons] at hq
        rcases List.mem_cons.1 hq with rfl | hq
        · exact e2.ok o1
        · exact o2 q hq
      · simp only [w1, w2, renD, List.map_cons]
        rw [e2.ren o1]

theorem objFromStream_sim {C : ObjClasses} {n : Nat} {c : ObjClass} (hc : Imm c.notPresent) {f : Nat → Nat} {Q : Nat → Prop} {σ τ : Store}
    (h : Sim f Q σ τ) (s : Stream) (ctx : Value) (kw : Dict) :
    SimOut f Q (objFromStream C n σ c s ctx kw) (objFromStream C n τ c s ctx kw) := by
  unfold objFromStream
  split
  · exact .error _
  · split
    · exact .error _
    · split
      · exact .error _
      · rename_i results absent _ _ vals _ _ _ _
        obtain ⟨f1, Q1, ⟨e1, s1⟩, o1, w1⟩ := buildFields_sim hc (absent := absent) (dropDiscarded c.desc vals) f Q σ τ h
        refine SimOut.mono e1 (s1.outNew (o := .inst c.desc.name (Store.buildFields c absent σ (dropDiscarded c.desc vals)).2) o1 ?_)
        rw [w1]
        rfl

/-! ### Commands -/

section
variable {f : Nat → Nat} {Q : Nat → Prop} {σ τ : Store} {vars : List Ref}

theorem variables_ren (vars : List Ref) (xs : List Nat) : variables (vars.map (Ref.ren f)) xs = (variables vars xs).map (List.map (Ref.ren f)) := by
  have h : xs.mapM ((vars.map (Ref.ren f))[·]?) = (xs.mapM (vars[·]?)).map (List.map (Ref.ren f)) := by
    induction xs with
    | nil => rfl
    | cons x xs ih =>
      simp only [List.mapM_cons]
      rw [ih, List.getElem?_map]
      cases vars[x]? with
      | none => rfl
      | some r => cases xs.mapM (vars[·]?) <;> rfl
  unfold variables
  rw [h]
  cases xs.mapM (vars[·]?) <;> rfl

theorem objectOf_ren (h : Sim f Q σ τ) (hv : ∀ r ∈ vars, RefOk Q r) (x : Nat) :
    objectOf τ (vars.map (Ref.ren f)) x = (objectOf σ vars x).map fun p => (f p.1, p.2.ren f) := by
  unfold objectOf
  rw [List.getElem?_map]
  cases hx : vars[x]? with
  | none => rfl
  | some r =>
    cases r with
    | imm v => rfl
    | obj l =>
      obtain ⟨o, h1, h2, h3⟩ := h.get (hv _ (List.mem_of_getElem? hx) l rfl)
      simp only [Option.map_some, Ref.ren]
      rw [h1, h2]
      rfl

theorem instanceOf_ren {C : ObjClasses} (h : Sim f Q σ τ) (hv : ∀ r ∈ vars, RefOk Q r) (x : Nat) :
    instanceOf C τ (vars.map (Ref.ren f)) x = (instanceOf C σ vars x).map fun p => (f p.1, p.2.1, p.2.2.1, renD f p.2.2.2) := by
  unfold instanceOf
  rw [objectOf_ren h hv]
  cases objectOf σ vars x with
  | error e => rfl
  | ok p =>
    obtain ⟨l, o⟩ := p
    cases o with
    | inst cls vals =>
      simp only [Except.map, Obj.ren]
      cases C cls <;> rfl
    | _ => rfl

theorem valuesOf_ren {C : ObjClasses} {n : Nat} (h : Sim f Q σ τ) (hv : ∀ r ∈ vars, RefOk Q r) (x : Nat) :
    valuesOf C n τ (vars.map (Ref.ren f)) x = valuesOf C n σ vars x := by
  unfold valuesOf
  rw [instanceOf_ren h hv]
  cases hi : instanceOf C σ vars x with
  | error e => rfl
  | ok p =>
    obtain ⟨l, cls, c, vals⟩ := p
    obtain ⟨h3, -, -⟩ := instanceOf_ok hi
    have := h.contents n (.obj l) (hv _ h3)
    simp only [Ref.ren] at this
    simp only [Except.map]
    rw [this]

theorem objectOf_sim (h : Sim f Q σ τ) (hv : ∀ r ∈ vars, RefOk Q r) {x l : Nat} {o : Obj} (ho : objectOf σ vars x = .ok (l, o)) :
    Q l ∧ ∀ r ∈ refsOf o, RefOk Q r := by
  obtain ⟨h1, h2⟩ := objectOf_ok ho
  have hl := hv _ h1 l rfl
  exact ⟨hl, h.closed l o hl h2⟩

theorem Sim.outSame (h : Sim f Q σ τ) {r r' : Ref} (hr : RefOk Q r) (he : r' = r.ren f) : SimOut f Q (.ok (σ, r)) (.ok (τ, r')) :=
  .ok (Ext.refl f Q) h hr he

theorem Sim.outSet (h : Sim f Q σ τ) {l : Nat} (hl : Q l) {o o' : Obj} (ho : ∀ r ∈ refsOf o, RefOk Q r) (he : o' = o.ren f) (v : Value) :
    SimOut f Q (.ok (σ.set l o, .imm v)) (.ok (τ.set (f l) o', .imm v)) := by
  subst he
  exact .ok (Ext.refl f Q) (h.set hl ho) (fun l hl => by cases hl) rfl

theorem headD_ren (rs : List Ref) : (rs.map (Ref.ren f)).headD (.imm .none) = (rs.headD (.imm .none)).ren f := by cases rs <;> rfl

theorem headD_ok {rs : List Ref} (h : ∀ r ∈ rs, RefOk Q r) : RefOk Q (rs.headD (.imm .none)) := by
  cases rs with
  | nil => intro l hl; cases hl
  | cons r rs => exact h r List.mem_cons_self

theorem refSet_ok {d : List (String × Ref)} {k : String} {r : Ref} (hd : ∀ r ∈ d.map (·.2), RefOk Q r) (hr : RefOk Q r) :
    ∀ r' ∈ (refSet d k r).map (·.2), RefOk Q r' := by
  intro r' hr'
  obtain ⟨p, hp, rfl⟩ := List.mem_map.1 hr'
  rcases refSet_mem hp with hp | hp
  · exact hd _ (List.mem_map.2 ⟨p, hp, rfl⟩)
  · rw [hp]; exact hr

theorem imm_ok (v : Value) : RefOk Q (.imm v) := fun l hl => by cases hl

/-- A command does the same wherever the objects are. -/
theorem Cmd.sim {C : ObjClasses} (hC : ImmutableDefaults C) {n : Nat} (h : Sim f Q σ τ) (hv : ∀ r ∈ vars, RefOk Q r) (cmd : Cmd) :
    SimOut f Q (cmd.run C n σ vars) (cmd.run C n τ (vars.map (Ref.ren f))) := by
  have hvars : ∀ {xs rs}, variables vars xs = .ok rs → ∀ r ∈ rs, RefOk Q r := fun h1 r hr => hv r (variables_mem h1 r hr)
  cases cmd with
  | const v => exact h.outSame (imm_ok v) rfl
  | newList xs =>
    simp only [Cmd.run]
    rw [variables_ren]
    cases h1 : variables vars xs with
    | error e => exact .error _
    | ok rs => exact h.outNew (o := .list rs) (hvars h1) rfl
  | newDict kvs =>
    simp only [Cmd.run]
    rw [variables_ren]
    cases h1 : variables vars (kvs.map (·.2)) with
    | error e => exact .error _
    | ok rs => exact h.outNew (o := .dict ((kvs.map (·.1)).zip rs)) (renD_zip_snd (hvars h1)) (by simp only [Obj.ren]; rw [renD_zip])
  | newBytearray b => exact h.outNew (o := .bytearray b) (by simp [refsOf]) rfl
  | item x i =>
    simp only [Cmd.run]
    rw [objectOf_ren h hv]
    cases h1 : objectOf σ vars x with
    | error e => exact .error _
    | ok p =>
      obtain ⟨l, o⟩ := p
      obtain ⟨hl, ho⟩ := objectOf_sim h hv h1
      cases o with
      | list items =>
        show SimOut f Q (match items[i]? with | some r => pure (σ, r) | none => throw (.user "IndexError"))
          (match (items.map (Ref.ren f))[i]? with | some r => pure (τ, r) | none => throw (.user "IndexError"))
        rw [List.getElem?_map]
        cases hi : items[i]? with
        | none => exact .error _
        | some r => exact h.outSame (ho r (List.mem_of_getElem? hi)) rfl
      | _ => exact .error _
  | entry x k =>
    simp only [Cmd.run]
    rw [objectOf_ren h hv]
    cases h1 : objectOf σ vars x with
    | error e => exact .error _
    | ok p =>
      obtain ⟨l, o⟩ := p
      obtain ⟨hl, ho⟩ := objectOf_sim h hv h1
      cases o with
      | dict items =>
        show SimOut f Q (match items.lookup k with | some r => pure (σ, r) | none => throw (.keyErr k))
          (match (renD f items).lookup k with | some r => pure (τ, r) | none => throw (.keyErr k))
        rw [renD_lookup]
        cases hi : items.lookup k with
        | none => exact .error _
        | some r => exact h.outSame (ho r (lookup_mem hi)) rfl
      | _ => exact .error _
  | append x y =>
    simp only [Cmd.run]
    rw [variables_ren, objectOf_ren h hv]
    cases h0 : variables vars [y] with
    | error e => exact .error _
    | ok rs =>
      cases h1 : objectOf σ vars x with
      | error e => exact .error _
      | ok p =>
        obtain ⟨l, o⟩ := p
        obtain ⟨hl, ho⟩ := objectOf_sim h hv h1
        cases o with
        | list items =>
          refine h.outSet (o := .list (items ++ rs)) hl ?_ (by simp [Obj.ren]) .none
          intro r hr
          rcases List.mem_append.1 hr with hr | hr
          · exact ho r hr
          · exact hvars h0 r hr
        | _ => exact .error _
  | setItem x i y =>
    simp only [Cmd.run]
    rw [variables_ren, objectOf_ren h hv]
    cases h0 : variables vars [y] with
    | error e => exact .error _
    | ok rs =>
      cases h1 : objectOf σ vars x with
      | error e => exact .error _
      | ok p =>
        obtain ⟨l, o⟩ := p
        obtain ⟨hl, ho⟩ := objectOf_sim h hv h1
        cases o with
        | list items =>
          refine h.outSet (o := .list (items.set i (rs.headD (.imm .none)))) hl ?_ (by simp only [Obj.ren]; rw [headD_ren, List.map_set]) .none
          intro r hr
          rcases List.mem_or_eq_of_mem_set hr with hr | rfl
          · exact ho r hr
          · exact headD_ok (hvars h0)
        | _ => exact .error _
  | setEntry x k y =>
    simp only [Cmd.run]
    rw [variables_ren, objectOf_ren h hv]
    cases h0 : variables vars [y] with
    | error e => exact .error _
    | ok rs =>
      cases h1 : objectOf σ vars x with
      | error e => exact .error _
      | ok p =>
        obtain ⟨l, o⟩ := p
        obtain ⟨hl, ho⟩ := objectOf_sim h hv h1
        cases o with
        | dict items =>
          refine h.outSet (o := .dict (refSet items k (rs.headD (.imm .none)))) hl (refSet_ok ho (headD_ok (hvars h0))) ?_ .none
          simp only [Obj.ren]
          rw [headD_ren, renD_refSet]
        | _ => exact .error _
  | setByte x i b =>
    simp only [Cmd.run]
    rw [objectOf_ren h hv]
    cases h1 : objectOf σ vars x with
    | error e => exact .error _
    | ok p =>
      obtain ⟨l, o⟩ := p
      obtain ⟨hl, ho⟩ := objectOf_sim h hv h1
      cases o with
      | bytearray bs => exact h.outSet (o := .bytearray (bs.set i b)) hl (by simp [refsOf]) rfl .none
      | _ => exact .error _
  | construct cls kvs =>
    simp only [Cmd.run]
    rw [variables_ren]
    cases h1 : variables vars (kvs.map (·.2)) with
    | error e => exact .error _
    | ok rs =>
      show SimOut f Q (match C cls with | none => _ | some c => _) (match C cls with | none => _ | some c => _)
      cases C cls with
      | none => exact .error _
      | some c =>
        simp only
        split
        · exact .error _
        · exact h.outNew (o := .inst cls ((kvs.map (·.1)).zip rs)) (renD_zip_snd (hvars h1)) (by simp only [Obj.ren]; rw [renD_zip])
  | get x name =>
    simp only [Cmd.run]
    rw [instanceOf_ren h hv]
    cases h1 : instanceOf C σ vars x with
    | error e => exact .error _
    | ok p =>
      obtain ⟨l, cls, c, vals⟩ := p
      obtain ⟨h3, h4, h5⟩ := instanceOf_ok h1
      have ho := h.closed l _ (hv _ h3 l rfl) h4
      have hd := ImmutableDefaults.defaults hC h5
      show SimOut f Q (objGet c vals name >>= fun r => pure (σ, r)) (objGet c (renD f vals) name >>= fun r => pure (τ, r))
      rw [objGet_ren hd]
      cases h2 : objGet c vals name with
      | error e => exact .error _
      | ok r =>
        refine h.outSame ?_ rfl
        simp only [objGet] at h2
        split at h2
        · cases h2
        · split at h2
          · rename_i r1 hr1
            cases h2
            exact ho _ (lookup_mem hr1)
          · split at h2
            · cases h2
            · cases h2
              obtain ⟨v, hv⟩ := hd name
              rw [hv]
              exact imm_ok v
  | set x name y =>
    simp only [Cmd.run]
    rw [variables_ren, instanceOf_ren h hv]
    cases h0 : variables vars [y] with
    | error e => exact .error _
    | ok rs =>
      cases h1 : instanceOf C σ vars x with
      | error e => exact .error _
      | ok p =>
        obtain ⟨l, cls, c, vals⟩ := p
        obtain ⟨h3, h4, h5⟩ := instanceOf_ok h1
        have hl := hv _ h3 l rfl
        have ho := h.closed l _ hl h4
        simp only [Except.map, bind, Except.bind]
        rw [h.deepCopy n (hvars h0)]
        cases deepCopy σ n rs with
        | error e => exact .error _
        | ok vs =>
          simp only
          cases c.desc.find? name with
          | none => exact .error _
          | some g =>
            simp only
            split
            · exact .error _
            · cases runValidators g.base.validators (vs.headD .none) with
              | error e => exact .error _
              | ok _ =>
                refine h.outSet (o := .inst cls (refSet vals name (rs.headD (.imm .none)))) hl (refSet_ok ho (headD_ok (hvars h0))) ?_ .none
                simp only [Obj.ren]
                rw [headD_ren, renD_refSet]
  | del x name =>
    simp only [Cmd.run]
    rw [instanceOf_ren h hv]
    cases h1 : instanceOf C σ vars x with
    | error e => exact .error _
    | ok p =>
      obtain ⟨l, cls, c, vals⟩ := p
      obtain ⟨h3, h4, h5⟩ := instanceOf_ok h1
      have hl := hv _ h3 l rfl
      have ho := h.closed l _ hl h4
      simp only [Except.map, bind, Except.bind]
      split
      · exact .error _
      · refine h.outSet (o := .inst cls (refErase vals name)) hl ?_ (by simp only [Obj.ren]; rw [renD_refErase]) .none
        intro r hr
        obtain ⟨q, hq, rfl⟩ := List.mem_map.1 hr
        exact ho _ (List.mem_map.2 ⟨q, refErase_mem hq, rfl⟩)
  | toDict x keep =>
    simp only [Cmd.run]
    rw [instanceOf_ren h hv]
    cases h1 : instanceOf C σ vars x with
    | error e => exact .error _
    | ok p =>
      obtain ⟨l, cls, c, vals⟩ := p
      obtain ⟨h3, h4, h5⟩ := instanceOf_ok h1
      exact objToDict_sim hC (ImmutableDefaults.defaults hC h5) h (h.closed l _ (hv _ h3 l rfl) h4) keep
  | load cls s ctx kvs =>
    simp only [Cmd.run]
    rw [variables_ren]
    cases h0 : variables vars (kvs.map (·.2)) with
    | error e => exact .error _
    | ok rs =>
      simp only [Except.map, bind, Except.bind]
      rw [h.deepCopy n (hvars h0)]
      cases deepCopy σ n rs with
      | error e => exact .error _
      | ok vs =>
        simp only
        cases hc : C cls with
        | none => exact .error _
        | some c => exact objFromStream_sim (ImmutableDefaults.notPresent hC hc) h s ctx _
  | toBytes x ctx =>
    simp only [Cmd.run]
    rw [valuesOf_ren h hv]
    cases valuesOf C n σ vars x with
    | error e => exact .error _
    | ok p =>
      simp only [bind, Except.bind]
      cases structToBytes C.descs n p.2.1.desc p.2.2 ctx with
      | error e => exact .error _
      | ok b => exact h.outSame (imm_ok _) rfl
  | len x =>
    simp only [Cmd.run]
    rw [valuesOf_ren h hv]
    cases valuesOf C n σ vars x with
    | error e => exact .error _
    | ok p =>
      simp only [bind, Except.bind]
      cases structLen C.descs n p.2.1.desc p.2.2 with
      | error e => exact .error _
      | ok b => exact h.outSame (imm_ok _) rfl
  | equal x y =>
    simp only [Cmd.run]
    rw [variables_ren]
    cases h0 : variables vars [x, y] with
    | error e => exact .error _
    | ok rs =>
      simp only [Except.map, bind, Except.bind]
      rw [h.deepCopy n (hvars h0)]
      cases deepCopy σ n rs with
      | error e => exact .error _
      | ok vs =>
        simp only
        cases pyEq C.descs n (vs.headD .none) (vs.getD 1 .none) with
        | error e => exact .error _
        | ok b => exact h.outSame (imm_ok _) rfl
  | validate x =>
    simp only [Cmd.run]
    rw [valuesOf_ren h hv]
    cases valuesOf C n σ vars x with
    | error e => exact .error _
    | ok p =>
      simp only [bind, Except.bind]
      cases validateContents p.2.1.desc p.2.2 with
      | error e => exact .error _
      | ok b => exact h.outSame (imm_ok _) rfl

end

end Verif
