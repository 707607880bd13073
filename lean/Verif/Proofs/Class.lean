import Verif.Spec.Class
import Verif.Spec.Struct

/-!
# Lemmas about class declarations
-/

namespace Verif
open Spec

theorem withBase_base (f : Field) (b : FieldBase) : (f.withBase b).base = b := by cases f <;> rfl

theorem withBase_withBase (f : Field) (a b : FieldBase) : (f.withBase a).withBase b = f.withBase b := by cases f <;> rfl

theorem withBase_self (f : Field) : f.withBase f.base = f := by cases f <;> rfl

theorem setEndian_base (f : Field) (e : Endian) : (f.setEndian e).base = f.base := by
  cases f with
  | leaf b k => cases k <;> rfl
  | _ => rfl

/-- What binding a field does. -/
theorem bindToContainer_ok {defaults : List (String × Endian)} {f g : Field} {name : String} {index : Nat}
    {offset : Option Int} (h : bindToContainer defaults f name index offset = .ok g) :
    (f.name = "" ∨ f.name = name) ∧
    ∃ f', f' = f.withBase { f.base with name := name, index := index, offset := offset } ∧
      ((∃ e, overridingDefault f'.base defaults "endian" = some e ∧ g = f'.setEndian e) ∨
        (overridingDefault f'.base defaults "endian" = none ∧ g = f')) := by
  unfold bindToContainer maybeAssignName at h
  have key : ∀ f1 : Field, f1 = f.withBase { f.base with name := name } →
      (match overridingDefault (f1.withBase { f1.base with index := index, offset := offset }).base defaults "endian" with
        | some e => Except.ok ((f1.withBase { f1.base with index := index, offset := offset }).setEndian e)
        | none => .ok (f1.withBase { f1.base with index := index, offset := offset })) = (.ok g : Except Err Field) →
      ∃ f', f' = f.withBase { f.base with name := name, index := index, offset := offset } ∧
      ((∃ e, overridingDefault f'.base defaults "endian" = some e ∧ g = f'.setEndian e) ∨
        (overridingDefault f'.base defaults "endian" = none ∧ g = f')) := by
    rintro f1 rfl hm
    cases f <;>
    · refine ⟨_, rfl, ?_⟩
      split at hm
      · rename_i e he; cases hm; exact Or.inl ⟨e, he, rfl⟩
      · rename_i he; cases hm; exact Or.inr ⟨he, rfl⟩
  split at h
  · simp at h
  · rename_i f1 hf1
    split at hf1
    · rename_i hn
      cases hf1
      exact ⟨Or.inl hn, key _ rfl h⟩
    · split at hf1
      · simp at hf1
      · rename_i h1 h2
        cases hf1
        have hn : f.name = name := (Decidable.not_not.1 h2).symm
        refine ⟨Or.inr hn, key f ?_ h⟩
        rw [← hn]
        exact (withBase_self f).symm

theorem bindToContainer_after {defaults : List (String × Endian)} {f g : Field} {name : String} {index : Nat}
    {offset : Option Int} (h : bindToContainer defaults f name index offset = .ok g) :
    After g f name ∧ g.name = name ∧ g.base.size = f.base.size ∧ g.base.offset = offset ∧ g.base.index = index := by
  obtain ⟨h1, f', rfl, h2⟩ := bindToContainer_ok h
  rcases h2 with ⟨e, _, rfl⟩ | ⟨_, rfl⟩
  · refine ⟨⟨h1, index, offset, Or.inr ⟨e, rfl⟩⟩, ?_⟩
    simp [Field.name, setEndian_base, withBase_base]
  · refine ⟨⟨h1, index, offset, Or.inl rfl⟩, ?_⟩
    simp [Field.name, withBase_base]

/-- What `collect_assigned_fields` does to the fields of a class body: `Binds defaults own before offset after`. -/
inductive Binds (defaults : List (String × Endian)) : List (String × Field) → List Field → Option Int → List Field → Prop where
  | nil (comps : List Field) (offset : Option Int) : Binds defaults [] comps offset []
  | cons {name : String} {f g : Field} {own : List (String × Field)} {comps out : List Field} {offset : Option Int} :
      (∀ c ∈ comps, c.name ≠ name) → bindToContainer defaults f name comps.length offset = .ok g →
      Binds defaults own (comps ++ [g]) (nextOffset offset g.base.size) out →
      Binds defaults ((name, f) :: own) comps offset (g :: out)

theorem collect_ok {defaults : List (String × Endian)} {body : List (String × ClassItem)} {comps out : List Field}
    {offset : Option Int} {k m : Nat} (h : collectAssignedFields defaults body comps offset k = .ok (out, m)) :
    ∃ new, out = comps ++ new ∧ m = k + (ownFields body).length ∧ Binds defaults (ownFields body) comps offset new := by
  induction body generalizing comps offset k with
  | nil =>
    simp only [collectAssignedFields] at h
    cases h
    exact ⟨[], by simp, rfl, .nil _ _⟩
  | cons item items ih =>
    obtain ⟨name, it⟩ := item
    cases it with
    | field f =>
      simp only [collectAssignedFields] at h
      split at h
      · simp at h
      · rename_i hn
        split at h
        · simp at h
        · rename_i g hg
          obtain ⟨new, h1, h2, h3⟩ := ih h
          refine ⟨g :: new, by simp [h1], by simp [ownFields, h2]; omega, .cons ?_ hg h3⟩
          intro c hc hcn
          apply hn
          rw [List.any_eq_true]
          exact ⟨c, hc, by simp [hcn]⟩
    | validator names fn => simp only [collectAssignedFields] at h; exact ih h
    | structValidator fn => simp only [collectAssignedFields] at h; exact ih h

/-- Conversely. -/
theorem collect_of_binds {defaults : List (String × Endian)} {body : List (String × ClassItem)} {comps new : List Field}
    {offset : Option Int} {k : Nat} (h : Binds defaults (ownFields body) comps offset new) :
    collectAssignedFields defaults body comps offset k = .ok (comps ++ new, k + (ownFields body).length) := by
  induction body generalizing comps offset k new with
  | nil =>
    cases h
    simp [collectAssignedFields, ownFields]
  | cons item items ih =>
    obtain ⟨name, it⟩ := item
    cases it with
    | field f =>
      cases h with
      | cons h1 h2 h3 =>
        simp only [collectAssignedFields]
        rw [if_neg, h2]
        · simp only
          rw [ih h3]
          simp [ownFields]
          omega
        · intro hc
          obtain ⟨c, hc1, hc2⟩ := List.any_eq_true.1 hc
          exact h1 c hc1 (by simpa using hc2)
    | validator names fn => simp only [collectAssignedFields]; exact ih h
    | structValidator fn => simp only [collectAssignedFields]; exact ih h

theorem Binds.names {defaults : List (String × Endian)} {own : List (String × Field)} {comps out : List Field}
    {offset : Option Int} (h : Binds defaults own comps offset out) : out.map Field.name = own.map (·.1) := by
  induction h with
  | nil => rfl
  | cons _ h2 _ ih => simp [ih, (bindToContainer_after h2).2.1]

theorem Binds.nodup {defaults : List (String × Endian)} {own : List (String × Field)} {comps out : List Field}
    {offset : Option Int} (h : Binds defaults own comps offset out) (hc : (comps.map Field.name).Nodup) :
    ((comps ++ out).map Field.name).Nodup := by
  induction h with
  | nil => simpa using hc
  | @cons name f g own comps out offset h1 h2 h3 ih =>
    have hg := (bindToContainer_after h2).2.1
    have := ih (by
      rw [List.map_append, List.nodup_append]
      refine ⟨hc, by simp, ?_⟩
      intro a ha b hb
      simp at hb
      obtain ⟨c, hc1, rfl⟩ := List.mem_map.1 ha
      rw [hb, hg]
      exact h1 c hc1)
    simpa using this

theorem Binds.fresh {defaults : List (String × Endian)} {own : List (String × Field)} {comps out : List Field}
    {offset : Option Int} (h : Binds defaults own comps offset out) : ∀ p ∈ own, ∀ c ∈ comps, c.name ≠ p.1 := by
  induction h with
  | nil => simp
  | cons h1 h2 _ ih =>
    intro p hp c hc
    rcases List.mem_cons.1 hp with rfl | hp
    · exact h1 c hc
    · exact ih p hp c (List.mem_append_left _ hc)

theorem Binds.get {defaults : List (String × Endian)} {own : List (String × Field)} {comps out : List Field}
    {offset : Option Int} (h : Binds defaults own comps offset out) {i : Nat} {p : String × Field} (hp : own[i]? = some p) :
    ∃ g index offset, out[i]? = some g ∧ bindToContainer defaults p.2 p.1 index offset = .ok g := by
  induction h generalizing i with
  | nil => simp at hp
  | cons _ h2 _ ih =>
    cases i with
    | zero => simp at hp; subst hp; exact ⟨_, _, _, rfl, h2⟩
    | succ i => exact ih (by simpa using hp)

/-- Offsets: the running sum. -/
theorem Binds.offsets {defaults : List (String × Endian)} {own : List (String × Field)} {comps out : List Field}
    {offset : Option Int} (h : Binds defaults own comps offset out) {pre post : List Field} {g : Field}
    (hg : out = pre ++ g :: post) :
    g.base.offset = (offset.bind fun o => (total (sizes pre)).map (o + ·)) ∧ g.base.index = comps.length + pre.length := by
  induction h generalizing pre with
  | nil => simp at hg
  | @cons name f g' own comps out offset h1 h2 h3 ih =>
    obtain ⟨-, -, -, h5, h6⟩ := bindToContainer_after h2
    cases pre with
    | nil =>
      simp at hg
      rw [← hg.1, h5, h6]
      cases offset <;> simp [total, sizes]
    | cons p pre =>
      simp at hg
      obtain ⟨rfl, hg⟩ := hg
      have := ih hg
      refine ⟨?_, by rw [this.2]; simp; omega⟩
      rw [this.1]
      cases offset with
      | none => simp [nextOffset]
      | some o =>
        cases hs : g'.base.size with
        | none => simp [nextOffset, sizes, total, hs]
        | ref r => simp [nextOffset, sizes, total, hs]
        | fixed k =>
          simp only [nextOffset, sizes, total, hs, List.map_cons, Option.bind_some]
          cases total (List.map (fun f => f.base.size) pre) with
          | none => rfl
          | some t => simp; omega

/-! ### Validators -/

theorem lookup_filter_append {α : Type} (l : List (String × α)) (name : String) (x : α) (k : String) :
    (l.filter (fun p => decide (p.1 ≠ name)) ++ [(name, x)]).lookup k = if k = name then some x else l.lookup k := by
  induction l with
  | nil =>
    simp [List.lookup]
    by_cases h : k = name
    · simp [h]
    · have : (k == name) = false := by simp [h]
      simp [this, h]
  | cons p l ih =>
    obtain ⟨a, b⟩ := p
    by_cases ha : a = name
    · subst ha
      simp only [ne_eq, not_true_eq_false, decide_false, Bool.false_eq_true, not_false_eq_true, List.filter_cons_of_neg]
      rw [ih]
      by_cases h : k = a
      · simp [h]
      · have : (k == a) = false := by simp [h]
        simp [h, List.lookup_cons, this]
    · simp only [ne_eq, ha, not_false_eq_true, decide_true, List.filter_cons_of_pos, List.cons_append, List.lookup_cons]
      rw [ih]
      by_cases h : k = a
      · subst h; simp [ha]
      · have : (k == a) = false := by simp [h]
        simp [this]

/-- The validator lists before the methods are attached. -/
theorem initialValidators_lookup (inherited : List (String × List (View → Value → Except Err Unit)))
    (body : List (String × ClassItem)) (k : String) :
    (initialValidators inherited body).lookup k =
      if k ∈ (ownFields body).map (·.1) then some [] else inherited.lookup k := by
  unfold initialValidators
  induction body generalizing inherited with
  | nil => simp [ownFields]
  | cons item items ih =>
    obtain ⟨name, it⟩ := item
    cases it with
    | field f =>
      simp only [List.foldl_cons, ownFields, List.map_cons, List.mem_cons]
      rw [ih, lookup_filter_append]
      by_cases h1 : k ∈ (ownFields items).map (·.1)
      · simp only [h1, or_true, if_true]
      · by_cases h2 : k = name
        · subst h2; simp
        · simp only [h1, h2, or_false, if_false]
    | validator names fn => simp only [List.foldl_cons, ownFields]; exact ih inherited
    | structValidator fn => simp only [List.foldl_cons, ownFields]; exact ih inherited

theorem lookup_map_append (fv : List (String × List (View → Value → Except Err Unit))) (name k : String)
    (fn : View → Value → Except Err Unit) :
    (fv.map fun p => if p.1 = name then (p.1, p.2 ++ [fn]) else p).lookup k =
      (fv.lookup k).map fun l => if k = name then l ++ [fn] else l := by
  induction fv with
  | nil => rfl
  | cons p fv ih =>
    obtain ⟨a, l⟩ := p
    by_cases ha : a = name
    · subst ha
      simp only [List.map_cons, if_true, List.lookup_cons]
      by_cases h : k = a
      · simp [h]
      · have : (k == a) = false := by simp [h]
        simp only [this]
        exact ih
    · simp only [List.map_cons, ha, if_false, List.lookup_cons]
      by_cases h : k = a
      · subst h; simp [ha]
      · have : (k == a) = false := by simp [h]
        simp only [this]
        exact ih

theorem any_lookup {α : Type} (fv : List (String × α)) (name : String) :
    fv.any (fun p => decide (p.1 = name)) = (fv.lookup name).isSome := by
  induction fv with
  | nil => rfl
  | cons p fv ih =>
    obtain ⟨a, l⟩ := p
    simp only [List.any_cons, List.lookup_cons]
    by_cases h : name = a
    · subst h; simp
    · have : (name == a) = false := by simp [h]
      have h' : decide (a = name) = false := by simp [Ne.symm h]
      simp only [this, h', Bool.false_or]
      exact ih

theorem appendValidator_ok {fn : View → Value → Except Err Unit} {ns : List String}
    {fv fv' : List (String × List (View → Value → Except Err Unit))} (h : appendValidator fn ns fv = .ok fv') (k : String) :
    fv'.lookup k = (fv.lookup k).map fun l => l ++ (ns.filter (· = k)).map (fun _ => fn) := by
  induction ns generalizing fv with
  | nil => simp only [appendValidator] at h; cases h; simp
  | cons name ns ih =>
    simp only [appendValidator] at h
    split at h
    · rw [ih h, lookup_map_append, Option.map_map]
      congr 1
      funext l
      by_cases hk : k = name
      · subst hk; simp
      · simp [hk, Ne.symm hk]
    · simp at h

theorem bindValidators_ok {body : List (String × ClassItem)}
    {fv fv' : List (String × List (View → Value → Except Err Unit))} {sv sv' : List (View → Except Err Unit)}
    (h : bindValidators body fv sv = .ok (fv', sv')) :
    sv' = sv ++ ownStructValidators body ∧
    ∀ k, fv'.lookup k = (fv.lookup k).map fun l => l ++ ownValidators k body := by
  induction body generalizing fv sv with
  | nil => simp only [bindValidators] at h; cases h; simp [ownStructValidators, ownValidators]
  | cons item items ih =>
    obtain ⟨name, it⟩ := item
    cases it with
    | field f => simp only [bindValidators] at h; exact ih h
    | validator names fn =>
      simp only [bindValidators] at h
      split at h
      · simp at h
      · rename_i fv1 h1
        obtain ⟨h2, h3⟩ := ih h
        refine ⟨h2, fun k => ?_⟩
        rw [h3 k, appendValidator_ok h1 k, Option.map_map]
        congr 1
        funext l
        simp [ownValidators]
    | structValidator fn =>
      simp only [bindValidators] at h
      obtain ⟨h2, h3⟩ := ih h
      exact ⟨by rw [h2]; simp [ownStructValidators], h3⟩

/-- The parts of a class that was declared. -/
theorem fromClassWith_ok {decl : ClassDecl} {comps : List Field}
    {fv : List (String × List (View → Value → Except Err Unit))} {sv : List (View → Except Err Unit)}
    {inherited : Option (List (String × Endian))} {offset : Option Int} {d : StructDesc}
    (h : fromClassWith decl comps fv sv inherited offset = .ok d) :
    d.name = decl.name ∧ d.metaOpts = decl.metaOpts.or inherited ∧ d.argumentDefaults = d.metaOpts.getD [] ∧
    d.structValidators = sv ++ ownStructValidators decl.body ∧
    (∀ k, d.fieldValidators.lookup k =
      ((if k ∈ (ownFields decl.body).map (·.1) then some [] else fv.lookup k).map fun l => l ++ ownValidators k decl.body)) ∧
    ∃ new, d.components = comps ++ new ∧ Binds d.argumentDefaults (ownFields decl.body) comps offset new := by
  unfold fromClassWith at h
  simp only at h
  split at h
  · simp at h
  · rename_i out found hc
    split at h
    · simp at h
    · rename_i fv' sv' hv
      cases h
      obtain ⟨new, h1, _, h3⟩ := collect_ok hc
      obtain ⟨h4, h5⟩ := bindValidators_ok hv
      refine ⟨rfl, rfl, rfl, h4, fun k => ?_, new, h1, h3⟩
      rw [h5 k, initialValidators_lookup]

end Verif
