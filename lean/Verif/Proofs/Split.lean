import Verif.Proofs.Bare
import Verif.Proofs.Inherit

/-!
# A class in two parts
-/

namespace Verif
open Spec

theorem withBase_bare {f : Field} {b b' : FieldBase} (h : b.bare = b'.bare) : (f.withBase b).bare = (f.withBase b').bare := by
  cases f <;> simp only [Field.bare, Field.withBase, Field.base, h]

theorem setEndian_bare {f g : Field} (h : f.bare = g.bare) (e : Endian) : (f.setEndian e).bare = (g.setEndian e).bare := by
  cases f <;> cases g <;> simp only [Field.bare, Field.withBase, Field.base, reduceCtorEq, Field.leaf.injEq] at h <;>
    simp only [Field.setEndian, Field.bare, Field.withBase, Field.base]
  · obtain ⟨h1, rfl⟩ := h
    rename_i b k b'
    cases k <;> simp [h1]
  all_goals exact h

theorem bindToContainer_bare {defaults : List (String × Endian)} {f g : Field} {name : String} {i i' : Nat} {o o' : Option Int}
    (h : bindToContainer defaults f name i o = .ok g) : ∃ g', bindToContainer defaults f name i' o' = .ok g' ∧ g'.bare = g.bare := by
  unfold bindToContainer at h ⊢
  cases hm : maybeAssignName f name with
  | error e => rw [hm] at h; cases h
  | ok f1 =>
    rw [hm] at h
    simp only at h ⊢
    have hb : ∀ i o, overridingDefault (f1.withBase { f1.base with index := i, offset := o }).base defaults "endian" =
        overridingDefault f1.base defaults "endian" := by
      intro i o
      cases f1 <;> rfl
    have hw : (f1.withBase { f1.base with index := i', offset := o' }).bare = (f1.withBase { f1.base with index := i, offset := o }).bare :=
      withBase_bare rfl
    rw [hb] at h ⊢
    cases hov : overridingDefault f1.base defaults "endian" with
    | none => rw [hov] at h; cases h; exact ⟨_, rfl, hw⟩
    | some e => rw [hov] at h; cases h; exact ⟨_, rfl, setEndian_bare hw e⟩

theorem any_name_bare {fs gs : List Field} (h : fs.map Field.bare = gs.map Field.bare) (name : String) :
    fs.any (fun g => g.name = name) = gs.any (fun g => g.name = name) := by
  have : ∀ l : List Field, l.any (fun g => g.name = name) = (l.map Field.bare).any (fun g => g.name = name) := by
    intro l
    induction l with
    | nil => rfl
    | cons f l ih => simp [ih]
  rw [this fs, this gs, h]

/-- Collecting the fields of a class body does not depend on the offsets and indices of the fields before them. -/
theorem collect_bare {defaults : List (String × Endian)} {items : List (String × ClassItem)} {comps comps' out : List Field}
    {o o' : Option Int} {k k' m : Nat} (hc : comps.map Field.bare = comps'.map Field.bare)
    (h : collectAssignedFields defaults items comps o k = .ok (out, m)) :
    ∃ out' m', collectAssignedFields defaults items comps' o' k' = .ok (out', m') ∧ out'.map Field.bare = out.map Field.bare := by
  induction items generalizing comps comps' o o' k k' with
  | nil =>
    simp only [collectAssignedFields] at h
    cases h
    exact ⟨_, _, rfl, hc.symm⟩
  | cons p items ih =>
    obtain ⟨nm, it⟩ := p
    cases it with
    | field f =>
      simp only [collectAssignedFields] at h ⊢
      rw [any_name_bare hc nm] at h
      split at h
      · cases h
      · rename_i hn
        rw [if_neg hn]
        cases hb : bindToContainer defaults f nm comps.length o with
        | error e => rw [hb] at h; cases h
        | ok g =>
          rw [hb] at h
          obtain ⟨g', hb', hg⟩ := bindToContainer_bare (i' := comps'.length) (o' := o') hb
          rw [hb']
          exact ih (by simp [hc, hg]) h
    | validator ns fn => exact ih hc h
    | structValidator fn => exact ih hc h

/-- A class body in two parts. -/
theorem collect_append {defaults : List (String × Endian)} {items : List (String × ClassItem)} (more : List (String × ClassItem))
    {comps out : List Field} {o : Option Int} {k m : Nat} (h : collectAssignedFields defaults items comps o k = .ok (out, m)) :
    ∃ o', collectAssignedFields defaults (items ++ more) comps o k = collectAssignedFields defaults more out o' m := by
  induction items generalizing comps o k with
  | nil =>
    simp only [collectAssignedFields] at h
    cases h
    exact ⟨_, rfl⟩
  | cons p items ih =>
    obtain ⟨nm, it⟩ := p
    cases it with
    | field f =>
      simp only [List.cons_append, collectAssignedFields] at h ⊢
      split at h
      · cases h
      · rename_i hn
        rw [if_neg hn]
        cases hb : bindToContainer defaults f nm comps.length o with
        | error e => rw [hb] at h; cases h
        | ok g => rw [hb] at h; exact ih h
    | validator ns fn => exact ih h
    | structValidator fn => exact ih h

theorem collect_fresh {defaults : List (String × Endian)} {items : List (String × ClassItem)} {comps out : List Field} {o : Option Int}
    {k m : Nat} (h : collectAssignedFields defaults items comps o k = .ok (out, m)) :
    (∀ nm ∈ (ownFields items).map (·.1), nm ∉ comps.map Field.name ∧ nm ∈ out.map Field.name) ∧ ∀ g ∈ comps, g ∈ out := by
  induction items generalizing comps o k with
  | nil =>
    simp only [collectAssignedFields] at h
    cases h
    exact ⟨by simp [ownFields], fun g hg => hg⟩
  | cons p items ih =>
    obtain ⟨nm, it⟩ := p
    cases it with
    | field f =>
      simp only [collectAssignedFields] at h
      split at h
      · cases h
      · rename_i hn
        cases hb : bindToContainer defaults f nm comps.length o with
        | error e => rw [hb] at h; cases h
        | ok g =>
          rw [hb] at h
          obtain ⟨h1, h2⟩ := ih h
          have hg := (bindToContainer_after hb).2.1
          refine ⟨?_, fun x hx => h2 x (by simp [hx])⟩
          intro x hx
          simp only [ownFields, List.map_cons, List.mem_cons] at hx
          rcases hx with rfl | hx
          · refine ⟨?_, List.mem_map.2 ⟨g, h2 g (by simp), hg⟩⟩
            intro hx
            obtain ⟨y, hy, he⟩ := List.mem_map.1 hx
            exact hn (List.any_eq_true.2 ⟨y, hy, by simpa using he⟩)
          · obtain ⟨h3, h4⟩ := h1 x hx
            exact ⟨fun hx => h3 (by simp only [List.map_append]; exact List.mem_append_left _ hx), h4⟩
    | validator ns fn => exact ih h
    | structValidator fn => exact ih h

/-! ### Validators -/

theorem initialValidators_append (fv g : FV) (body : List (String × ClassItem)) (h : ∀ p ∈ fv, p.1 ∉ (ownFields body).map (·.1)) :
    initialValidators (fv ++ g) body = fv ++ initialValidators g body := by
  induction body generalizing g with
  | nil => rfl
  | cons p body ih =>
    obtain ⟨nm, it⟩ := p
    cases it with
    | field f =>
      have hf : fv.filter (fun p => decide (p.1 ≠ nm)) = fv := by
        refine List.filter_eq_self.2 fun q hq => ?_
        simp only [decide_eq_true_eq]
        intro hx
        exact h q hq (by rw [hx]; simp [ownFields])
      show initialValidators ((fv ++ g).filter (fun p => decide (p.1 ≠ nm)) ++ [(nm, [])]) body =
        fv ++ initialValidators (g.filter (fun p => decide (p.1 ≠ nm)) ++ [(nm, [])]) body
      rw [List.filter_append, hf, List.append_assoc]
      exact ih _ fun q hq hx => h q hq (by simp only [ownFields, List.map_cons]; exact List.mem_cons_of_mem _ hx)
    | validator ns fn => exact ih g h
    | structValidator fn => exact ih g h

theorem initialValidators_fresh (fv : FV) (body : List (String × ClassItem)) (h : ∀ p ∈ fv, p.1 ∉ (ownFields body).map (·.1)) :
    initialValidators fv body = fv ++ initialValidators [] body ∧ ∀ p ∈ initialValidators [] body, p.1 ∈ (ownFields body).map (·.1) := by
  constructor
  · have := initialValidators_append fv [] body h
    rwa [List.append_nil] at this
  · intro p hp
    rcases initialValidators_key (List.mem_map.2 ⟨p, hp, rfl⟩) with hk | hk
    · simp at hk
    · exact hk

theorem appendValidator_append {fn : View → Value → Except Err Unit} {ns : List String} {fv fv' : FV} (new : FV)
    (hnew : ∀ p ∈ new, p.1 ∉ fv.map (·.1)) (h : appendValidator fn ns fv = .ok fv') : appendValidator fn ns (fv ++ new) = .ok (fv' ++ new) := by
  induction ns generalizing fv with
  | nil => simp only [appendValidator] at h ⊢; cases h; rfl
  | cons name ns ih =>
    simp only [appendValidator] at h ⊢
    split at h
    · rename_i hn
      have hn' : (fv ++ new).any (fun p => p.1 = name) = true := by rw [List.any_append, hn]; rfl
      rw [if_pos hn']
      obtain ⟨r, hr, he⟩ := List.any_eq_true.1 hn
      have hmap : new.map (fun p => if p.1 = name then (p.1, p.2 ++ [fn]) else p) = new := by
        conv => rhs; rw [← List.map_id new]
        refine List.map_congr_left fun p hp => ?_
        rw [if_neg]
        · rfl
        · intro hx
          exact hnew p hp (by rw [hx]; exact List.mem_map.2 ⟨r, hr, by simpa using he⟩)
      rw [List.map_append, hmap]
      refine ih ?_ h
      intro p hp hx
      apply hnew p hp
      rw [List.map_map] at hx
      rwa [show ((fun p : String × List (View → Value → Except Err Unit) => p.1) ∘ fun p => if p.1 = name then (p.1, p.2 ++ [fn]) else p) =
        (fun p => p.1) from by funext p; simp only [Function.comp]; split <;> rfl] at hx
    · cases h

theorem bindValidators_append {body more : List (String × ClassItem)} {fv fv' : FV} {sv sv' : List (View → Except Err Unit)} (new : FV)
    (hnew : ∀ p ∈ new, p.1 ∉ fv.map (·.1)) (h : bindValidators body fv sv = .ok (fv', sv')) :
    bindValidators (body ++ more) (fv ++ new) sv = bindValidators more (fv' ++ new) sv' := by
  induction body generalizing fv sv with
  | nil => simp only [bindValidators] at h; cases h; rfl
  | cons p body ih =>
    obtain ⟨nm, it⟩ := p
    cases it with
    | field f => exact ih hnew h
    | validator ns fn =>
      simp only [List.cons_append, bindValidators] at h ⊢
      cases ha : appendValidator fn ns fv with
      | error e => rw [ha] at h; cases h
      | ok fv1 =>
        rw [ha] at h
        rw [appendValidator_append new hnew ha]
        exact ih (by rw [(appendValidator_mem ha).1]; exact hnew) h
    | structValidator fn => exact ih hnew h

/-- A class, and one with more fields and validators added to it. -/
theorem fromClassWith_split {own more : List (String × ClassItem)} {name base : String} {opts : Option (List (String × Endian))}
    {b d : StructDesc} {size : Option Int}
    (hb : fromClassWith { name := base, body := own, metaOpts := opts } [] [] [] none (some 0) = .ok b)
    (hd : fromClassWith { name := name, bases := [base], body := more } b.components b.fieldValidators b.structValidators b.metaOpts size = .ok d) :
    ∃ e, fromClassWith { name := name, body := own ++ more, metaOpts := opts } [] [] [] none (some 0) = .ok e ∧ SameFormat d e := by
  unfold fromClassWith at hb hd ⊢
  simp only [Option.or_none, Option.none_or] at hb hd ⊢
  cases hc : collectAssignedFields (opts.getD []) own [] (some 0) 0 with
  | error e => rw [hc] at hb; cases hb
  | ok p =>
    obtain ⟨comps, m⟩ := p
    rw [hc] at hb
    simp only at hb
    cases hv : bindValidators own (initialValidators [] own) [] with
    | error e => rw [hv] at hb; cases hb
    | ok p =>
      obtain ⟨fv, sv⟩ := p
      rw [hv] at hb
      cases hb
      simp only at hd
      cases hc2 : collectAssignedFields (opts.getD []) more comps size 0 with
      | error e => rw [hc2] at hd; cases hd
      | ok p =>
        obtain ⟨comps2, m2⟩ := p
        rw [hc2] at hd
        simp only at hd
        obtain ⟨o', hc3⟩ := collect_append more hc
        obtain ⟨out', m', hc4, hbare⟩ := collect_bare (o' := o') (k' := m) rfl hc2
        rw [hc3, hc4]
        simp only
        -- the names of the new fields are new
        have hdis : ∀ p ∈ initialValidators [] own, p.1 ∉ (ownFields more).map (·.1) := by
          intro p hp hx
          have h1 := (initialValidators_fresh [] own (by simp)).2 p hp
          exact ((collect_fresh hc2).1 _ hx).1 ((collect_fresh hc).1 _ h1).2
        have hkeys := (bindValidators_mem hv).1
        have hdis' : ∀ p ∈ fv, p.1 ∉ (ownFields more).map (·.1) := by
          intro p hp
          have : p.1 ∈ (initialValidators [] own).map (·.1) := by rw [← hkeys]; exact List.mem_map.2 ⟨p, hp, rfl⟩
          obtain ⟨q, hq, he⟩ := List.mem_map.1 this
          rw [← he]
          exact hdis q hq
        obtain ⟨hi, hn⟩ := initialValidators_fresh (initialValidators [] own) more hdis
        have hi2 : initialValidators [] (own ++ more) = initialValidators [] own ++ initialValidators [] more := by
          rw [← hi]
          simp [initialValidators]
        rw [hi2, bindValidators_append (initialValidators [] more) (fun p hp hx => by
          obtain ⟨q, hq, he⟩ := List.mem_map.1 hx
          exact hdis q hq (by rw [he]; exact hn p hp)) hv, ← (initialValidators_fresh fv more hdis').1]
        cases hv2 : bindValidators more (initialValidators fv more) sv with
        | error e => rw [hv2] at hd; cases hd
        | ok p =>
          obtain ⟨fv2, sv2⟩ := p
          rw [hv2] at hd
          cases hd
          refine ⟨_, rfl, ?_⟩
          simp only [SameFormat, StructDesc.bare, hbare]

end Verif
