import Verif.Model.ClassHeap
import Verif.Proofs.Class

/-!
# Declarations over a heap: frame and refinement lemmas
-/

namespace Verif
open Spec

theorem filterMap_congr {α β : Type} {f g : α → Option β} : ∀ {l : List α}, (∀ a ∈ l, f a = g a) → l.filterMap f = l.filterMap g
  | [], _ => rfl
  | a :: l, h => by
    rw [List.filterMap_cons, List.filterMap_cons, h a List.mem_cons_self,
      filterMap_congr (fun b hb => h b (List.mem_cons_of_mem _ hb))]

/-- The field objects that a class body refers to. -/
def heapFields : List (String × HeapItem) → List Nat
  | [] => []
  | (_, .field i) :: items => i :: heapFields items
  | _ :: items => heapFields items

/-! ### Frame -/

theorem Heap.collect_frame (defaults : List (String × Endian)) (body : List (String × HeapItem)) (fs : List Field)
    (comps : List (String × Nat)) (offset : Option Int) (k : Nat) :
    (Heap.collect defaults body fs comps offset k).1.length = fs.length ∧
    ∀ j, j ∉ heapFields body → (Heap.collect defaults body fs comps offset k).1[j]? = fs[j]? := by
  induction body generalizing fs comps offset k with
  | nil => simp [Heap.collect]
  | cons item items ih =>
    obtain ⟨name, it⟩ := item
    cases it with
    | field i =>
      simp only [Heap.collect, heapFields, List.mem_cons, not_or]
      split
      · simp
      · split
        · simp
        · split
          · simp
          · rename_i g _
            obtain ⟨h1, h2⟩ := ih (fs.set i g) (comps ++ [(name, i)]) (nextOffset offset g.base.size) (k + 1)
            refine ⟨by simpa using h1, fun j hj => ?_⟩
            rw [h2 j hj.2, List.getElem?_set_ne (Ne.symm hj.1)]
    | validator names fn => simp only [Heap.collect, heapFields]; exact ih fs comps offset k
    | structValidator fn => simp only [Heap.collect, heapFields]; exact ih fs comps offset k

theorem Heap.copyLists_frame (t : List (String × Nat)) (ls : List (List FieldValidatorFn)) :
    ls.length ≤ (Heap.copyLists t ls).2.length ∧ (∀ j < ls.length, (Heap.copyLists t ls).2[j]? = ls[j]?) ∧
    (∀ p ∈ (Heap.copyLists t ls).1, ls.length ≤ p.2 ∧ p.2 < (Heap.copyLists t ls).2.length) := by
  induction t generalizing ls with
  | nil => simp [Heap.copyLists]
  | cons p t ih =>
    obtain ⟨k, i⟩ := p
    obtain ⟨h1, h2, h3⟩ := ih (ls ++ [(ls[i]?).getD []])
    simp only [Heap.copyLists, List.length_append, List.length_singleton] at *
    refine ⟨by omega, fun j hj => ?_, fun q hq => ?_⟩
    · rw [h2 j (by omega), List.getElem?_append_left hj]
    · rcases List.mem_cons.1 hq with rfl | hq
      · exact ⟨Nat.le_refl _, by simp only; omega⟩
      · have := h3 q hq; omega

theorem Heap.newLists_frame (body : List (String × HeapItem)) (t : List (String × Nat)) (ls : List (List FieldValidatorFn)) (m : Nat)
    (hm : m ≤ ls.length) (ht : ∀ p ∈ t, m ≤ p.2 ∧ p.2 < ls.length) :
    ls.length ≤ (Heap.newLists body t ls).2.length ∧ (∀ j < ls.length, (Heap.newLists body t ls).2[j]? = ls[j]?) ∧
    (∀ p ∈ (Heap.newLists body t ls).1, m ≤ p.2 ∧ p.2 < (Heap.newLists body t ls).2.length) := by
  induction body generalizing t ls with
  | nil => exact ⟨Nat.le_refl _, fun _ _ => rfl, ht⟩
  | cons item items ih =>
    obtain ⟨name, it⟩ := item
    cases it with
    | field i =>
      simp only [Heap.newLists]
      obtain ⟨h1, h2, h3⟩ := ih (t.filter (fun p => decide (p.1 ≠ name)) ++ [(name, ls.length)]) (ls ++ [[]])
        (by simp only [List.length_append]; omega) (by
          intro p hp
          simp only [List.length_append, List.length_singleton]
          rcases List.mem_append.1 hp with hp | hp
          · have := ht p (List.mem_filter.1 hp).1; omega
          · simp at hp; subst hp; simp only; omega)
      simp only [List.length_append, List.length_singleton] at h1 h2
      refine ⟨by omega, fun j hj => ?_, h3⟩
      rw [h2 j (by omega), List.getElem?_append_left hj]
    | validator names fn => exact ih t ls hm ht
    | structValidator fn => exact ih t ls hm ht

theorem mem_of_lookup {α : Type} {l : List (String × α)} {k : String} {x : α} (h : l.lookup k = some x) : (k, x) ∈ l := by
  induction l with
  | nil => simp at h
  | cons p l ih =>
    obtain ⟨a, y⟩ := p
    rw [List.lookup_cons] at h
    by_cases hk : k = a
    · subst hk; simp at h; subst h; exact List.mem_cons_self
    · have : (k == a) = false := by simp [hk]
      rw [this] at h
      exact List.mem_cons_of_mem _ (ih h)

theorem Heap.append_frame (fn : FieldValidatorFn) (ns : List String) (t : List (String × Nat)) (ls : List (List FieldValidatorFn))
    (m : Nat) (ht : ∀ p ∈ t, m ≤ p.2) :
    (Heap.append fn ns t ls).1.length = ls.length ∧ ∀ j < m, (Heap.append fn ns t ls).1[j]? = ls[j]? := by
  induction ns generalizing ls with
  | nil => simp [Heap.append]
  | cons name ns ih =>
    simp only [Heap.append]
    split
    · simp
    · rename_i i hi
      obtain ⟨h1, h2⟩ := ih (ls.set i ((ls[i]?).getD [] ++ [fn]))
      refine ⟨by simpa using h1, fun j hj => ?_⟩
      have := ht _ (mem_of_lookup hi)
      rw [h2 j hj, List.getElem?_set_ne (by simp only at this; omega)]

theorem Heap.bindValidators_frame (body : List (String × HeapItem)) (t : List (String × Nat)) (sv : Nat)
    (ls : List (List FieldValidatorFn)) (sls : List (List StructValidatorFn)) (m : Nat) (ht : ∀ p ∈ t, m ≤ p.2) :
    (Heap.bindValidators body t sv ls sls).1.length = ls.length ∧
    (∀ j < m, (Heap.bindValidators body t sv ls sls).1[j]? = ls[j]?) ∧
    (Heap.bindValidators body t sv ls sls).2.1.length = sls.length ∧
    ∀ j, j ≠ sv → (Heap.bindValidators body t sv ls sls).2.1[j]? = sls[j]? := by
  induction body generalizing ls sls with
  | nil => simp [Heap.bindValidators]
  | cons item items ih =>
    obtain ⟨name, it⟩ := item
    cases it with
    | field i => exact ih ls sls
    | validator names fn =>
      simp only [Heap.bindValidators]
      have ha := Heap.append_frame fn names t ls m ht
      split
      · rename_i ls' e he
        rw [he] at ha
        exact ⟨ha.1, ha.2, rfl, fun _ _ => rfl⟩
      · rename_i ls' he
        rw [he] at ha
        simp only at ha
        obtain ⟨h1, h2, h3, h4⟩ := ih ls' sls
        exact ⟨by rw [h1, ha.1], fun j hj => by rw [h2 j hj, ha.2 j hj], h3, h4⟩
    | structValidator fn =>
      simp only [Heap.bindValidators]
      obtain ⟨h1, h2, h3, h4⟩ := ih ls (sls.set sv ((sls[sv]?).getD [] ++ [fn]))
      refine ⟨h1, h2, by simpa using h3, fun j hj => ?_⟩
      rw [h4 j hj, List.getElem?_set_ne (Ne.symm hj)]

/-- The heap after a declaration, relative to before: nothing that existed has changed except the fields in the body. -/
structure Heap.Frame (h h' : Heap) (touched : List Nat) : Prop where
  fieldsLen : h'.fields.length = h.fields.length
  fields : ∀ j, j ∉ touched → h'.fields[j]? = h.fields[j]?
  listsLen : h.lists.length ≤ h'.lists.length
  lists : ∀ j < h.lists.length, h'.lists[j]? = h.lists[j]?
  structListsLen : h.structLists.length ≤ h'.structLists.length
  structLists : ∀ j < h.structLists.length, h'.structLists[j]? = h.structLists[j]?

theorem Heap.declareWith_frame (h : Heap) (decl : HeapDecl) (comps fv : List (String × Nat)) (sv : List StructValidatorFn)
    (inherited : Option (List (String × Endian))) (offset : Option Int) :
    Heap.Frame h (h.declareWith decl comps fv sv inherited offset).1 (heapFields decl.body) ∧
    ∀ c, c ≠ decl.name → (h.declareWith decl comps fv sv inherited offset).1.classes c = h.classes c := by
  unfold Heap.declareWith
  have hc := Heap.copyLists_frame fv h.lists
  have hn := Heap.newLists_frame decl.body (Heap.copyLists fv h.lists).1 (Heap.copyLists fv h.lists).2 h.lists.length hc.1 hc.2.2
  have hf := Heap.collect_frame ((decl.metaOpts.or inherited).getD []) decl.body h.fields comps offset 0
  have hb := Heap.bindValidators_frame decl.body (Heap.newLists decl.body (Heap.copyLists fv h.lists).1 (Heap.copyLists fv h.lists).2).1
    h.structLists.length (Heap.newLists decl.body (Heap.copyLists fv h.lists).1 (Heap.copyLists fv h.lists).2).2
    (h.structLists ++ [sv]) h.lists.length (fun p hp => (hn.2.2 p hp).1)
  have hlen : ∀ j < h.lists.length,
      (Heap.newLists decl.body (Heap.copyLists fv h.lists).1 (Heap.copyLists fv h.lists).2).2[j]? = h.lists[j]? := by
    intro j hj
    rw [hn.2.1 j (by omega), hc.2.1 j hj]
  simp only
  split
  · rename_i fs e he
    rw [he] at hf
    refine ⟨⟨hf.1, hf.2, by simp only; omega, hlen, by simp, ?_⟩, fun _ _ => rfl⟩
    intro j hj
    exact List.getElem?_append_left hj
  · rename_i fs comps' found he
    rw [he] at hf
    split
    · rename_i ls sls e hbv
      rw [hbv] at hb
      obtain ⟨b1, b2, b3, b4⟩ := hb
      simp only at b1 b2 b3 b4
      refine ⟨⟨hf.1, hf.2, by simp only; omega, fun j hj => ?_, by simp only; rw [b3]; simp, fun j hj => ?_⟩, fun _ _ => rfl⟩
      · simp only; rw [b2 j hj, hlen j hj]
      · simp only; rw [b4 j (by omega)]; exact List.getElem?_append_left hj
    · rename_i ls sls hbv
      rw [hbv] at hb
      obtain ⟨b1, b2, b3, b4⟩ := hb
      simp only at b1 b2 b3 b4
      refine ⟨⟨hf.1, hf.2, by simp only; omega, fun j hj => ?_, by simp only; rw [b3]; simp, fun j hj => ?_⟩,
        fun c hcn => by simp [hcn]⟩
      · simp only; rw [b2 j hj, hlen j hj]
      · simp only; rw [b4 j (by omega)]; exact List.getElem?_append_left hj

theorem Heap.Frame.refl (h : Heap) (touched : List Nat) : Heap.Frame h h touched :=
  ⟨rfl, fun _ _ => rfl, Nat.le_refl _, fun _ _ => rfl, Nat.le_refl _, fun _ _ => rfl⟩

theorem Heap.declare_frame (h : Heap) (n : Nat) (decl : HeapDecl) :
    Heap.Frame h (h.declare n decl).1 (heapFields decl.body) ∧
    ∀ c, c ≠ decl.name → (h.declare n decl).1.classes c = h.classes c := by
  unfold Heap.declare
  split
  · exact Heap.declareWith_frame ..
  · split
    · exact ⟨.refl _ _, fun _ _ => rfl⟩
    · split
      · exact ⟨.refl _ _, fun _ _ => rfl⟩
      · exact Heap.declareWith_frame ..
  · exact ⟨.refl _ _, fun _ _ => rfl⟩

/-- The references of a class are to objects that exist. -/
def ClassObj.In (c : ClassObj) (h : Heap) : Prop :=
  (∀ p ∈ c.components, p.2 < h.fields.length) ∧ (∀ p ∈ c.fieldValidators, p.2 < h.lists.length) ∧
  c.structValidators < h.structLists.length

theorem Heap.read_frame {h h' : Heap} {touched : List Nat} (hf : Heap.Frame h h' touched) {c : ClassObj} (hc : c.In h)
    (ht : ∀ p ∈ c.components, p.2 ∉ touched) : h'.read c = h.read c := by
  unfold Heap.read
  congr 1
  · apply filterMap_congr
    intro p hp
    exact hf.fields p.2 (ht p hp)
  · apply List.map_congr_left
    intro p hp
    rw [hf.lists p.2 (hc.2.1 p hp)]
  · rw [hf.structLists _ hc.2.2]

/-! ### Refinement -/

/-- The body of a class statement with its references resolved. -/
inductive Resolves (fs : List Field) : List (String × HeapItem) → List (String × ClassItem) → Prop where
  | nil : Resolves fs [] []
  | field {name : String} {i : Nat} {f : Field} {items : List (String × HeapItem)} {items' : List (String × ClassItem)} :
      fs[i]? = some f → Resolves fs items items' → Resolves fs ((name, .field i) :: items) ((name, .field f) :: items')
  | validator {name : String} {names : List String} {fn : FieldValidatorFn} {items : List (String × HeapItem)}
      {items' : List (String × ClassItem)} : Resolves fs items items' →
      Resolves fs ((name, .validator names fn) :: items) ((name, .validator names fn) :: items')
  | structValidator {name : String} {fn : StructValidatorFn} {items : List (String × HeapItem)}
      {items' : List (String × ClassItem)} : Resolves fs items items' →
      Resolves fs ((name, .structValidator fn) :: items) ((name, .structValidator fn) :: items')

theorem Resolves.set {fs : List Field} {items : List (String × HeapItem)} {items' : List (String × ClassItem)}
    (h : Resolves fs items items') {i : Nat} (g : Field) (hi : i ∉ heapFields items) : Resolves (fs.set i g) items items' := by
  induction h with
  | nil => exact .nil
  | field h1 _ ih =>
    simp only [heapFields, List.mem_cons, not_or] at hi
    exact .field (by rw [List.getElem?_set_ne hi.1]; exact h1) (ih hi.2)
  | validator _ ih => exact .validator (ih hi)
  | structValidator _ ih => exact .structValidator (ih hi)

/-- The references are to fields of the same name. -/
def Named (fs : List Field) (comps : List (String × Nat)) : Prop :=
  ∀ p ∈ comps, ∃ f, fs[p.2]? = some f ∧ f.name = p.1

/-- The fields referred to. -/
def readComps (fs : List Field) (comps : List (String × Nat)) : List Field := comps.filterMap fun p => fs[p.2]?

theorem Named.length {fs : List Field} {comps : List (String × Nat)} (h : Named fs comps) :
    (readComps fs comps).length = comps.length := by
  unfold readComps
  induction comps with
  | nil => rfl
  | cons p comps ih =>
    obtain ⟨f, h1, _⟩ := h p List.mem_cons_self
    rw [List.filterMap_cons_some (by simpa using h1)]
    simp [ih (fun q hq => h q (List.mem_cons_of_mem _ hq))]

theorem Named.any {fs : List Field} {comps : List (String × Nat)} (h : Named fs comps) (name : String) :
    (readComps fs comps).any (fun g => decide (g.name = name)) = comps.any (fun p => decide (p.1 = name)) := by
  unfold readComps
  induction comps with
  | nil => rfl
  | cons p comps ih =>
    obtain ⟨f, h1, h2⟩ := h p List.mem_cons_self
    rw [List.filterMap_cons_some (by simpa using h1)]
    simp only [List.any_cons, ih (fun q hq => h q (List.mem_cons_of_mem _ hq)), h2]

theorem Named.set {fs : List Field} {comps : List (String × Nat)} (h : Named fs comps) {i : Nat} (g : Field)
    (hi : i ∉ comps.map (·.2)) : Named (fs.set i g) comps ∧ readComps (fs.set i g) comps = readComps fs comps := by
  have hne : ∀ p ∈ comps, (fs.set i g)[p.2]? = fs[p.2]? := by
    intro p hp
    apply List.getElem?_set_ne
    intro hc
    exact hi (List.mem_map.2 ⟨p, hp, hc.symm⟩)
  refine ⟨fun p hp => ?_, ?_⟩
  · rw [hne p hp]; exact h p hp
  · unfold readComps
    exact filterMap_congr hne

theorem Heap.collect_refines {defaults : List (String × Endian)} {body : List (String × HeapItem)}
    {body' : List (String × ClassItem)} {fs : List Field} {comps : List (String × Nat)} {offset : Option Int} {k : Nat}
    (hr : Resolves fs body body') (hnd : (heapFields body).Nodup) (hdis : ∀ i ∈ heapFields body, i ∉ comps.map (·.2))
    (hn : Named fs comps) :
    (∀ e, collectAssignedFields defaults body' (readComps fs comps) offset k = .error e →
      (Heap.collect defaults body fs comps offset k).2 = .error e) ∧
    (∀ out m, collectAssignedFields defaults body' (readComps fs comps) offset k = .ok (out, m) →
      ∃ comps', (Heap.collect defaults body fs comps offset k).2 = .ok (comps', m) ∧
        Named (Heap.collect defaults body fs comps offset k).1 comps' ∧
        readComps (Heap.collect defaults body fs comps offset k).1 comps' = out) := by
  induction body generalizing body' fs comps offset k with
  | nil =>
    cases hr
    simp only [collectAssignedFields, Heap.collect]
    refine ⟨fun e h => by simp at h, fun out m h => ?_⟩
    cases h
    exact ⟨comps, rfl, hn, rfl⟩
  | cons item items ih =>
    cases hr with
    | @field name i f _ items' h1 h2 =>
      simp only [heapFields, List.nodup_cons] at hnd
      have hdi := hdis i (by simp [heapFields])
      simp only [collectAssignedFields, Heap.collect, hn.any, hn.length, h1]
      split
      · simp
      · cases hb : bindToContainer defaults f name comps.length offset with
        | error e => simp
        | ok g =>
          simp only
          have hset := hn.set g hdi
          have hlt : i < fs.length := by
            rcases List.getElem?_eq_some_iff.1 h1 with ⟨hlt, _⟩; exact hlt
          have hg : (fs.set i g)[i]? = some g := List.getElem?_set_self hlt
          have hn' : Named (fs.set i g) (comps ++ [(name, i)]) := by
            intro p hp
            rcases List.mem_append.1 hp with hp | hp
            · exact hset.1 p hp
            · simp at hp; subst hp; exact ⟨g, hg, (bindToContainer_after hb).2.1⟩
          have hrc : readComps (fs.set i g) (comps ++ [(name, i)]) = readComps fs comps ++ [g] := by
            have h3 : readComps (fs.set i g) (comps ++ [(name, i)]) = readComps (fs.set i g) comps ++ [g] := by
              unfold readComps
              rw [List.filterMap_append]
              simp [hg]
            rw [h3, hset.2]
          have := ih (body' := items') (fs := fs.set i g) (comps := comps ++ [(name, i)])
            (offset := nextOffset offset g.base.size) (k := k + 1) (h2.set g hnd.1) hnd.2 (by
              intro j hj hc
              rw [List.map_append] at hc
              rcases List.mem_append.1 hc with hc | hc
              · exact hdis j (by simp [heapFields, hj]) hc
              · simp at hc; subst hc; exact hnd.1 hj) hn'
          rw [hrc] at this
          exact this
    | validator h2 => simp only [collectAssignedFields, Heap.collect]; exact ih h2 hnd hdis hn
    | structValidator h2 => simp only [collectAssignedFields, Heap.collect]; exact ih h2 hnd hdis hn

/-- The validators referred to. -/
def readTable (ls : List (List FieldValidatorFn)) (t : List (String × Nat)) : List (String × List FieldValidatorFn) :=
  t.map fun p => (p.1, (ls[p.2]?).getD [])

/-- A table of distinct lists under distinct names. -/
def Table (ls : List (List FieldValidatorFn)) (t : List (String × Nat)) : Prop :=
  (t.map (·.1)).Nodup ∧ (t.map (·.2)).Nodup ∧ ∀ p ∈ t, p.2 < ls.length

theorem readTable_congr {ls ls' : List (List FieldValidatorFn)} {t : List (String × Nat)}
    (h : ∀ p ∈ t, ls'[p.2]? = ls[p.2]?) : readTable ls' t = readTable ls t := by
  unfold readTable
  apply List.map_congr_left
  intro p hp
  rw [h p hp]

theorem Heap.copyLists_refines (t : List (String × Nat)) (ls : List (List FieldValidatorFn))
    (hk : (t.map (·.1)).Nodup) (hb : ∀ p ∈ t, p.2 < ls.length) :
    Table (Heap.copyLists t ls).2 (Heap.copyLists t ls).1 ∧ (Heap.copyLists t ls).1.map (·.1) = t.map (·.1) ∧
    readTable (Heap.copyLists t ls).2 (Heap.copyLists t ls).1 = readTable ls t := by
  induction t generalizing ls with
  | nil => simp [Heap.copyLists, Table, readTable]
  | cons p t ih =>
    obtain ⟨k, i⟩ := p
    simp only [List.map_cons, List.nodup_cons] at hk
    have hi : i < ls.length := hb (k, i) List.mem_cons_self
    have hb' : ∀ p ∈ t, p.2 < (ls ++ [(ls[i]?).getD []]).length := by
      intro p hp
      have := hb p (List.mem_cons_of_mem _ hp)
      simp; omega
    obtain ⟨h1, h2, h3⟩ := ih (ls ++ [(ls[i]?).getD []]) hk.2 hb'
    obtain ⟨f1, f2, f3⟩ := Heap.copyLists_frame t (ls ++ [(ls[i]?).getD []])
    simp only [List.length_append, List.length_singleton] at f1 f2 f3
    simp only [Heap.copyLists]
    refine ⟨⟨?_, ?_, ?_⟩, by simp [h2], ?_⟩
    · simp only [List.map_cons, List.nodup_cons]
      exact ⟨by rw [h2]; exact hk.1, h1.1⟩
    · simp only [List.map_cons, List.nodup_cons]
      refine ⟨fun hc => ?_, h1.2.1⟩
      obtain ⟨q, hq, he⟩ := List.mem_map.1 hc
      have := (f3 q hq).1
      omega
    · intro q hq
      rcases List.mem_cons.1 hq with rfl | hq
      · simp only; omega
      · exact h1.2.2 q hq
    · have e1 : readTable (ls ++ [(ls[i]?).getD []]) t = readTable ls t := by
        apply readTable_congr
        intro q hq
        exact List.getElem?_append_left (hb q (List.mem_cons_of_mem _ hq))
      rw [e1] at h3
      unfold readTable at h3 ⊢
      simp only [List.map_cons, h3]
      rw [f2 ls.length (by omega)]
      simp

theorem nodup_filter_map {α : Type} {β : Type} (l : List α) (f : α → β) (p : α → Bool) (h : (l.map f).Nodup) :
    ((l.filter p).map f).Nodup := by
  induction l with
  | nil => simp
  | cons a l ih =>
    simp only [List.map_cons, List.nodup_cons] at h
    by_cases hp : p a
    · rw [List.filter_cons_of_pos hp]
      simp only [List.map_cons, List.nodup_cons]
      refine ⟨fun hc => h.1 ?_, ih h.2⟩
      obtain ⟨b, hb, he⟩ := List.mem_map.1 hc
      exact List.mem_map.2 ⟨b, (List.mem_filter.1 hb).1, he⟩
    · rw [List.filter_cons_of_neg hp]
      exact ih h.2

theorem Heap.newLists_refines {fs : List Field} {body : List (String × HeapItem)} {body' : List (String × ClassItem)}
    (hr : Resolves fs body body') {t : List (String × Nat)} {ls : List (List FieldValidatorFn)} (ht : Table ls t) :
    Table (Heap.newLists body t ls).2 (Heap.newLists body t ls).1 ∧
    readTable (Heap.newLists body t ls).2 (Heap.newLists body t ls).1 = initialValidators (readTable ls t) body' := by
  induction hr generalizing t ls with
  | nil => exact ⟨ht, rfl⟩
  | @field name i f items items' h1 h2 ih =>
    simp only [Heap.newLists, initialValidators, List.foldl_cons]
    have ht' : Table (ls ++ [[]]) (t.filter (fun p => decide (p.1 ≠ name)) ++ [(name, ls.length)]) := by
      refine ⟨?_, ?_, ?_⟩
      · rw [List.map_append, List.nodup_append]
        refine ⟨nodup_filter_map _ _ _ ht.1, by simp, fun a ha b hb => ?_⟩
        obtain ⟨q, hq, rfl⟩ := List.mem_map.1 ha
        simp at hb
        rw [hb]
        have := (List.mem_filter.1 hq).2
        simpa using this
      · rw [List.map_append, List.nodup_append]
        refine ⟨nodup_filter_map _ _ _ ht.2.1, by simp, fun a ha b hb => ?_⟩
        obtain ⟨q, hq, rfl⟩ := List.mem_map.1 ha
        simp at hb
        have := ht.2.2 q (List.mem_filter.1 hq).1
        omega
      · intro q hq
        rcases List.mem_append.1 hq with hq | hq
        · have := ht.2.2 q (List.mem_filter.1 hq).1
          simp; omega
        · simp at hq; subst hq; simp
    obtain ⟨h3, h4⟩ := ih ht'
    refine ⟨h3, ?_⟩
    rw [h4]
    unfold initialValidators
    congr 1
    unfold readTable
    rw [List.map_append, List.filter_map]
    congr 1
    · apply List.map_congr_left
      intro q hq
      rw [List.getElem?_append_left (ht.2.2 q (List.mem_filter.1 hq).1)]
    · simp
  | validator _ ih =>
    simp only [Heap.newLists]
    obtain ⟨h3, h4⟩ := ih ht
    exact ⟨h3, by rw [h4]; rfl⟩
  | structValidator _ ih =>
    simp only [Heap.newLists]
    obtain ⟨h3, h4⟩ := ih ht
    exact ⟨h3, by rw [h4]; rfl⟩

theorem lookup_readTable (ls : List (List FieldValidatorFn)) (t : List (String × Nat)) (k : String) :
    (readTable ls t).any (fun p => decide (p.1 = k)) = (t.lookup k).isSome := by
  rw [any_lookup]
  unfold readTable
  induction t with
  | nil => rfl
  | cons p t ih =>
    obtain ⟨a, i⟩ := p
    simp only [List.map_cons, List.lookup_cons]
    by_cases h : k = a
    · simp [h]
    · have : (k == a) = false := by simp [h]
      simp only [this]; exact ih

theorem Table.append {ls : List (List FieldValidatorFn)} {t : List (String × Nat)} (h : Table ls t) {name : String} {i : Nat}
    (hl : t.lookup name = some i) (fn : FieldValidatorFn) :
    Table (ls.set i ((ls[i]?).getD [] ++ [fn])) t ∧
    readTable (ls.set i ((ls[i]?).getD [] ++ [fn])) t =
      (readTable ls t).map fun p => if p.1 = name then (p.1, p.2 ++ [fn]) else p := by
  refine ⟨⟨h.1, h.2.1, by simpa using h.2.2⟩, ?_⟩
  unfold readTable
  rw [List.map_map]
  have hm := mem_of_lookup hl
  have key : ∀ p ∈ t, p.1 = name ↔ p.2 = i := by
    intro p hp
    obtain ⟨hk, hid, -⟩ := h
    clear hl
    induction t with
    | nil => simp at hp
    | cons q t ih =>
      simp only [List.map_cons, List.nodup_cons] at hk hid
      rcases List.mem_cons.1 hm with rfl | hm
      · rcases List.mem_cons.1 hp with rfl | hp
        · simp
        · constructor
          · intro he; exact absurd (List.mem_map.2 ⟨p, hp, he⟩) hk.1
          · intro he; exact absurd (List.mem_map.2 ⟨p, hp, he⟩) hid.1
      · rcases List.mem_cons.1 hp with hpq | hp
        · rw [hpq]
          constructor
          · intro he; exact absurd (List.mem_map.2 ⟨(name, i), hm, he.symm⟩) hk.1
          · intro he; exact absurd (List.mem_map.2 ⟨(name, i), hm, he.symm⟩) hid.1
        · exact ih hm hp hk.2 hid.2
  apply List.map_congr_left
  intro p hp
  by_cases he : p.1 = name
  · have hi := (key p hp).1 he
    have hlt : i < ls.length := hi ▸ h.2.2 p hp
    simp only [Function.comp, he, if_true, hi, List.getElem?_set_self hlt, Option.getD_some]
  · have hi : p.2 ≠ i := fun hc => he ((key p hp).2 hc)
    simp only [Function.comp, he, if_false, List.getElem?_set_ne (Ne.symm hi)]

theorem Heap.append_refines {fn : FieldValidatorFn} {ns : List String} {t : List (String × Nat)}
    {ls : List (List FieldValidatorFn)} (ht : Table ls t) :
    (∀ e, appendValidator fn ns (readTable ls t) = .error e → (Heap.append fn ns t ls).2 = .error e) ∧
    (∀ fv, appendValidator fn ns (readTable ls t) = .ok fv → (Heap.append fn ns t ls).2 = .ok () ∧
      Table (Heap.append fn ns t ls).1 t ∧ readTable (Heap.append fn ns t ls).1 t = fv) := by
  induction ns generalizing ls with
  | nil => exact ⟨fun e h => by simp [appendValidator] at h, fun fv h => by cases h; exact ⟨rfl, ht, rfl⟩⟩
  | cons name ns ih =>
    simp only [appendValidator, Heap.append, lookup_readTable]
    cases hl : t.lookup name with
    | none => simp
    | some i =>
      simp only [Option.isSome_some, if_true]
      obtain ⟨h1, h2⟩ := ht.append hl fn
      have := ih h1
      rw [h2] at this
      exact this

theorem Heap.bindValidators_refines {fs : List Field} {body : List (String × HeapItem)} {body' : List (String × ClassItem)}
    (hr : Resolves fs body body') {t : List (String × Nat)} {sv : Nat} {ls : List (List FieldValidatorFn)}
    {sls : List (List StructValidatorFn)} {l : List StructValidatorFn} (ht : Table ls t) (hs : sls[sv]? = some l) :
    (∀ e, Verif.bindValidators body' (readTable ls t) l = .error e →
      (Heap.bindValidators body t sv ls sls).2.2 = .error e) ∧
    (∀ fv l', Verif.bindValidators body' (readTable ls t) l = .ok (fv, l') →
      (Heap.bindValidators body t sv ls sls).2.2 = .ok () ∧
      Table (Heap.bindValidators body t sv ls sls).1 t ∧
      readTable (Heap.bindValidators body t sv ls sls).1 t = fv ∧
      (Heap.bindValidators body t sv ls sls).2.1[sv]? = some l') := by
  induction hr generalizing ls sls l with
  | nil =>
    simp only [Verif.bindValidators, Heap.bindValidators]
    refine ⟨fun e h => by simp at h, fun fv l' h => ?_⟩
    cases h
    exact ⟨trivial, ht, rfl, hs⟩
  | field _ _ ih => simp only [Verif.bindValidators, Heap.bindValidators]; exact ih ht hs
  | @validator name names fn items items' _ ih =>
    simp only [Verif.bindValidators, Heap.bindValidators]
    obtain ⟨h1, h2⟩ := Heap.append_refines (fn := fn) (ns := names) ht
    cases ha : appendValidator fn names (readTable ls t) with
    | error e =>
      have := h1 e ha
      cases hh : Heap.append fn names t ls with
      | mk ls' r =>
        rw [hh] at this
        simp only at this
        subst this
        simp
    | ok fv =>
      obtain ⟨h3, h4, h5⟩ := h2 fv ha
      cases hh : Heap.append fn names t ls with
      | mk ls' r =>
        rw [hh] at h3 h4 h5
        simp only at h3 h4 h5
        subst h3
        simp only
        have := ih (ls := ls') (sls := sls) (l := l) h4 hs
        rw [h5] at this
        exact this
  | @structValidator name fn items items' _ ih =>
    simp only [Verif.bindValidators, Heap.bindValidators]
    refine ih ht ?_
    have hlt : sv < sls.length := (List.getElem?_eq_some_iff.1 hs).1
    rw [List.getElem?_set_self hlt, hs]
    rfl

/-- The classes of a heap are well formed. -/
def Heap.WF (h : Heap) : Prop :=
  ∀ c obj, h.classes c = some obj → obj.In h ∧ Named h.fields obj.components ∧ (obj.fieldValidators.map (·.1)).Nodup

theorem Named.bounds {fs : List Field} {comps : List (String × Nat)} (h : Named fs comps) : ∀ p ∈ comps, p.2 < fs.length := by
  intro p hp
  obtain ⟨f, hf, _⟩ := h p hp
  exact (List.getElem?_eq_some_iff.1 hf).1

theorem Heap.declareWith_refines {h : Heap} {decl : HeapDecl} {pdecl : ClassDecl} {comps fv : List (String × Nat)}
    {sv : List StructValidatorFn} {inherited : Option (List (String × Endian))} {offset : Option Int}
    (hname : pdecl.name = decl.name) (hmeta : pdecl.metaOpts = decl.metaOpts) (hr : Resolves h.fields decl.body pdecl.body)
    (hnd : (heapFields decl.body).Nodup) (hdis : ∀ i ∈ heapFields decl.body, i ∉ comps.map (·.2))
    (hn : Named h.fields comps) (hk : (fv.map (·.1)).Nodup) (hb : ∀ p ∈ fv, p.2 < h.lists.length) :
    (∀ e, fromClassWith pdecl (readComps h.fields comps) (readTable h.lists fv) sv inherited offset = .error e →
      (h.declareWith decl comps fv sv inherited offset).2 = .error e ∧
      (h.declareWith decl comps fv sv inherited offset).1.classes = h.classes) ∧
    (∀ d, fromClassWith pdecl (readComps h.fields comps) (readTable h.lists fv) sv inherited offset = .ok d →
      (h.declareWith decl comps fv sv inherited offset).2 = .ok () ∧
      ∃ obj, (h.declareWith decl comps fv sv inherited offset).1.classes =
          (fun name => if name = decl.name then some obj else h.classes name) ∧
        obj.In (h.declareWith decl comps fv sv inherited offset).1 ∧
        Named (h.declareWith decl comps fv sv inherited offset).1.fields obj.components ∧
        (obj.fieldValidators.map (·.1)).Nodup ∧
        (h.declareWith decl comps fv sv inherited offset).1.read obj = d) := by
  obtain ⟨c1, c2, c3⟩ := Heap.copyLists_refines fv h.lists hk hb
  obtain ⟨n1, n2⟩ := Heap.newLists_refines hr c1
  rw [c3] at n2
  obtain ⟨k1, k2⟩ := Heap.collect_refines (defaults := (decl.metaOpts.or inherited).getD []) (offset := offset) (k := 0) hr hnd hdis hn
  have hsv : (h.structLists ++ [sv])[h.structLists.length]? = some sv := by simp
  obtain ⟨b1, b2⟩ := Heap.bindValidators_refines hr n1 hsv
  rw [n2] at b1 b2
  have hbf := Heap.bindValidators_frame decl.body
    (Heap.newLists decl.body (Heap.copyLists fv h.lists).1 (Heap.copyLists fv h.lists).2).1 h.structLists.length
    (Heap.newLists decl.body (Heap.copyLists fv h.lists).1 (Heap.copyLists fv h.lists).2).2 (h.structLists ++ [sv]) 0
    (fun _ _ => Nat.zero_le _)
  unfold fromClassWith Heap.declareWith
  simp only [hmeta]
  cases hc : collectAssignedFields ((decl.metaOpts.or inherited).getD []) pdecl.body (readComps h.fields comps) offset 0 with
  | error e =>
    have := k1 e hc
    cases hh : Heap.collect ((decl.metaOpts.or inherited).getD []) decl.body h.fields comps offset 0 with
    | mk fs r =>
      rw [hh] at this
      simp only at this
      subst this
      simp
  | ok o =>
    obtain ⟨out, m⟩ := o
    obtain ⟨comps', h1, h2, h3⟩ := k2 out m hc
    cases hh : Heap.collect ((decl.metaOpts.or inherited).getD []) decl.body h.fields comps offset 0 with
    | mk fs r =>
      rw [hh] at h1 h2 h3
      simp only at h1 h2 h3
      subst h1
      simp only
      cases hbv : Verif.bindValidators pdecl.body (initialValidators (readTable h.lists fv) pdecl.body) sv with
      | error e =>
        have := b1 e hbv
        cases hhb : Heap.bindValidators decl.body
          (Heap.newLists decl.body (Heap.copyLists fv h.lists).1 (Heap.copyLists fv h.lists).2).1 h.structLists.length
          (Heap.newLists decl.body (Heap.copyLists fv h.lists).1 (Heap.copyLists fv h.lists).2).2 (h.structLists ++ [sv]) with
        | mk ls r =>
          obtain ⟨sls, r⟩ := r
          rw [hhb] at this
          simp only at this
          subst this
          simp
      | ok o =>
        obtain ⟨fv', sv'⟩ := o
        obtain ⟨g1, g2, g3, g4⟩ := b2 fv' sv' hbv
        cases hhb : Heap.bindValidators decl.body
          (Heap.newLists decl.body (Heap.copyLists fv h.lists).1 (Heap.copyLists fv h.lists).2).1 h.structLists.length
          (Heap.newLists decl.body (Heap.copyLists fv h.lists).1 (Heap.copyLists fv h.lists).2).2 (h.structLists ++ [sv]) with
        | mk ls r =>
          obtain ⟨sls, r⟩ := r
          rw [hhb] at g1 g2 g3 g4 hbf
          simp only at g1 g2 g3 g4 hbf
          subst g1
          simp only
          refine ⟨fun e he => by simp at he, fun d hd => ⟨trivial, ?_⟩⟩
          cases hd
          refine ⟨_, rfl, ⟨h2.bounds, g2.2.2, ?_⟩, h2, g2.1, ?_⟩
          · simp only; rw [hbf.2.2.1]; simp
          · unfold Heap.read
            simp only [hname]
            unfold readComps at h3
            unfold readTable at g3
            rw [h3, g3, g4]
            rfl

theorem Heap.alloc_spec (body : List (String × ClassItem)) (fs : List Field) :
    fs.length ≤ (Heap.alloc body fs).2.length ∧ (∀ j < fs.length, (Heap.alloc body fs).2[j]? = fs[j]?) ∧
    (∀ i ∈ heapFields (Heap.alloc body fs).1, fs.length ≤ i) ∧ (heapFields (Heap.alloc body fs).1).Nodup ∧
    Resolves (Heap.alloc body fs).2 (Heap.alloc body fs).1 body := by
  induction body generalizing fs with
  | nil => exact ⟨Nat.le_refl _, fun _ _ => rfl, by simp [Heap.alloc, heapFields], by simp [Heap.alloc, heapFields], .nil⟩
  | cons item items ih =>
    obtain ⟨name, it⟩ := item
    cases it with
    | field f =>
      obtain ⟨h1, h2, h3, h4, h5⟩ := ih (fs ++ [f])
      simp only [List.length_append, List.length_singleton] at h1 h2 h3
      simp only [Heap.alloc, heapFields, List.nodup_cons]
      refine ⟨by omega, fun j hj => ?_, fun i hi => ?_, ⟨fun hc => ?_, h4⟩, .field ?_ h5⟩
      · rw [h2 j (by omega), List.getElem?_append_left hj]
      · rcases List.mem_cons.1 hi with rfl | hi
        · exact Nat.le_refl _
        · have := h3 i hi; omega
      · have := h3 _ hc; omega
      · rw [h2 fs.length (by omega)]; simp
    | validator names fn =>
      obtain ⟨h1, h2, h3, h4, h5⟩ := ih fs
      exact ⟨h1, h2, h3, h4, .validator h5⟩
    | structValidator fn =>
      obtain ⟨h1, h2, h3, h4, h5⟩ := ih fs
      exact ⟨h1, h2, h3, h4, .structValidator h5⟩

/-- Creating the fields of a class body changes nothing. -/
theorem Heap.alloc_frame {h : Heap} (hw : h.WF) (body : List (String × ClassItem)) :
    { h with fields := (Heap.alloc body h.fields).2 }.WF ∧
    ∀ c obj, h.classes c = some obj → { h with fields := (Heap.alloc body h.fields).2 }.read obj = h.read obj := by
  obtain ⟨h1, h2, -⟩ := Heap.alloc_spec body h.fields
  refine ⟨fun c obj ho => ?_, fun c obj ho => ?_⟩
  · obtain ⟨⟨a1, a2, a3⟩, a4, a5⟩ := hw c obj ho
    refine ⟨⟨fun p hp => by have := a1 p hp; simp only; omega, a2, a3⟩, fun p hp => ?_, a5⟩
    simp only
    rw [h2 p.2 (a1 p hp)]
    exact a4 p hp
  · obtain ⟨⟨a1, a2, a3⟩, -⟩ := hw c obj ho
    unfold Heap.read
    simp only
    congr 1
    apply filterMap_congr
    intro p hp
    exact h2 p.2 (a1 p hp)

theorem Heap.WF.frame {h h' : Heap} {touched : List Nat} {obj : ClassObj} (hf : Heap.Frame h h' touched)
    (ho : obj.In h ∧ Named h.fields obj.components ∧ (obj.fieldValidators.map (·.1)).Nodup)
    (ht : ∀ p ∈ obj.components, p.2 ∉ touched) :
    obj.In h' ∧ Named h'.fields obj.components ∧ (obj.fieldValidators.map (·.1)).Nodup := by
  obtain ⟨⟨a1, a2, a3⟩, a4, a5⟩ := ho
  refine ⟨⟨fun p hp => by rw [hf.fieldsLen]; exact a1 p hp, fun p hp => Nat.lt_of_lt_of_le (a2 p hp) hf.listsLen,
    Nat.lt_of_lt_of_le a3 hf.structListsLen⟩, fun p hp => ?_, a5⟩
  rw [hf.fields p.2 (ht p hp)]
  exact a4 p hp

/-- A class statement over the heap does what it does in `Verif.Model.Class`. -/
theorem Heap.run_refines {h : Heap} (hw : h.WF) (n : Nat) (decl : ClassDecl) :
    (h.run n decl).1.WF ∧
    (∀ e, fromClass h.view n decl = .error e → (h.run n decl).2 = .error e ∧ (h.run n decl).1.view = h.view) ∧
    (∀ d, fromClass h.view n decl = .ok d → (h.run n decl).2 = .ok () ∧ (h.run n decl).1.view = h.view.add d) := by
  obtain ⟨w1, w2⟩ := Heap.alloc_frame hw decl.body
  obtain ⟨l1, l2, l3, l4, l5⟩ := Heap.alloc_spec decl.body h.fields
  unfold Heap.run
  simp only
  generalize hh : ({ h with fields := (Heap.alloc decl.body h.fields).2 } : Heap) = h1 at *
  have hfields : h1.fields = (Heap.alloc decl.body h.fields).2 := by rw [← hh]
  have hclasses : h1.classes = h.classes := by rw [← hh]
  rw [← hfields] at l5
  generalize hd : HeapDecl.mk decl.name decl.bases (Heap.alloc decl.body h.fields).1 decl.metaOpts = hdecl at *
  have d1 : hdecl.name = decl.name := by rw [← hd]
  have d2 : hdecl.bases = decl.bases := by rw [← hd]
  have d3 : hdecl.body = (Heap.alloc decl.body h.fields).1 := by rw [← hd]
  have d4 : hdecl.metaOpts = decl.metaOpts := by rw [← hd]
  rw [← d3] at l3 l4 l5
  have hview : h1.view = h.view := by
    funext c
    unfold Heap.view
    rw [hclasses]
    cases hc : h.classes c with
    | none => rfl
    | some obj => simp only [Option.map_some]; rw [w2 c obj hc]
  -- classes that were there are not touched
  have hunt : ∀ c obj, h1.classes c = some obj → ∀ p ∈ obj.components, p.2 ∉ heapFields hdecl.body := by
    intro c obj hc p hp hcon
    rw [hclasses] at hc
    have := (hw c obj hc).1.1 p hp
    have := l3 p.2 hcon
    omega
  obtain ⟨fr1, fr2⟩ := Heap.declare_frame h1 n hdecl
  have hold : ∀ c obj, h1.classes c = some obj → (h1.declare n hdecl).1.read obj = h1.read obj :=
    fun c obj hc => Heap.read_frame fr1 (w1 c obj hc).1 (hunt c obj hc)
  -- in terms of the class object added
  have fin : (∀ e, fromClass h.view n decl = .error e →
        (h1.declare n hdecl).2 = .error e ∧ (h1.declare n hdecl).1.classes = h1.classes) ∧
      (∀ d, fromClass h.view n decl = .ok d → (h1.declare n hdecl).2 = .ok () ∧
        ∃ obj, (h1.declare n hdecl).1.classes = (fun name => if name = hdecl.name then some obj else h1.classes name) ∧
          obj.In (h1.declare n hdecl).1 ∧ Named (h1.declare n hdecl).1.fields obj.components ∧
          (obj.fieldValidators.map (·.1)).Nodup ∧ (h1.declare n hdecl).1.read obj = d) := by
    unfold fromClass Heap.declare
    rw [d2]
    cases hb : decl.bases with
    | nil =>
      simp only
      exact Heap.declareWith_refines (comps := []) (fv := []) d1.symm d4.symm l5 l4 (by simp) (fun p hp => by simp at hp) (by simp) (by simp)
    | cons base bs =>
      cases bs with
      | cons _ _ => simp
      | nil =>
        simp only
        have hvb : h.view base = (h1.classes base).map h1.read := by rw [← hview]; rfl
        rw [hvb]
        cases hcb : h1.classes base with
        | none => simp
        | some b =>
          simp only [Option.map_some, hview]
          cases hs : structGetSize h.view n (h1.read b) [] with
          | error e => simp
          | ok size =>
            simp only
            obtain ⟨x1, x2, x3⟩ := w1 base b hcb
            exact Heap.declareWith_refines d1.symm d4.symm l5 l4 (fun i hi hcon => by
              obtain ⟨p, hp, rfl⟩ := List.mem_map.1 hcon
              exact hunt base b hcb p hp hi) x2 x3 x1.2.1
  refine ⟨?_, fun e he => ?_, fun d hd' => ?_⟩
  · cases hr : fromClass h.view n decl with
    | error e =>
      obtain ⟨-, hcl⟩ := fin.1 e hr
      intro c obj hc
      rw [hcl] at hc
      exact Heap.WF.frame fr1 (w1 c obj hc) (hunt c obj hc)
    | ok d =>
      obtain ⟨-, obj', hcl, o1, o2, o3, -⟩ := fin.2 d hr
      intro c obj hc
      rw [hcl] at hc
      simp only at hc
      split at hc
      · cases hc; exact ⟨o1, o2, o3⟩
      · exact Heap.WF.frame fr1 (w1 c obj hc) (hunt c obj hc)
  · obtain ⟨e1, hcl⟩ := fin.1 e he
    refine ⟨e1, ?_⟩
    funext c
    rw [← hview]
    unfold Heap.view
    rw [hcl]
    cases hc : h1.classes c with
    | none => rfl
    | some obj => simp only [Option.map_some, hold c obj hc]
  · obtain ⟨e1, obj', hcl, -, -, -, o4⟩ := fin.2 d hd'
    refine ⟨e1, ?_⟩
    have hdn : d.name = decl.name := by
      unfold fromClass at hd'
      split at hd'
      · exact (fromClassWith_ok hd').1
      · split at hd'
        · simp at hd'
        · split at hd'
          · simp at hd'
          · exact (fromClassWith_ok hd').1
      · simp at hd'
    funext c
    unfold Classes.add
    rw [hdn, ← hview]
    unfold Heap.view
    rw [hcl]
    simp only
    rw [d1]
    split
    · simp [o4]
    · cases hc : h1.classes c with
      | none => rfl
      | some obj => simp only [Option.map_some, hold c obj hc]

end Verif
