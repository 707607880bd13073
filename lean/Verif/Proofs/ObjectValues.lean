import Verif.Proofs.Objects
import Verif.Proofs.ToDict

/-! Helper lemmas: what the operations on objects do to their contents. -/

namespace Verif
open Spec

theorem mapM_some_cons {f : Ref → Option Value} {r : Ref} {rs : List Ref} {vs : List Value} :
    (r :: rs).mapM f = some vs ↔ ∃ v vs', vs = v :: vs' ∧ f r = some v ∧ rs.mapM f = some vs' := by
  rw [List.mapM_cons]
  cases h1 : f r with
  | none => simp
  | some v =>
    cases h2 : rs.mapM f with
    | none => simp
    | some vs' => simp [eq_comm]

theorem mapM_mono {f g : Ref → Option Value} (h : ∀ r v, f r = some v → g r = some v) {rs : List Ref} {vs : List Value} (hv : rs.mapM f = some vs) :
    rs.mapM g = some vs := by
  induction rs generalizing vs with
  | nil => simpa using hv
  | cons r rs ih =>
    obtain ⟨v, vs', rfl, h1, h2⟩ := mapM_some_cons.1 hv
    exact mapM_some_cons.2 ⟨v, vs', rfl, h r v h1, ih h2⟩

theorem contents_succ {σ : Store} : ∀ {k : Nat} {r : Ref} {v : Value}, contents σ k r = some v → contents σ (k + 1) r = some v := by
  intro k
  induction k with
  | zero => intro r v h; simp [contents] at h
  | succ k ih =>
    intro r v h
    cases r with
    | imm w => exact h
    | obj l =>
      rw [contents] at h ⊢
      simp only at h ⊢
      cases ho : σ[l]? with
      | none => rw [ho] at h; exact h
      | some o =>
        rw [ho] at h
        cases o with
        | bytearray b => exact h
        | list items =>
          simp only [Option.map_eq_some_iff] at h ⊢
          obtain ⟨vs, h1, h2⟩ := h
          exact ⟨vs, mapM_mono (fun r v => ih) h1, h2⟩
        | dict items =>
          simp only [Option.map_eq_some_iff] at h ⊢
          obtain ⟨vs, h1, h2⟩ := h
          exact ⟨vs, mapM_mono (fun r v => ih) h1, h2⟩
        | inst cls vals =>
          simp only [Option.map_eq_some_iff] at h ⊢
          obtain ⟨vs, h1, h2⟩ := h
          exact ⟨vs, mapM_mono (fun r v => ih) h1, h2⟩

theorem contents_mono {σ : Store} {k m : Nat} (hkm : k ≤ m) {r : Ref} {v : Value} (h : contents σ k r = some v) : contents σ m r = some v := by
  induction hkm with
  | refl => exact h
  | step _ ih => exact contents_succ ih

/-! ### A reference and the value it stands for -/

def Val (σ : Store) (r : Ref) (v : Value) : Prop := ∃ k, contents σ k r = some v

def LVal (σ : Store) : List Ref → List Value → Prop
  | [], vs => vs = []
  | r :: rs, vs => ∃ v vs', vs = v :: vs' ∧ Val σ r v ∧ LVal σ rs vs'

def DVal (σ : Store) : List (String × Ref) → Dict → Prop
  | [], e => e = []
  | (k, r) :: d, e => ∃ v e', e = (k, v) :: e' ∧ Val σ r v ∧ DVal σ d e'

theorem LVal_iff {σ : Store} {rs : List Ref} {vs : List Value} : LVal σ rs vs ↔ ∃ k, rs.mapM (contents σ k) = some vs := by
  induction rs generalizing vs with
  | nil => simp [LVal, eq_comm]
  | cons r rs ih =>
    simp only [LVal]
    constructor
    · rintro ⟨v, vs', rfl, ⟨k, hk⟩, h⟩
      obtain ⟨m, hm⟩ := ih.1 h
      refine ⟨max k m, mapM_some_cons.2 ⟨v, vs', rfl, contents_mono (Nat.le_max_left ..) hk, mapM_mono (fun r v => contents_mono (Nat.le_max_right ..)) hm⟩⟩
    · rintro ⟨k, hk⟩
      obtain ⟨v, vs', rfl, h1, h2⟩ := mapM_some_cons.1 hk
      exact ⟨v, vs', rfl, ⟨k, h1⟩, ih.2 ⟨k, h2⟩⟩

theorem DVal_iff {σ : Store} {d : List (String × Ref)} {e : Dict} : DVal σ d e ↔ ∃ vs, LVal σ (d.map (·.2)) vs ∧ e = (d.map (·.1)).zip vs := by
  induction d generalizing e with
  | nil => simp [DVal, LVal]
  | cons p d ih =>
    obtain ⟨k, r⟩ := p
    simp only [DVal, List.map_cons, LVal]
    constructor
    · rintro ⟨v, e', rfl, h1, h2⟩
      obtain ⟨vs, h3, rfl⟩ := ih.1 h2
      exact ⟨v :: vs, ⟨v, vs, rfl, h1, h3⟩, by simp⟩
    · rintro ⟨vs, ⟨v, vs', rfl, h1, h2⟩, rfl⟩
      exact ⟨v, _, by simp, h1, ih.2 ⟨vs', h2, rfl⟩⟩

theorem Val_imm {σ : Store} {v w : Value} : Val σ (.imm v) w ↔ w = v := by
  constructor
  · rintro ⟨k, h⟩
    cases k with
    | zero => simp [contents] at h
    | succ k => simpa [contents, eq_comm] using h
  · rintro rfl; exact ⟨1, rfl⟩

theorem Val_bytearray {σ : Store} {l : Nat} {b : Bytes} {w : Value} (ho : σ[l]? = some (.bytearray b)) : Val σ (.obj l) w ↔ w = .bytes b := by
  constructor
  · rintro ⟨k, h⟩
    cases k with
    | zero => simp [contents] at h
    | succ k => simpa [contents, ho, eq_comm] using h
  · rintro rfl; exact ⟨1, by simp [contents, ho]⟩

theorem Val_list {σ : Store} {l : Nat} {rs : List Ref} {w : Value} (ho : σ[l]? = some (.list rs)) :
    Val σ (.obj l) w ↔ ∃ vs, w = .list vs ∧ LVal σ rs vs := by
  constructor
  · rintro ⟨k, h⟩
    cases k with
    | zero => simp [contents] at h
    | succ k =>
      simp only [contents, ho, Option.map_eq_some_iff] at h
      obtain ⟨vs, h1, h2⟩ := h
      exact ⟨vs, h2.symm, LVal_iff.2 ⟨k, h1⟩⟩
  · rintro ⟨vs, rfl, h⟩
    obtain ⟨k, hk⟩ := LVal_iff.1 h
    exact ⟨k + 1, by simp [contents, ho, hk]⟩

theorem Val_dict {σ : Store} {l : Nat} {d : List (String × Ref)} {w : Value} (ho : σ[l]? = some (.dict d)) :
    Val σ (.obj l) w ↔ ∃ e, w = .dict e ∧ DVal σ d e := by
  constructor
  · rintro ⟨k, h⟩
    cases k with
    | zero => simp [contents] at h
    | succ k =>
      simp only [contents, ho, Option.map_eq_some_iff] at h
      obtain ⟨vs, h1, h2⟩ := h
      exact ⟨_, h2.symm, DVal_iff.2 ⟨vs, LVal_iff.2 ⟨k, h1⟩, rfl⟩⟩
  · rintro ⟨e, rfl, h⟩
    obtain ⟨vs, h1, rfl⟩ := DVal_iff.1 h
    obtain ⟨k, hk⟩ := LVal_iff.1 h1
    exact ⟨k + 1, by simp [contents, ho, hk]⟩

theorem Val_inst {σ : Store} {l : Nat} {cls : String} {d : List (String × Ref)} {w : Value} (ho : σ[l]? = some (.inst cls d)) :
    Val σ (.obj l) w ↔ ∃ e, w = .struct cls e ∧ DVal σ d e := by
  constructor
  · rintro ⟨k, h⟩
    cases k with
    | zero => simp [contents] at h
    | succ k =>
      simp only [contents, ho, Option.map_eq_some_iff] at h
      obtain ⟨vs, h1, h2⟩ := h
      exact ⟨_, h2.symm, DVal_iff.2 ⟨vs, LVal_iff.2 ⟨k, h1⟩, rfl⟩⟩
  · rintro ⟨e, rfl, h⟩
    obtain ⟨vs, h1, rfl⟩ := DVal_iff.1 h
    obtain ⟨k, hk⟩ := LVal_iff.1 h1
    exact ⟨k + 1, by simp [contents, ho, hk]⟩

theorem Val_undefined {σ : Store} {r : Ref} {v : Value} (h : Val σ r v) : r = .imm .undefined ↔ v = .undefined := by
  constructor
  · rintro rfl; exact Val_imm.1 h
  · rintro rfl
    cases r with
    | imm w => rw [Val_imm.1 h]
    | obj l =>
      obtain ⟨k, h⟩ := h
      cases k with
      | zero => simp [contents] at h
      | succ k =>
        cases ho : σ[l]? with
        | none => simp [contents, ho] at h
        | some o => cases o <;> simp [contents, ho] at h

theorem Val_unique {σ : Store} {r : Ref} {v w : Value} (h1 : Val σ r v) (h2 : Val σ r w) : v = w := by
  obtain ⟨k, hk⟩ := h1
  obtain ⟨m, hm⟩ := h2
  have h3 := contents_mono (Nat.le_max_left k m) hk
  have h4 := contents_mono (Nat.le_max_right k m) hm
  rw [h3] at h4
  simpa using h4

/-! ### Dictionaries -/

theorem DVal.keys {σ : Store} {d : List (String × Ref)} {e : Dict} (h : DVal σ d e) : e.map (·.1) = d.map (·.1) := by
  induction d generalizing e with
  | nil => simp only [DVal] at h; subst h; rfl
  | cons p d ih =>
    obtain ⟨v, e', rfl, -, h⟩ := h
    simp [ih h]

theorem DVal.lookup {σ : Store} {d : List (String × Ref)} {e : Dict} (h : DVal σ d e) (k : String) :
    (d.lookup k = none ∧ Dict.get? e k = none) ∨ ∃ r v, d.lookup k = some r ∧ Dict.get? e k = some v ∧ Val σ r v := by
  induction d generalizing e with
  | nil => simp only [DVal] at h; subst h; exact Or.inl ⟨rfl, rfl⟩
  | cons p d ih =>
    obtain ⟨v, e', rfl, h1, h2⟩ := h
    unfold Dict.get?
    rw [List.lookup_cons, List.lookup_cons]
    split
    · exact Or.inr ⟨_, _, rfl, rfl, h1⟩
    · exact ih h2

theorem DVal.set {σ : Store} {d : List (String × Ref)} {e : Dict} (h : DVal σ d e) (k : String) {r : Ref} {v : Value} (hv : Val σ r v) :
    DVal σ (refSet d k r) (Dict.set e k v) := by
  induction d generalizing e with
  | nil => simp only [DVal] at h; subst h; exact ⟨v, [], rfl, hv, rfl⟩
  | cons p d ih =>
    obtain ⟨k', r'⟩ := p
    obtain ⟨v', e', rfl, h1, h2⟩ := h
    simp only [refSet, Dict.set]
    split
    · exact ⟨v, e', rfl, hv, h2⟩
    · exact ⟨v', _, rfl, h1, ih h2⟩

theorem DVal.filter {σ : Store} {d : List (String × Ref)} {e : Dict} (h : DVal σ d e) {P : String × Ref → Bool} {Q : String × Value → Bool}
    (hPQ : ∀ k r v, Val σ r v → P (k, r) = Q (k, v)) : DVal σ (d.filter P) (e.filter Q) := by
  induction d generalizing e with
  | nil => simp only [DVal] at h; subst h; rfl
  | cons p d ih =>
    obtain ⟨v, e', rfl, h1, h2⟩ := h
    rw [List.filter_cons, List.filter_cons, ← hPQ _ _ _ h1]
    split
    · exact ⟨v, _, rfl, h1, ih h2⟩
    · exact ih h2

theorem DVal.append {σ : Store} {d d' : List (String × Ref)} {e e' : Dict} (h : DVal σ d e) (h' : DVal σ d' e') : DVal σ (d ++ d') (e ++ e') := by
  induction d generalizing e with
  | nil => simp only [DVal] at h; subst h; exact h'
  | cons p d ih =>
    obtain ⟨v, e1, rfl, h1, h2⟩ := h
    exact ⟨v, _, rfl, h1, ih h2⟩

theorem DVal.defined {σ : Store} {d : List (String × Ref)} {e : Dict} (h : DVal σ d e) :
    DVal σ (refDefined d) (e.filter fun p => decide (p.2 ≠ .undefined)) :=
  h.filter fun _ _ _ hv => by simp [Val_undefined hv]

/-! ### Stores -/

/-- A reference to an object in the store, or to something that has no parts. -/
def RefIn (σ : Store) (r : Ref) : Prop := (∀ l, r = .obj l → l < σ.length) ∧ ∀ v, r = .imm v → Single v

theorem RefIn.mono {σ τ : Store} {r : Ref} (h : RefIn σ r) (hp : σ <+: τ) : RefIn τ r :=
  ⟨fun l hl => Nat.lt_of_lt_of_le (h.1 l hl) hp.length_le, h.2⟩

theorem Spec.Tidy.refs {C : ObjClasses} {σ : Store} (h : Tidy C σ) {l : Nat} {o : Obj} (ho : σ[l]? = some o) {r : Ref} (hr : r ∈ refsOf o) : RefIn σ r :=
  ⟨fun l' hl' => h.bounded l o ho l' (hl' ▸ hr), fun v hv => h.single l o ho v (hv ▸ hr)⟩

theorem Spec.Tidy.contents {C : ObjClasses} {σ τ : Store} (h : Tidy C σ) (hp : σ <+: τ) (k : Nat) {r : Ref} (hr : RefIn σ r) :
    contents τ k r = contents σ k r :=
  contents_congr (Q := fun l => l < σ.length) (fun _ hl => get_of_prefix hp hl) (fun l o _ ho l' hl' => h.bounded l o ho l' hl') k r hr.1

theorem Spec.Tidy.val {C : ObjClasses} {σ τ : Store} (h : Tidy C σ) (hp : σ <+: τ) {r : Ref} {v : Value} (hr : RefIn σ r) (hv : Val σ r v) : Val τ r v := by
  obtain ⟨k, hk⟩ := hv
  exact ⟨k, by rw [h.contents hp k hr, hk]⟩

theorem Spec.Tidy.lval {C : ObjClasses} {σ τ : Store} (h : Tidy C σ) (hp : σ <+: τ) : ∀ {rs : List Ref} {vs : List Value}, (∀ r ∈ rs, RefIn σ r) →
    LVal σ rs vs → LVal τ rs vs := by
  intro rs
  induction rs with
  | nil => intro vs _ hv; exact hv
  | cons r rs ih =>
    rintro vs hr ⟨v, vs', rfl, h1, h2⟩
    exact ⟨v, vs', rfl, h.val hp (hr r List.mem_cons_self) h1, ih (fun r' hr' => hr r' (List.mem_cons_of_mem _ hr')) h2⟩

theorem Spec.Tidy.new {C : ObjClasses} {σ : Store} (h : Tidy C σ) {o : Obj} (ho : ∀ r ∈ refsOf o, RefIn σ r)
    (hn : ∀ cls vals c, o = .inst cls vals → C cls = some c → (vals.map (·.1)).Nodup ∧ ∀ k ∈ vals.map (·.1), c.desc.has k = true) :
    Tidy C (σ.new o).1 ∧ σ <+: (σ.new o).1 ∧ (σ.new o).1[σ.length]? = some o := by
  have hp : σ <+: σ ++ [o] := List.prefix_append _ _
  have hcase : ∀ (l : Nat) o', (σ ++ [o])[l]? = some o' → σ[l]? = some o' ∨ o' = o := by
    intro l o' h'
    by_cases hl : l < σ.length
    · rw [get_of_prefix hp hl] at h'; exact Or.inl h'
    · have hle := (List.getElem?_eq_some_iff.1 h').1
      simp at hle
      have he : l = σ.length := by omega
      subst he
      simp at h'
      exact Or.inr h'.symm
  refine ⟨⟨?_, ?_, ?_⟩, hp, by simp [Store.new]⟩
  · intro l o' h' l' hl'
    simp only [Store.new] at h' ⊢
    rcases hcase l o' h' with h1 | rfl
    · exact Nat.lt_of_lt_of_le (h.bounded l o' h1 l' hl') hp.length_le
    · exact Nat.lt_of_lt_of_le ((ho _ hl').1 l' rfl) hp.length_le
  · intro l o' h' v hv
    rcases hcase l o' h' with h1 | rfl
    · exact h.single l o' h1 v hv
    · exact (ho _ hv).2 v rfl
  · intro l cls vals c h' hc
    rcases hcase l _ h' with h1 | h1
    · exact h.names l cls vals c h1 hc
    · exact hn cls vals c h1.symm hc

/-- Every component's default is a proper reference. -/
theorem Spec.Described.default_in {C : ObjClasses} {σ : Store} (h : Described C σ) {cls : String} {c : ObjClass} (hc : C cls = some c) {f : Field}
    (hf : f ∈ c.desc.components) : RefIn σ (c.defaults f.name) := by
  obtain ⟨-, -, -, ⟨k, hk⟩, hs⟩ := (h cls c hc).2 f hf
  refine ⟨fun l hl => ?_, hs⟩
  rw [hl] at hk
  cases k with
  | zero => simp [Verif.contents] at hk
  | succ k =>
    cases ho : σ[l]? with
    | none => simp [Verif.contents, ho] at hk
    | some o => exact (List.getElem?_eq_some_iff.1 ho).1

theorem Spec.Described.mono {C : ObjClasses} {σ τ : Store} (h : Described C σ) (ht : Tidy C σ) (hp : σ <+: τ) : Described C τ := by
  intro cls c hc
  refine ⟨(h cls c hc).1, fun f hf => ?_⟩
  obtain ⟨h1, h2, h3, ⟨k, hk⟩, h5⟩ := (h cls c hc).2 f hf
  exact ⟨h1, h2, h3, ⟨k, by rw [ht.contents hp k (h.default_in hc hf), hk]⟩, h5⟩

/-! ### `to_dict` -/

theorem get?_filter {e : Dict} {P : Value → Bool} {k : String} (hn : (Dict.keys e).Nodup) :
    Dict.get? (e.filter fun p => P p.2) k = (Dict.get? e k).filter P := by
  cases h : Dict.get? e k with
  | none =>
    simp only [Option.filter_none]
    rw [Dict.get?_none_iff] at h ⊢
    intro hm
    obtain ⟨p, hp, rfl⟩ := List.mem_map.1 hm
    exact h (List.mem_map.2 ⟨p, (List.mem_filter.1 hp).1, rfl⟩)
  | some v =>
    cases hP : P v with
    | true =>
      simp only [Option.filter_some, hP, if_true]
      refine Dict.get?_of_mem ?_ (List.mem_filter.2 ⟨Dict.get?_some_mem h, hP⟩)
      exact hn.sublist ((List.filter_sublist).map _)
    | false =>
      simp only [Option.filter_some, hP]
      simp only [Bool.false_eq_true, if_false]
      rw [Dict.get?_none_iff]
      intro hm
      obtain ⟨p, hp, hk⟩ := List.mem_map.1 hm
      obtain ⟨hp1, hp2⟩ := List.mem_filter.1 hp
      have := Dict.get?_of_mem (k := p.1) (v := p.2) hn hp1
      rw [hk, h] at this
      simp only [Option.some.injEq] at this
      rw [← this, hP] at hp2
      cases hp2

section
variable {C : ObjClasses} {σ : Store} {cls : String} {c : ObjClass} {vals : List (String × Ref)} {vv : Dict}

/-- The value of a field in `to_dict`. -/
theorem compute_val (hC : Described C σ) (hc : C cls = some c) (hv : DVal σ vals vv) (hn : (vals.map (·.1)).Nodup) {f : Field}
    (hf : f ∈ c.desc.components) :
    (∃ r v, (refDefined vals).lookup f.name = some r ∧ f.base.computeValueForDump (structView c.desc vv) .none = .ok v ∧ Val σ r v) ∨
    ((refDefined vals).lookup f.name = none ∧ c.defaults f.name ≠ .imm .undefined ∧
      f.base.computeValueForDump (structView c.desc vv) .none = .ok f.base.dflt ∧ Val σ (c.defaults f.name) f.base.dflt) ∨
    ((refDefined vals).lookup f.name = none ∧ c.defaults f.name = .imm .undefined ∧
      f.base.computeValueForDump (structView c.desc vv) .none = .error (.missingRequired f.base.name)) := by
  obtain ⟨h1, h2, h3, hd, -⟩ := (hC cls c hc).2 f hf
  have hnv : (Dict.keys vv).Nodup := by unfold Dict.keys; rw [hv.keys]; exact hn
  have hname : f.base.name = f.name := rfl
  have hmem : f.name ∈ names c.desc := List.mem_map.2 ⟨f, hf, rfl⟩
  unfold FieldBase.computeValueForDump
  simp only [h3]
  rcases hv.defined.lookup f.name with ⟨h4, h5⟩ | ⟨r, v, h4, h5, h6⟩
  · have hcont : (structView c.desc vv).contains f.base.name = false := by
      rw [Bool.eq_false_iff]
      intro hcon
      obtain ⟨w, hw1, hw2⟩ := (structContains_iff hnv).1 hcon
      rw [get?_filter (P := fun v => decide (v ≠ .undefined)) hnv, ← hname, hw1] at h5
      simp [hw2] at h5
    simp only [hcont]
    simp only [Bool.false_eq_true, if_false]
    by_cases hu : c.defaults f.name = .imm .undefined
    · refine Or.inr (Or.inr ⟨h4, hu, ?_⟩)
      have hdu : f.base.dflt = .undefined := (Val_undefined hd).1 hu
      simp [hdu, h1]
    · refine Or.inr (Or.inl ⟨h4, hu, ?_, hd⟩)
      have hdu : f.base.dflt ≠ .undefined := fun h => hu ((Val_undefined hd).2 h)
      simp only [hdu, FieldBase.default, h2, ne_eq, not_false_eq_true, if_true, if_false]
      split
      · rename_i h; rw [h]
      · rfl
  · refine Or.inl ⟨r, v, h4, ?_, h6⟩
    rw [get?_filter (P := fun v => decide (v ≠ .undefined)) hnv] at h5
    obtain ⟨h7, h8⟩ := Option.filter_eq_some_iff.1 h5
    have h8 : v ≠ .undefined := by simpa using h8
    have hcont : (structView c.desc vv).contains f.base.name = true := (structContains_iff hnv).2 ⟨v, h7, h8⟩
    simp only [hcont]
    simp only [if_true]
    rw [show (structView c.desc vv).get f.base.name = .ok v from structGetItem_some hmem h7]
    simp only [h8, if_false]
    split
    · rename_i h; rw [h]
    · rfl

theorem whatever_val (hC : Described C σ) (hc : C cls = some c) (hv : DVal σ vals vv) (hn : (vals.map (·.1)).Nodup) :
    ∀ (fs : List Field), (∀ f ∈ fs, f ∈ c.desc.components) → ∀ acc e, DVal σ acc e →
      ∃ dv, whateverLoop c.desc vv fs e = .ok dv ∧ DVal σ (objWhatever c vals fs acc) dv := by
  intro fs
  induction fs with
  | nil => intro _ acc e h; exact ⟨e, rfl, h⟩
  | cons f fs ih =>
    intro hfs acc e h
    have ih := ih fun g hg => hfs g (List.mem_cons_of_mem _ hg)
    simp only [whateverLoop, objWhatever]
    rcases compute_val hC hc hv hn (hfs f List.mem_cons_self) with ⟨r, v, h1, h2, h3⟩ | ⟨h1, h2, h3, h4⟩ | ⟨h1, h2, h3⟩
    · rw [h1, h2]
      exact ih _ _ (h.set _ h3)
    · rw [h1, h3]
      simp only [h2, if_false]
      exact ih _ _ (h.set _ h4)
    · rw [h1, h3]
      simp only [h2, if_true]
      exact ih _ _ h

theorem chainLoop_val {d : StructDesc} {dct : List (String × Ref)} {dv : Dict} (xs : List (String × Ref))
    (hx : ∀ x ∈ xs, ∃ r v, dct.lookup x.1 = some r ∧ Dict.get? dv x.1 = some v ∧ Val σ r v) :
    ∃ e, chainLoop d vv dv (xs.map (·.1)) = .ok e ∧ DVal σ (xs.map fun p => (p.1, (dct.lookup p.1).getD p.2)) e := by
  induction xs with
  | nil => exact ⟨[], rfl, rfl⟩
  | cons x xs ih =>
    obtain ⟨e, h1, h2⟩ := ih fun y hy => hx y (List.mem_cons_of_mem _ hy)
    obtain ⟨r, v, h3, h4, h5⟩ := hx x List.mem_cons_self
    refine ⟨(x.1, v) :: e, ?_, v, e, rfl, ?_, h2⟩
    · simp only [List.map_cons, chainLoop, h4, h1]
    · rw [h3]; exact h5

theorem lookup_of_mem_nodup {d : List (String × Ref)} (hn : (d.map (·.1)).Nodup) {p : String × Ref} (hp : p ∈ d) : d.lookup p.1 = some p.2 := by
  induction d with
  | nil => cases hp
  | cons q d ih =>
    simp only [List.map_cons, List.nodup_cons] at hn
    rw [List.lookup_cons]
    rcases List.mem_cons.1 hp with rfl | hp
    · simp
    · have : (p.1 == q.1) = false := by
        simp only [beq_eq_false_iff_ne, ne_eq]
        intro h
        exact hn.1 (h ▸ List.mem_map.2 ⟨p, hp, rfl⟩)
      rw [this]
      exact ih hn.2 hp

theorem missingLoop_nil {dct : Dict} {fs : List Field} (h : ∀ f ∈ fs, dct.contains f.name = true) : missingLoop dct fs = .ok [] := by
  induction fs with
  | nil => rfl
  | cons f fs ih =>
    simp only [missingLoop, h f List.mem_cons_self, if_true]
    exact ih fun g hg => h g (List.mem_cons_of_mem _ hg)

theorem foldl_erase_val {fs : List Field} : ∀ {d : List (String × Ref)} {e : Dict}, DVal σ d e →
    DVal σ (fs.foldl (fun dct f => refErase dct f.name) d) (fs.foldl (fun dct f => Dict.erase dct f.name) e) := by
  induction fs with
  | nil => intro d e h; exact h
  | cons f fs ih =>
    intro d e h
    exact ih (h.filter fun k r v _ => rfl)

theorem shallow_val (hC : Described C σ) (hc : C cls = some c) (hv : DVal σ vals vv) (hn : (vals.map (·.1)).Nodup)
    (hk : ∀ k ∈ vals.map (·.1), c.desc.has k = true) {keep : Bool} {dct : List (String × Ref)} (h : objShallow c vals keep = .ok dct) :
    ∃ dv, toDictShallow c.desc vv keep = .ok dv ∧ DVal σ dct dv := by
  obtain ⟨dv, h1, h2⟩ := whatever_val hC hc hv hn c.desc.components (fun _ h => h) [] [] rfl
  obtain ⟨-, hw, hnd⟩ := whateverLoop_ok (hC cls c hc).1 h1
  have hnd := hnd (by simp [Dict.keys])
  have hnd' : ((objWhatever c vals c.desc.components []).map (·.1)).Nodup := by rw [← h2.keys]; exact hnd
  have hown : definedKeys vv = (refDefined vals).map (·.1) := hv.defined.keys
  have hkeys : Dict.keys dv = (objWhatever c vals c.desc.components []).map (·.1) := h2.keys
  have hobj : objChain vals (objWhatever c vals c.desc.components []) =
      (refDefined vals ++ (objWhatever c vals c.desc.components []).filter fun p => !((refDefined vals).map (·.1)).contains p.1).map
        fun p => (p.1, ((objWhatever c vals c.desc.components []).lookup p.1).getD p.2) := by
    simp only [objChain, List.map_append, List.map_map]
    congr 1
    have he : (((fun x => x.1) ∘ fun p => (p.1, ((objWhatever c vals c.desc.components []).lookup p.1).getD p.2)) : String × Ref → String) = (·.1) := rfl
    rw [he]
    refine Eq.trans (List.map_id _).symm (List.map_congr_left fun p hp => ?_)
    rw [lookup_of_mem_nodup hnd' (List.mem_filter.1 hp).1]
    rfl
  obtain ⟨e, h3, h4⟩ := chainLoop_val (σ := σ) (vv := vv) (d := c.desc) (dct := objWhatever c vals c.desc.components []) (dv := dv)
    (refDefined vals ++ (objWhatever c vals c.desc.components []).filter fun p => !((refDefined vals).map (·.1)).contains p.1) (by
      intro x hx
      rcases List.mem_append.1 hx with hx | hx
      · have hd := hk x.1 (List.mem_map.2 ⟨x, refDefined_mem hx, rfl⟩)
        unfold StructDesc.has at hd
        obtain ⟨f, hf⟩ := Option.isSome_iff_exists.1 hd
        obtain ⟨hf1, hf2⟩ := find?_some hf
        have hne : (refDefined vals).lookup x.1 ≠ none := by
          intro h
          have := lookup_of_mem_nodup (hn.sublist ((List.filter_sublist).map _)) hx
          unfold refDefined at h
          rw [this] at h
          cases h
        rcases h2.lookup x.1 with ⟨h5, h6⟩ | h5
        · exfalso
          rcases compute_val hC hc hv hn hf1 with ⟨r, v, h7, h8, -⟩ | ⟨h7, -⟩ | ⟨h7, -⟩
          · rcases hw f hf1 with ⟨w, -, h9⟩ | ⟨w, h9, -⟩
            · rw [hf2, h6] at h9; cases h9
            · rw [h8] at h9; cases h9
          · rw [hf2] at h7; exact hne h7
          · rw [hf2] at h7; exact hne h7
        · exact h5
      · have hx := (List.mem_filter.1 hx).1
        have := lookup_of_mem_nodup hnd' hx
        rcases h2.lookup x.1 with ⟨h5, -⟩ | h5
        · rw [this] at h5; cases h5
        · exact h5)
  rw [← hobj] at h4
  have h5 : whateverPossible c.desc vv = .ok e := by
    simp only [whateverPossible, h1]
    rw [← h3, hown, hkeys, List.map_append, List.filter_map]
    rfl
  simp only [objShallow] at h
  split at h
  · cases h
  · rename_i hall
    rw [List.find?_eq_none] at hall
    simp only [Except.ok.injEq] at h
    have hmiss : missingLoop e c.desc.components = .ok [] := by
      refine missingLoop_nil fun f hf => ?_
      rcases h4.lookup f.name with ⟨h6, -⟩ | ⟨r, v, -, h6, -⟩
      · exact absurd (by rw [h6]; rfl) (hall f hf)
      · rw [Dict.contains_eq, h6]; rfl
    simp only [toDictShallow, h5, hmiss, Dict.update, List.foldl_nil]
    refine ⟨_, rfl, ?_⟩
    subst h
    split
    · exact h4
    · exact foldl_erase_val h4

/-- What is in the dictionary are references to be found in the instance, or defaults. -/
theorem shallow_in (hC : Described C σ) (hc : C cls = some c) (hv : ∀ r ∈ vals.map (·.2), RefIn σ r) {keep : Bool} {dct : List (String × Ref)}
    (h : objShallow c vals keep = .ok dct) : ∀ r ∈ dct.map (·.2), RefIn σ r := by
  let c' : ObjClass := { c with defaults := fun name => if c.desc.has name then c.defaults name else .imm .none }
  have hw : ∀ fs, (∀ f ∈ fs, f ∈ c.desc.components) → ∀ acc, objWhatever c' vals fs acc = objWhatever c vals fs acc := by
    intro fs
    induction fs with
    | nil => intro _ acc; rfl
    | cons f fs ih =>
      intro hfs acc
      have hhas : c.desc.has f.name = true := has_iff.2 (List.mem_map.2 ⟨f, hfs f List.mem_cons_self, rfl⟩)
      have hdef : c'.defaults f.name = c.defaults f.name := by simp [c', hhas]
      have ih := ih fun g hg => hfs g (List.mem_cons_of_mem _ hg)
      simp only [objWhatever, hdef]
      split
      · exact ih _
      · split <;> exact ih _
  have h' : objShallow c' vals keep = .ok dct := by
    rw [← h]
    simp only [objShallow]
    rw [show c'.desc = c.desc from rfl, hw c.desc.components (fun _ h => h) []]
  refine objShallow_mem hv (fun name => ?_) h'
  simp only [c']
  split
  · rename_i hh
    unfold StructDesc.has at hh
    obtain ⟨f, hf⟩ := Option.isSome_iff_exists.1 hh
    obtain ⟨hf1, hf2⟩ := find?_some hf
    rw [← hf2]
    exact hC.default_in hc hf1
  · exact ⟨fun l hl => (by cases hl), fun v hv => (by cases hv; trivial)⟩
end

/-- The values of the references are converted as the values are. -/
def ConvertsAlike (C : ObjClasses) (n : Nat) : Prop :=
  ∀ σ r v σ' r', Tidy C σ → Described C σ → RefIn σ r → Val σ r v → objToDicts C n σ r = .ok (σ', r') →
    Tidy C σ' ∧ σ <+: σ' ∧ RefIn σ' r' ∧ ∃ w, recursiveToDicts C.descs n v = .ok w ∧ Val σ' r' w

theorem mapRefs_val {C : ObjClasses} {n : Nat} (hg : ConvertsAlike C n) :
    ∀ rs σ vs σ' rs', Tidy C σ → Described C σ → (∀ r ∈ rs, RefIn σ r) → LVal σ rs vs → mapRefs (objToDicts C n) σ rs = .ok (σ', rs') →
      Tidy C σ' ∧ σ <+: σ' ∧ (∀ r ∈ rs', RefIn σ' r) ∧ ∃ ws, mapE (recursiveToDicts C.descs n) vs = .ok ws ∧ LVal σ' rs' ws := by
  intro rs
  induction rs with
  | nil =>
    intro σ vs σ' rs' ht _ _ hv h
    simp only [LVal] at hv
    simp only [mapRefs, Except.ok.injEq, Prod.mk.injEq] at h
    obtain ⟨rfl, rfl⟩ := h
    subst hv
    exact ⟨ht, List.prefix_rfl, by simp, [], rfl, rfl⟩
  | cons r rs ih =>
    rintro σ vs σ' rs' ht hd hr ⟨v, vs, rfl, hv, hvs⟩ h
    simp only [mapRefs] at h
    split at h
    · cases h
    · rename_i σ1 r1 h1
      split at h
      · cases h
      · rename_i σ2 rs2 h2
        simp only [Except.ok.injEq, Prod.mk.injEq] at h
        obtain ⟨rfl, rfl⟩ := h
        obtain ⟨h3, h4, h5, w, h6, h7⟩ := hg σ r v σ1 r1 ht hd (hr r List.mem_cons_self) hv h1
        have hrs : ∀ r ∈ rs, RefIn σ r := fun r hr' => hr r (List.mem_cons_of_mem _ hr')
        obtain ⟨h8, h9, h10, ws, h11, h12⟩ := ih σ1 vs σ2 rs2 h3 (hd.mono ht h4) (fun r hr' => (hrs r hr').mono h4)
          (ht.lval h4 hrs hvs) h2
        refine ⟨h8, h4.trans h9, ?_, w :: ws, by simp only [mapE, h6, h11], w, ws, rfl, h3.val h9 h5 h7, h12⟩
        intro r' hr'
        rcases List.mem_cons.1 hr' with rfl | hr'
        · exact h5.mono h9
        · exact h10 r' hr'

theorem mapDictE_zip {g : Value → Except Err Value} {ks : List String} {vs ws : List Value} (hl : ks.length = vs.length) (h : mapE g vs = .ok ws) :
    mapDictE g (ks.zip vs) = .ok (ks.zip ws) := by
  unfold mapDictE
  induction ks generalizing vs ws with
  | nil => cases vs with
    | nil => simp [mapE]
    | cons v vs => simp at hl
  | cons k ks ih =>
    cases vs with
    | nil => simp at hl
    | cons v vs =>
      simp only [mapE] at h
      split at h
      · cases h
      · rename_i w hw
        split at h
        · cases h
        · rename_i ws' hws
          simp only [Except.ok.injEq] at h
          subst h
          have := ih (by simpa using hl) hws
          simp only [List.zip_cons_cons, mapE, this]
          simp only [hw, Except.map]

theorem LVal.length {σ : Store} {rs : List Ref} {vs : List Value} (h : LVal σ rs vs) : vs.length = rs.length := by
  induction rs generalizing vs with
  | nil => simp only [LVal] at h; subst h; rfl
  | cons r rs ih =>
    obtain ⟨v, vs', rfl, -, h⟩ := h
    simp [ih h]

theorem zip_keys {ks : List String} {rs : List Ref} (h : rs.length = ks.length) : (ks.zip rs).map (·.1) = ks ∧ (ks.zip rs).map (·.2) = rs :=
  ⟨List.map_fst_zip (by omega), List.map_snd_zip (by omega)⟩

/-- Converting the values of a dictionary into a new one. -/
theorem dict_val {C : ObjClasses} {n : Nat} (hg : ConvertsAlike C n) {σ σ1 : Store} {d : List (String × Ref)} {e : Dict} {rs : List Ref} (ht : Tidy C σ)
    (hd : Described C σ) (hr : ∀ r ∈ d.map (·.2), RefIn σ r) (hv : DVal σ d e) (h : mapRefs (objToDicts C n) σ (d.map (·.2)) = .ok (σ1, rs)) :
    Tidy C (σ1.new (.dict ((d.map (·.1)).zip rs))).1 ∧ σ <+: (σ1.new (.dict ((d.map (·.1)).zip rs))).1 ∧
    RefIn (σ1.new (.dict ((d.map (·.1)).zip rs))).1 (σ1.new (.dict ((d.map (·.1)).zip rs))).2 ∧
    ∃ w, mapDictE (recursiveToDicts C.descs n) e = .ok w ∧
      Val (σ1.new (.dict ((d.map (·.1)).zip rs))).1 (σ1.new (.dict ((d.map (·.1)).zip rs))).2 (.dict w) := by
  obtain ⟨vs, hvs, rfl⟩ := DVal_iff.1 hv
  obtain ⟨h1, h2, h3, ws, h4, h5⟩ := mapRefs_val hg _ σ vs σ1 rs ht hd hr hvs h
  obtain ⟨h6, h7, h8⟩ := h1.new (o := .dict ((d.map (·.1)).zip rs)) (fun r hr => h3 r (zip_snd_mem hr)) (by intro _ _ _ h; cases h)
  have hlen : ws.length = vs.length := (mapE_ok h4).1
  have hl1 := hvs.length
  have hl2 := h5.length
  simp only [List.length_map] at hl1
  refine ⟨h6, h2.trans h7, ⟨fun l hl => ?_, fun v hv => by cases hv⟩, _, mapDictE_zip (by simp [hl1]) h4, ?_⟩
  · simp only [Store.new, Ref.obj.injEq] at hl ⊢
    subst hl
    simp
  · refine (Val_dict h8).2 ⟨_, rfl, DVal_iff.2 ⟨ws, ?_, ?_⟩⟩
    · rw [(zip_keys (by simp; omega)).2]
      exact h1.lval h7 h3 h5
    · rw [(zip_keys (by simp; omega)).1]

theorem objToDicts_val (C : ObjClasses) : ∀ n, ConvertsAlike C n := by
  intro n
  induction n with
  | zero => intro σ r v σ' r' _ _ _ _ h; simp [objToDicts] at h
  | succ n ih =>
    intro σ r v σ' r' ht hd hr hv h
    cases r with
    | imm u =>
      simp only [objToDicts, Except.ok.injEq, Prod.mk.injEq] at h
      obtain ⟨rfl, rfl⟩ := h
      have hs := hr.2 u rfl
      cases Val_imm.1 hv
      refine ⟨ht, List.prefix_rfl, hr, v, ?_, hv⟩
      cases v <;> first | rfl | exact hs.elim
    | obj l =>
      simp only [objToDicts] at h
      cases ho : σ[l]? with
      | none => rw [ho] at h; cases h
      | some o =>
        rw [ho] at h
        cases o with
        | bytearray b =>
          simp only [Except.ok.injEq, Prod.mk.injEq] at h
          obtain ⟨rfl, rfl⟩ := h
          cases (Val_bytearray ho).1 hv
          exact ⟨ht, List.prefix_rfl, hr, _, rfl, hv⟩
        | list items =>
          simp only at h
          split at h
          · cases h
          · rename_i σ1 rs h1
            obtain ⟨vs, rfl, hvs⟩ := (Val_list ho).1 hv
            obtain ⟨h2, h3, h4, ws, h5, h6⟩ := mapRefs_val ih items σ vs σ1 rs ht hd (fun r hr => ht.refs ho hr) hvs h1
            obtain ⟨h7, h8, h9⟩ := h2.new (o := .list rs) h4 (by intro _ _ _ h; cases h)
            simp only [Except.ok.injEq] at h
            have e1 : (σ1.new (.list rs)).1 = σ' := by rw [h]
            have e2 : (σ1.new (.list rs)).2 = r' := by rw [h]
            rw [← e1, ← e2]
            refine ⟨h7, h3.trans h8, ⟨fun l hl => ?_, fun v hv => by cases hv⟩, .list ws, ?_, (Val_list h9).2 ⟨ws, rfl, h2.lval h8 h4 h6⟩⟩
            · simp only [Store.new, Ref.obj.injEq] at hl ⊢
              subst hl
              simp
            · simp only [recursiveToDicts, h5, Except.map]
        | dict items =>
          simp only at h
          split at h
          · cases h
          · rename_i σ1 rs h1
            obtain ⟨e, rfl, he⟩ := (Val_dict ho).1 hv
            obtain ⟨h2, h3, h4, w, h5, h6⟩ := dict_val ih ht hd (fun r hr => ht.refs ho hr) he h1
            simp only [Except.ok.injEq] at h
            rw [h] at h2 h3 h4 h6
            exact ⟨h2, h3, h4, .dict w, by simp only [recursiveToDicts, h5, Except.map], h6⟩
        | inst cls vals =>
          simp only at h
          split at h
          · cases h
          · rename_i c hc
            split at h
            · cases h
            · rename_i dct hs
              split at h
              · cases h
              · rename_i σ1 rs h1
                obtain ⟨e, rfl, he⟩ := (Val_inst ho).1 hv
                obtain ⟨hn, hk⟩ := ht.names l cls vals c ho hc
                obtain ⟨dv, h7, h8⟩ := shallow_val hd hc he hn hk hs
                obtain ⟨h2, h3, h4, w, h5, h6⟩ := dict_val ih ht hd (shallow_in hd hc (fun r hr => ht.refs ho hr) hs) h8 h1
                simp only [Except.ok.injEq] at h
                rw [h] at h2 h3 h4 h6
                refine ⟨h2, h3, h4, .dict w, ?_, h6⟩
                simp only [recursiveToDicts, ObjClasses.descs, hc, Option.map_some, h7]
                rw [h5]
                rfl

theorem objToDict_val {C : ObjClasses} {n : Nat} {σ σ' : Store} {l : Nat} {cls : String} {c : ObjClass} {vals : List (String × Ref)} {vv : Dict} {keep : Bool}
    {r : Ref} (ht : Tidy C σ) (hd : Described C σ) (ho : σ[l]? = some (.inst cls vals)) (hc : C cls = some c) (hv : Val σ (.obj l) (.struct cls vv))
    (h : objToDict C n σ c vals keep = .ok (σ', r)) : ∃ w, structToDict C.descs n c.desc vv keep = .ok w ∧ Val σ' r (.dict w) := by
  simp only [objToDict] at h
  split at h
  · cases h
  · rename_i dct hs
    split at h
    · cases h
    · rename_i σ1 rs h1
      obtain ⟨e, heq, he⟩ := (Val_inst ho).1 hv
      cases heq
      obtain ⟨hn, hk⟩ := ht.names l cls vals c ho hc
      obtain ⟨dv, h7, h8⟩ := shallow_val hd hc he hn hk hs
      obtain ⟨h2, h3, h4, w, h5, h6⟩ := dict_val (objToDicts_val C n) ht hd (shallow_in hd hc (fun r hr => ht.refs ho hr) hs) h8 h1
      simp only [Except.ok.injEq] at h
      rw [h] at h6
      exact ⟨w, by simp only [structToDict, h7, h5], h6⟩

end Verif
