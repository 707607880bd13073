import Verif.Spec.Optional
import Verif.Proofs.Schema

/-! Helper lemmas: struct classes with optional fields dump without loss. -/

namespace Verif
open Spec

theorem Spec.Fitting.ne {Γ : Classes} {tags : Dict → Prop} {f : Field} {w : Value} (h : Fitting Γ tags f w) :
    w ≠ .dflt ∧ w ≠ .undefined ∧ w ≠ .notPresent := by
  cases h with
  | @leaf _ b k w h1 _ => refine ⟨?_, ?_, ?_⟩ <;> (rintro rfl; cases k <;> simp [Scalar] at h1)
  | union _ h1 h2 h3 => exact ⟨h1, h2, h3⟩
  | _ => simp

theorem Spec.Fitting.mono {Γ : Classes} {tags tags' : Dict → Prop} {f : Field} {w : Value} (h : Fitting Γ tags f w)
    (hs : ∀ all, tags' all → tags all) : Fitting Γ tags' f w := by
  induction h generalizing tags' with
  | null h1 h2 => exact .null h1 h2
  | leaf h1 h2 h3 => exact .leaf h1 h2 h3
  | array _ ih => exact .array fun w hw => ih w hw hs
  | dict h1 h2 h3 h4 h5 h6 _ => exact .dict h1 h2 h3 h4 h5 h6
  | struct h1 h2 h3 h4 _ => exact .struct h1 h2 h3 h4
  | union h1 h2 h3 h4 _ _ ih1 ih2 =>
    exact .union h1 h2 h3 h4 (fun v ctx all i g ha hd hi => ih1 v ctx all i g (hs _ ha) hd hi hs)
      (fun v ctx all i cls ha hd hi => ih2 v ctx all i cls (hs _ ha) hd hi hs)

theorem Spec.Fitting.any {Γ : Classes} {tags : Dict → Prop} {f : Field} {w : Value} (h : Fitting Γ (fun _ => True) f w) :
    Fitting Γ tags f w := h.mono fun _ _ => trivial

theorem Spec.Fitting.scalar {Γ : Classes} {tags : Dict → Prop} {b : FieldBase} {k : Leaf} {w : Value} (h : Fitting Γ tags (.leaf b k) w)
    (hn : b.nullValue = .undefined) : Scalar k w := by
  cases h with
  | null h1 _ => exact absurd hn h1
  | leaf h1 _ _ => exact h1

theorem scalar_ne {k : Leaf} {w : Value} (h : Scalar k w) : w ≠ .undefined ∧ w ≠ .notPresent ∧ w ≠ .none := by
  refine ⟨?_, ?_, ?_⟩ <;> (rintro rfl; cases k <;> simp [Scalar] at h)

theorem Spec.OptionalSchema.field {Γ : Classes} {d : StructDesc} (h : OptionalSchema Γ d) {f : Field} (hf : f ∈ d.components) :
    ∃ pre post, d.components = pre ++ f :: post ∧ OptionalField Γ d.components pre f := by
  obtain ⟨pre, post, hd⟩ := List.append_of_mem hf
  exact ⟨pre, post, hd, h.fields pre f post hd⟩

theorem Spec.Solid.mono {all fs gs : List Field} {r : String} (h : Solid all fs r) (hs : ∀ f ∈ fs, f ∈ gs) : Solid all gs r := by
  obtain ⟨b, k, h1, h2⟩ := h
  exact ⟨b, k, hs _ h1, h2⟩

/-! ### Plain fields have the same value everywhere -/

/-- What is computed for a plain field that is not set. -/
theorem compute_unset {fields : List Field} {b : FieldBase} {v₁ v₂ : View} {c₁ c₂ : Value} (ha : Always b) (hc : Traceable fields b)
    (hr : ∀ r, Basic fields r → v₁.get r = v₂.get r) (h1 : v₁.contains b.name = false) (h2 : v₂.contains b.name = false) :
    b.computeValueForDump v₁ c₁ = b.computeValueForDump v₂ c₂ := by
  unfold FieldBase.computeValueForDump
  simp only [h1, h2, ha.1, Bool.false_eq_true, if_false]
  cases hf : b.computeFn with
  | none => rfl
  | some fn =>
    obtain ⟨refs, h3, h4⟩ := hc fn hf
    simp only [h4 v₁ v₂ fun r h => hr r (h3 r h)]

theorem traceable_of_none {fields : List Field} {b : FieldBase} (h : b.computeFn = none) : Traceable fields b :=
  fun fn hf => by rw [h] at hf; cases hf

theorem Spec.Basic.solid {all fs : List Field} {r : String} (h : Basic fs r) : Solid all fs r := by
  obtain ⟨b, k, h1, h2, h3, h4, h5⟩ := h
  exact ⟨b, k, h1, h2, h3, h4, traceable_of_none h5⟩

theorem compute_basic {b : FieldBase} {v₁ v₂ : View} {c₁ c₂ : Value} (ha : Always b) (hc : b.computeFn = none)
    (h1 : v₁.contains b.name = false) (h2 : v₂.contains b.name = false) :
    b.computeValueForDump v₁ c₁ = b.computeValueForDump v₂ c₂ := by
  unfold FieldBase.computeValueForDump
  simp only [h1, h2, hc, ha.1, Bool.false_eq_true, if_false]

theorem compute_set {b : FieldBase} {view : View} {c v : Value} (ha : b.present view c none = .ok true)
    (h1 : view.contains b.name = true) (h2 : view.get b.name = .ok v) (hu : v ≠ .undefined) :
    b.computeValueForDump view c = .ok v := by
  unfold FieldBase.computeValueForDump
  simp only [h1, h2, ha, if_true, if_neg hu]
  split
  · rename_i h; rw [h]
  · rfl

theorem not_set {vals : Dict} {k : String} (hn : (Dict.keys vals).Nodup) (hg : Dict.get? vals k = none) : structContains vals k = false := by
  cases hx : structContains vals k with
  | false => rfl
  | true =>
    obtain ⟨v, hv, -⟩ := (structContains_iff hn).1 hx
    rw [hg] at hv; simp at hv

/-- Reading a basic field takes one step. -/
theorem basic_get {d : StructDesc} {vals : Dict} {r : String} (hu : UniqueNames d) (hn : (Dict.keys vals).Nodup) (h : Basic d.components r)
    (n m : Nat) : structGet d vals (n + 1) r = structGet d vals (m + 1) r := by
  obtain ⟨b, k, hf, rfl, ha, -, hc⟩ := h
  rw [structGet, structGet]
  simp only [show d.find? b.name = some (.leaf b k) from find?_of_mem hu hf]
  cases hg : Dict.get? vals b.name with
  | some v => rfl
  | none => exact compute_basic ha hc (not_set hn hg) (not_set hn hg)

theorem solid_get {d : StructDesc} {vals : Dict} {b : FieldBase} {k : Leaf} (hu : UniqueNames d) (hn : (Dict.keys vals).Nodup)
    (hf : Field.leaf b k ∈ d.components) (ha : Always b) (hc : Traceable d.components b)
    (hs : ∀ v, Dict.get? vals b.name = some v → Scalar k v) :
    structGetItem d vals b.name = b.computeValueForDump (structView d vals) .none := by
  have hmem : b.name ∈ names d := List.mem_map.2 ⟨_, hf, rfl⟩
  cases hg : Dict.get? vals b.name with
  | some v =>
    have h1 := structGetItem_some hmem hg
    rw [h1]
    exact (compute_set (ha.1 _ _ _) ((structContains_iff hn).2 ⟨v, hg, (scalar_ne (hs v hg)).1⟩) h1 (scalar_ne (hs v hg)).1).symm
  | none =>
    have hcon : structContains vals b.name = false := not_set hn hg
    have h1 : structGetItem d vals b.name = b.computeValueForDump ⟨structContains vals, structGet d vals d.components.length⟩ .none := by
      unfold structGetItem
      rw [structGet]
      have := find?_of_mem hu hf
      simp only [show d.find? b.name = some (.leaf b k) from this, hg]
      rfl
    rw [h1]
    refine compute_unset ha hc (fun r hr => ?_) hcon hcon
    obtain ⟨m, hm⟩ : ∃ m, d.components.length = m + 1 := by
      cases hl : d.components with
      | nil => rw [hl] at hf; cases hf
      | cons a l => exact ⟨l.length, rfl⟩
    show structGet d vals d.components.length r = structGet d vals (d.components.length + 1) r
    rw [hm]
    exact basic_get hu hn hr m (m + 1)

/-- The stored values of plain fields are scalars. -/
theorem Spec.Bears.solid {Γ : Classes} {d : StructDesc} {vals : Dict} (hh : Bears Γ d vals) {b : FieldBase} {k : Leaf}
    (hf : Field.leaf b k ∈ d.components) (ha : Always b) (v : Value) (hv : Dict.get? vals b.name = some v) : Scalar k v := by
  by_cases h : v = .notPresent
  · subst h
    have := hh.absent _ hf hv
    rw [show (Field.leaf b k).base = b from rfl, ha.1] at this
    simp at this
  · exact (hh.fits _ hf v hv h).scalar ha.2

/-- `to_dict` has the value of a field that is computed the same way from the struct and from the dictionary under construction. -/
theorem shallow_value {Γ : Classes} {d : StructDesc} {vals dct : Dict} (hd : OptionalSchema Γ d) (hh : Bears Γ d vals)
    (h : toDictShallow d vals false = .ok dct) {b : FieldBase} {k : Leaf} (hf : Field.leaf b k ∈ d.components) (ha : Always b)
    (hk : b.discard = false) (hc : Traceable d.components b)
    (hw : ∀ w, whateverPossible d vals = .ok w → structContains vals b.name = false → Dict.get? w b.name = none →
      b.computeValueForDump (structView d vals) .none = b.computeValueForDump (Dict.view w) .none) :
    ∃ x, structGetItem d vals b.name = .ok x ∧ Dict.get? dct b.name = some x ∧ Scalar k x ∧
      b.computeValueForDump (structView d vals) .none = .ok x := by
  have hget := solid_get hd.unique hh.inst.1 hf ha hc (hh.solid hf ha)
  obtain ⟨-, -, h8⟩ := toDictShallow_get hd.unique hh.inst h
  obtain ⟨pre, post, -, hof⟩ := hd.field hf
  rcases h8 _ hf with ⟨-, h9, -⟩ | ⟨-, v, h9, h10⟩
  · rw [show (Field.leaf b k).base.discard = false from hk] at h9; simp at h9
  · have hval : b.computeValueForDump (structView d vals) .none = .ok v := by
      rcases h9 with h9 | ⟨e, h9, -, ⟨h11, h12⟩ | ⟨h11, w, hw', h12, h13⟩⟩
      · exact h9
      · have h13 := compute_set (b := b) (c := .none) (ha.1 (structView d vals) .none none) h11
          (structGetItem_some (List.mem_map.2 ⟨_, hf, rfl⟩) h12) (scalar_ne (hh.solid hf ha v h12)).1
        exact h13
      · rw [hw w hw' h11 h12]; exact h13
    refine ⟨v, hget ▸ hval, h10, ?_, hval⟩
    obtain ⟨w, h1, ⟨rfl, h2⟩ | ⟨rfl, -, h2, -⟩⟩ := computeValueForDump_ok hval
    · exfalso
      rcases h2 with rfl | h2
      · cases h1 with
        | explicit h3 h4 =>
          obtain ⟨x, hx, -⟩ := (structContains_iff hh.inst.1).1 h3
          have h5 := structGetItem_some (d := d) (List.mem_map.2 ⟨_, hf, rfl⟩) hx
          have h6 : structGetItem d vals b.name = .ok .notPresent := h4
          rw [show (Field.leaf b k).name = b.name from rfl] at h5
          rw [h5] at h6; cases h6
          exact (scalar_ne (hh.solid hf ha _ hx)).2.1 rfl
        | default h3 h4 h5 => exact (hof.defaults _ h4 h5).ne.2.2 rfl
        | computed h3 h4 h5 h6 => exact (hof.computed _ _ _ h5 h6).ne.2.2 rfl
      · rw [ha.1] at h2; simp at h2
    · cases h1 with
      | explicit h3 h4 =>
        obtain ⟨x, hx, -⟩ := (structContains_iff hh.inst.1).1 h3
        have h5 := structGetItem_some (d := d) (List.mem_map.2 ⟨_, hf, rfl⟩) hx
        have h6 : structGetItem d vals b.name = .ok v := h4
        rw [show (Field.leaf b k).name = b.name from rfl] at h5
        rw [h5] at h6; cases h6
        exact hh.solid hf ha _ hx
      | default h3 h4 h5 => exact (hof.defaults _ h4 h5).scalar ha.2
      | computed h3 h4 h5 h6 => exact (hof.computed _ _ _ h5 h6).scalar ha.2
      | nothing => exact absurd rfl h2

theorem view_unset {dct : Dict} {k : String} (h : Dict.get? dct k = none) : (Dict.view dct).contains k = false := by
  simp only [Dict.view, Dict.contains_eq, h]; rfl

/-- Basic fields have the same value in the struct and in the dictionary under construction. -/
theorem basic_whatever {Γ : Classes} {d : StructDesc} {vals dct w : Dict} (hd : OptionalSchema Γ d) (hh : Bears Γ d vals)
    (h : toDictShallow d vals false = .ok dct) (hw : whateverPossible d vals = .ok w) {r : String} (hr : Basic d.components r) :
    structGetItem d vals r = (Dict.view w).get r := by
  obtain ⟨b, k, hf, rfl, ha, hk, hc⟩ := hr
  obtain ⟨x, h1, -, -, h4⟩ := shallow_value hd hh h hf ha hk (traceable_of_none hc)
    fun w _ h1 h2 => compute_basic ha hc h1 (view_unset h2)
  obtain ⟨-, -, h5⟩ := whateverPossible_get hd.unique hh.inst hw
  rcases h5 _ hf with ⟨y, h6, h7⟩ | ⟨e, h6, -⟩
  · rw [show (Field.leaf b k).base = b from rfl, h4] at h6; cases h6
    rw [h1]; exact (view_get h7).symm
  · rw [show (Field.leaf b k).base = b from rfl, h4] at h6; simp at h6

/-- `to_dict` has the value of every plain field, the one `struct[name]` gives. -/
theorem solid_shallow {Γ : Classes} {d : StructDesc} {vals dct : Dict} (hd : OptionalSchema Γ d) (hh : Bears Γ d vals)
    (h : toDictShallow d vals false = .ok dct) {b : FieldBase} {k : Leaf} (hf : Field.leaf b k ∈ d.components) (ha : Always b)
    (hk : b.discard = false) (hc : Traceable d.components b) :
    ∃ x, structGetItem d vals b.name = .ok x ∧ Dict.get? dct b.name = some x ∧ Scalar k x ∧
      b.computeValueForDump (structView d vals) .none = .ok x :=
  shallow_value hd hh h hf ha hk hc fun _ hw h1 h2 => compute_unset ha hc (fun _ hr => basic_whatever hd hh h hw hr) h1 (view_unset h2)

theorem view_contains {dct : Dict} {k : String} {v : Value} (h : Dict.get? dct k = some v) : (Dict.view dct).contains k = true := by
  simp only [Dict.view, Dict.contains_eq, h]; rfl

/-- `present` says the same of the struct as of any dictionary with the same plain fields. -/
theorem present_shallow {Γ : Classes} {d : StructDesc} {vals dct : Dict} (hd : OptionalSchema Γ d) (hh : Bears Γ d vals)
    (h : toDictShallow d vals false = .ok dct) {f : Field} (hf : f ∈ d.components) {view : View}
    (hview : ∀ b k x, Field.leaf b k ∈ d.components → Always b → Traceable d.components b → structGetItem d vals b.name = .ok x →
      b.computeValueForDump (structView d vals) .none = .ok x → Dict.get? dct b.name = some x → Scalar k x → view.get b.name = .ok x)
    (c c' : Value) (s s' : Option Stream) :
    f.base.present view c s = f.base.present (structView d vals) c' s' := by
  obtain ⟨pre, post, hpre, hof⟩ := hd.field hf
  obtain ⟨refs, hr, hdep⟩ := hof.optional
  refine hdep _ _ _ _ _ _ fun r hx => ?_
  obtain ⟨b, k, h1, rfl, h2, hk, h3⟩ := hr r hx
  have hf' : Field.leaf b k ∈ d.components := by rw [hpre]; simp [h1]
  obtain ⟨x, h4, h5, h6, h7⟩ := solid_shallow hd hh h hf' h2 hk h3
  rw [hview b k x hf' h2 h3 h4 h7 h5 h6]
  exact h4.symm

/-! ### What `to_dict` has for a field -/

theorem shallow_cases {Γ : Classes} {d : StructDesc} {vals dct : Dict} (hd : OptionalSchema Γ d) (hh : Bears Γ d vals)
    (h : toDictShallow d vals false = .ok dct) {f : Field} (hf : f ∈ d.components) (hk : f.base.discard = false) :
    ∃ v, Dict.get? dct f.name = some v ∧
      ((v = .notPresent ∧ f.base.present (structView d vals) .none none = .ok false) ∨
       (v ≠ .notPresent ∧ Fitting Γ (SameTags d vals) f v ∧ f.base.present (structView d vals) .none none ≠ .ok false)) := by
  obtain ⟨-, -, h8⟩ := toDictShallow_get hd.unique hh.inst h
  obtain ⟨pre, post, hpre, hof⟩ := hd.field hf
  have hmem : f.name ∈ names d := List.mem_map.2 ⟨f, hf, rfl⟩
  rcases h8 _ hf with ⟨-, h9, -⟩ | ⟨-, v, h9, h10⟩
  · rw [hk] at h9; simp at h9
  · refine ⟨v, h10, ?_⟩
    rcases h9 with h9 | ⟨e, h9, -, ⟨h11, h12⟩ | ⟨h11, w, hw, h12, h13⟩⟩
    · obtain ⟨v0, h1, ⟨rfl, h2⟩ | ⟨rfl, h2, h3, h4⟩⟩ := computeValueForDump_ok h9
      · refine Or.inl ⟨rfl, ?_⟩
        rcases h2 with rfl | h2
        · cases h1 with
          | explicit h3 h4 =>
            obtain ⟨x, hx, -⟩ := (structContains_iff hh.inst.1).1 h3
            have h5 := structGetItem_some (d := d) hmem hx
            have h6 : structGetItem d vals f.name = .ok .notPresent := h4
            rw [h5] at h6; cases h6
            exact hh.absent f hf hx
          | default h3 h4 h5 => exact absurd rfl (hof.defaults _ h4 h5).ne.2.2
          | computed h3 h4 h5 h6 => exact absurd rfl (hof.computed _ _ _ h5 h6).ne.2.2
        · exact h2
      · refine Or.inr ⟨h2, ?_, by rw [h4]; simp⟩
        cases h1 with
        | explicit h5 h6 =>
          obtain ⟨x, hx, -⟩ := (structContains_iff hh.inst.1).1 h5
          have h7 := structGetItem_some (d := d) hmem hx
          have h8 : structGetItem d vals f.name = .ok v := h6
          rw [h7] at h8; cases h8
          exact hh.fits f hf _ hx h2
        | default h3 h4 h5 => exact (hof.defaults _ h4 h5).any
        | computed h3 h4 h5 h6 => exact (hof.computed _ _ _ h5 h6).any
        | nothing => exact absurd rfl h3
    · have hget := structGetItem_some (d := d) hmem h12
      have key : ∀ r : Value, f.base.computeValueForDump (structView d vals) .none ≠ .ok r := by
        intro r hr; rw [h9] at hr; simp at hr
      have hne : v ≠ .notPresent := by
        rintro rfl
        refine key .notPresent ?_
        unfold FieldBase.computeValueForDump
        simp only [structView, show f.base.name = f.name from rfl, h11, hget, if_true]
      refine Or.inr ⟨hne, hh.fits f hf v h12 hne, fun hp => key .notPresent ?_⟩
      unfold FieldBase.computeValueForDump
      have h1 : (structView d vals).contains f.base.name = true := h11
      have h2 : (structView d vals).get f.base.name = .ok v := hget
      simp only [h1, h2, hp, if_true, if_neg hne]
    · have hpw : f.base.present (Dict.view w) .none none = f.base.present (structView d vals) .none none := by
        refine present_shallow hd hh h hf ?_ _ _ _ _
        intro b k x hbk _ _ _ h4 _ _
        obtain ⟨-, -, h5⟩ := whateverPossible_get hd.unique hh.inst hw
        rcases h5 _ hbk with ⟨y, h6, h7⟩ | ⟨e, h6, -⟩
        · rw [show (Field.leaf b k).base = b from rfl, h4] at h6; cases h6
          exact view_get h7
        · rw [show (Field.leaf b k).base = b from rfl, h4] at h6; simp at h6
      have hno : (Dict.view w).contains f.base.name = false := by
        simp only [Dict.view, Dict.contains_eq]; rw [show f.base.name = f.name from rfl, h12]; rfl
      obtain ⟨v0, h1, ⟨rfl, h2⟩ | ⟨rfl, h2, h3, h4⟩⟩ := computeValueForDump_ok h13
      · refine Or.inl ⟨rfl, ?_⟩
        rcases h2 with rfl | h2
        · cases h1 with
          | explicit h3 h4 => rw [hno] at h3; simp at h3
          | default h3 h4 h5 => exact absurd rfl (hof.defaults _ h4 h5).ne.2.2
          | computed h3 h4 h5 h6 => exact absurd rfl (hof.computed _ _ _ h5 h6).ne.2.2
        · rw [← hpw]; exact h2
      · refine Or.inr ⟨h2, ?_, by rw [← hpw, h4]; simp⟩
        cases h1 with
        | explicit h5 h6 => rw [hno] at h5; simp at h5
        | default h3 h4 h5 => exact (hof.defaults _ h4 h5).any
        | computed h3 h4 h5 h6 => exact (hof.computed _ _ _ h5 h6).any
        | nothing => exact absurd rfl h3

/-! ### Conversion of nested structs -/

theorem toDicts_scalar {Γ : Classes} {n : Nat} {k : Leaf} {v w : Value} (hs : Scalar k v) (h : recursiveToDicts Γ n v = .ok w) : w = v :=
  (recursiveToDicts_spec h).2 (Scalar.noStruct hs)

/-- Converting the values of a dictionary changes nothing of the fields that are computed in the same way before and after. -/
theorem mapped_value {Γ : Classes} {n : Nat} {d : StructDesc} {vals r : Dict} (hd : OptionalSchema Γ d) (hh : Bears Γ d vals)
    (hr : mapDictE (recursiveToDicts Γ n) vals = .ok r) {b : FieldBase} {k : Leaf} (hf : Field.leaf b k ∈ d.components) (ha : Always b)
    (hc : Traceable d.components b)
    (hb : structContains r b.name = false → structContains vals b.name = false →
      b.computeValueForDump (structView d r) .none = b.computeValueForDump (structView d vals) .none) :
    structGetItem d r b.name = structGetItem d vals b.name := by
  obtain ⟨h1, h2⟩ := mapDictE_ok hr
  have hsame : Dict.get? r b.name = Dict.get? vals b.name := by
    rcases h2 b.name with ⟨h6, h7⟩ | ⟨x, y, h6, h7, h8⟩
    · rw [h6, h7]
    · rw [h6, h7, toDicts_scalar (hh.solid hf ha x h6) h8]
  cases hg : Dict.get? vals b.name with
  | some v =>
    have hm : b.name ∈ names d := List.mem_map.2 ⟨_, hf, rfl⟩
    rw [structGetItem_some hm hg, structGetItem_some hm (hsame.trans hg)]
  | none =>
    have hn : (Dict.keys r).Nodup := h1 ▸ hh.inst.1
    rw [solid_get hd.unique hn hf ha hc (by rw [hsame]; exact hh.solid hf ha),
      solid_get hd.unique hh.inst.1 hf ha hc (hh.solid hf ha)]
    exact hb (not_set hn (hsame.trans hg)) (not_set hh.inst.1 hg)

/-- Converting the values of a dictionary changes nothing of the plain fields. -/
theorem solid_mapped {Γ : Classes} {n : Nat} {d : StructDesc} {vals r : Dict} (hd : OptionalSchema Γ d) (hh : Bears Γ d vals)
    (hr : mapDictE (recursiveToDicts Γ n) vals = .ok r) {x : String} (hx : Solid d.components d.components x) :
    structGetItem d r x = structGetItem d vals x := by
  obtain ⟨b, k, hf, rfl, ha, -, hc⟩ := hx
  refine mapped_value hd hh hr hf ha hc fun h1 h2 => compute_unset ha hc (fun q hq => ?_) h1 h2
  obtain ⟨b', k', hf', rfl, ha', -, hc'⟩ := hq
  exact mapped_value hd hh hr hf' ha' (traceable_of_none hc') fun h1 h2 => compute_basic ha' hc' h1 h2

theorem solid_of_pre {d : StructDesc} {pre post : List Field} {f : Field} (hpre : d.components = pre ++ f :: post) {r : String}
    (h : Solid d.components pre r) : Solid d.components d.components r := h.mono fun g hg => by rw [hpre]; simp [hg]

/-- Converting the values of a dictionary changes nothing of what `present` sees. -/
theorem present_mapped {Γ : Classes} {n : Nat} {d : StructDesc} {vals r : Dict} (hd : OptionalSchema Γ d) (hh : Bears Γ d vals)
    (hr : mapDictE (recursiveToDicts Γ n) vals = .ok r) {f : Field} (hf : f ∈ d.components) (c : Value) (s : Option Stream) :
    f.base.present (structView d r) c s = f.base.present (structView d vals) c s := by
  obtain ⟨pre, post, hpre, hof⟩ := hd.field hf
  obtain ⟨refs, hrefs, hdep⟩ := hof.optional
  exact hdep _ _ _ _ _ _ fun x hx => solid_mapped hd hh hr (solid_of_pre hpre (hrefs x hx))

/-- `to_dict` keeps values matching their fields. -/
theorem toDicts_fitting {Γ : Classes} (hΓ : ∀ c d, Γ c = some d → OptionalSchema Γ d) {n : Nat} {tags : Dict → Prop} {f : Field}
    {v w : Value} (ht : Fitting Γ tags f v) (h : recursiveToDicts Γ n v = .ok w) : Fitting Γ tags f w := by
  induction n generalizing tags f v w with
  | zero => simp [recursiveToDicts] at h
  | succ n ih =>
    induction ht with
    | union h1 h2 h3 h4 _ _ ih1 ih2 =>
      have hm := recursiveToDicts_marker h
      exact .union (fun h5 => h1 (hm.2.2.1.1 h5)) (fun h5 => h2 (hm.2.2.2 h5)) (fun h5 => h3 (hm.2.1 h5)) (fun h5 => h4 (hm.1 h5))
        (fun v ctx all i g ha hd hi => ih1 v ctx all i g ha hd hi h) (fun v ctx all i cls ha hd hi => ih2 v ctx all i cls ha hd hi h)
    | null h1 h2 =>
      simp only [recursiveToDicts, Except.ok.injEq] at h
      subst h; exact .null h1 h2
    | leaf h1 h2 h3 => rw [toDicts_scalar h1 h]; exact .leaf h1 h2 h3
    | array h1 _ =>
      simp only [recursiveToDicts] at h
      obtain ⟨r, hr, rfl⟩ := Except.map_ok h
      exact .array (mapE_forall hr fun a ha b hb => ih (h1 a ha) hb)
    | @dict _ b cls d vals h1 h2 h3 h4 hdisc h5 _ =>
      simp only [recursiveToDicts] at h
      obtain ⟨r, hr, rfl⟩ := Except.map_ok h
      have hh : Bears Γ d vals := ⟨h2, h3, h5⟩
      have hpres := fun (g : Field) (hg : g ∈ d.components) => present_mapped (hΓ _ _ h1) hh hr hg .none none
      obtain ⟨h6, h7⟩ := mapDictE_ok hr
      have hback : ∀ k y, Dict.get? r k = some y → ∃ x, Dict.get? vals k = some x ∧ recursiveToDicts Γ n x = .ok y := by
        intro k y hy
        rcases h7 k with ⟨-, h8⟩ | ⟨x, y', h8, h9, h10⟩
        · rw [hy] at h8; simp at h8
        · rw [hy] at h9; cases h9; exact ⟨x, h8, h10⟩
      have hnp : ∀ {x y}, recursiveToDicts Γ n x = .ok y → y ≠ .notPresent → x ≠ .notPresent := by
        rintro x y hxy hy rfl
        exact hy ((recursiveToDicts_spec hxy).2 (by constructor))
      refine .dict h1 ⟨h6 ▸ h2.1, fun k hk => h2.2 k (h6 ▸ hk)⟩ (fun g hg hy => ?_) (fun g hg y hy hne => ?_) (fun g hg hdg => ?_) (fun g hg y hy hne => ?_)
      · obtain ⟨x, hx, hxy⟩ := hback _ _ hy
        rw [hpres g hg]
        exact h3 g hg ((recursiveToDicts_marker hxy).1 rfl ▸ hx)
      · obtain ⟨x, hx, hxy⟩ := hback _ _ hy
        rw [hpres g hg]
        exact h4 g hg x hx (hnp hxy hne)
      · rcases h7 g.name with ⟨-, h8⟩ | ⟨x, y, h8, -⟩
        · exact h8
        · rw [hdisc g hg hdg] at h8; simp at h8
      · obtain ⟨x, hx, hxy⟩ := hback _ _ hy
        refine (ih (h5 g hg x hx (hnp hxy hne)) hxy).mono fun all ha q z hq hz => ha q z hq ?_
        rw [solid_mapped (hΓ _ _ h1) hh hr hq]; exact hz
    | @struct _ b cls d vals h1 h2 h3 h5 _ =>
      simp only [recursiveToDicts, h1] at h
      cases hs : toDictShallow d vals false with
      | error e => simp [hs] at h
      | ok dct =>
        simp only [hs] at h
        obtain ⟨r, hr, rfl⟩ := Except.map_ok h
        have hd := hΓ _ _ h1
        have hh : Bears Γ d vals := ⟨h2, h3, h5⟩
        obtain ⟨h6, h7, hget⟩ := toDictShallow_get hd.unique h2 hs
        have hgone : ∀ g ∈ d.components, g.base.discard = true → Dict.get? dct g.name = none := by
          intro g hg hdg
          rcases hget g hg with ⟨-, -, h⟩ | ⟨h | h, -⟩
          · exact h
          · simp at h
          · rw [hdg] at h; simp at h
        obtain ⟨h8, h9⟩ := mapDictE_ok hr
        have hval : ∀ b k x, Field.leaf b k ∈ d.components → Dict.get? dct b.name = some x → Scalar k x → structGetItem d r b.name = .ok x := by
          intro b k x hbk h10 h11
          rcases h9 b.name with ⟨h12, -⟩ | ⟨x', y, h12, h13, h14⟩
          · rw [h10] at h12; simp at h12
          · rw [h10] at h12; cases h12
            rw [toDicts_scalar h11 h14] at h13
            exact structGetItem_some (List.mem_map.2 ⟨_, hbk, rfl⟩) h13
        have hpres : ∀ g ∈ d.components, g.base.present (structView d r) .none none = g.base.present (structView d vals) .none none := by
          intro g hg
          refine present_shallow hd hh hs hg ?_ _ _ _ _
          intro b k x hbk _ _ _ _ h10 h11
          exact hval b k x hbk h10 h11
        have hback : ∀ g ∈ d.components, ∀ y, Dict.get? r g.name = some y →
            (y = .notPresent ∧ g.base.present (structView d vals) .none none = .ok false) ∨
            (y ≠ .notPresent ∧ Fitting Γ (SameTags d vals) g y ∧ g.base.present (structView d vals) .none none ≠ .ok false) := by
          intro g hg y hy
          rcases h9 g.name with ⟨-, h12⟩ | ⟨x', y', h12, h13, h14⟩
          · rw [hy] at h12; simp at h12
          · have hkg : g.base.discard = false := by
              cases hx : g.base.discard with
              | false => rfl
              | true => rw [hgone g hg hx] at h12; simp at h12
            obtain ⟨v, h10, h11⟩ := shallow_cases hd hh hs hg hkg
            rw [hy] at h13; cases h13
            rw [h10] at h12; cases h12
            rcases h11 with ⟨rfl, h11⟩ | ⟨h11, h15, h16⟩
            · exact Or.inl ⟨(recursiveToDicts_spec h14).2 (by constructor), h11⟩
            · exact Or.inr ⟨fun h17 => h11 ((recursiveToDicts_marker h14).1 h17), ih h15 h14, h16⟩
        refine .dict h1 ⟨h8 ▸ h6, fun k hk => h7 k (h8 ▸ hk)⟩ (fun g hg hy => ?_) (fun g hg y hy hne => ?_) (fun g hg hdg => ?_) (fun g hg y hy hne => ?_)
        · rw [hpres g hg]
          rcases hback g hg _ hy with ⟨-, h10⟩ | ⟨h10, -⟩
          · exact h10
          · exact absurd rfl h10
        · rw [hpres g hg]
          rcases hback g hg _ hy with ⟨h10, -⟩ | ⟨-, -, h10⟩
          · exact absurd h10 hne
          · exact h10
        · rcases h9 g.name with ⟨-, h10⟩ | ⟨x, y, h10, -⟩
          · exact h10
          · rw [hgone g hg hdg] at h10; simp at h10
        · rcases hback g hg _ hy with ⟨h10, -⟩ | ⟨-, h10, -⟩
          · exact absurd h10 hne
          · refine h10.mono fun all ha q z hq hz => ha q z hq ?_
            obtain ⟨b, k, hf', rfl, h4, hk', h5⟩ := hq
            obtain ⟨x, h11, h12, h13, -⟩ := solid_shallow hd hh hs hf' h4 hk' h5
            rw [h11] at hz; cases hz
            exact hval b k _ hf' h12 h13

/-- What `to_dict` has for a field, and what `present` says then. -/
theorem toDict_cases {Γ : Classes} (hΓ : ∀ c d, Γ c = some d → OptionalSchema Γ d) {n : Nat} {d : StructDesc} {vals all : Dict}
    (hd : OptionalSchema Γ d) (hh : Bears Γ d vals) (h : structToDict Γ n d vals = .ok all) {f : Field} (hf : f ∈ d.components)
    (hk : f.base.discard = false) :
    ∃ w, Dict.get? all f.name = some w ∧ NoStruct w ∧
      ((w = .notPresent ∧ f.base.present (structView d vals) .none none = .ok false) ∨
       (w ≠ .notPresent ∧ Fitting Γ (SameTags d vals) f w ∧ f.base.present (structView d vals) .none none ≠ .ok false)) := by
  unfold structToDict at h
  split at h
  · simp at h
  · rename_i dct hdct
    obtain ⟨v, h1, h2⟩ := shallow_cases hd hh hdct hf hk
    obtain ⟨-, h5⟩ := mapDictE_ok h
    rcases h5 f.name with ⟨h6, -⟩ | ⟨x, y, h6, h7, h8⟩
    · rw [h1] at h6; simp at h6
    · rw [h1] at h6; cases h6
      refine ⟨y, h7, (recursiveToDicts_spec h8).1, ?_⟩
      rcases h2 with ⟨rfl, h2⟩ | ⟨h2, h3, h4⟩
      · exact Or.inl ⟨(recursiveToDicts_spec h8).2 (by constructor), h2⟩
      · exact Or.inr ⟨fun h9 => h2 ((recursiveToDicts_marker h8).1 h9), toDicts_fitting hΓ h3 h8, h4⟩

/-- The value of a plain field in `to_dict`, which is that of the struct. -/
theorem solid_toDict {Γ : Classes} {n : Nat} {d : StructDesc} {vals all : Dict} (hd : OptionalSchema Γ d) (hh : Bears Γ d vals)
    (h : structToDict Γ n d vals = .ok all) {b : FieldBase} {k : Leaf} (hf : Field.leaf b k ∈ d.components) (ha : Always b)
    (hk : b.discard = false) (hc : Traceable d.components b) : ∃ x, structGetItem d vals b.name = .ok x ∧ Dict.get? all b.name = some x ∧ Scalar k x := by
  unfold structToDict at h
  split at h
  · simp at h
  · rename_i dct hdct
    obtain ⟨x, h1, h2, h3, -⟩ := solid_shallow hd hh hdct hf ha hk hc
    obtain ⟨-, h5⟩ := mapDictE_ok h
    rcases h5 b.name with ⟨h6, -⟩ | ⟨x', y, h6, h7, h8⟩
    · rw [h2] at h6; simp at h6
    · rw [h2] at h6; cases h6
      rw [toDicts_scalar h3 h8] at h7
      exact ⟨_, h1, h7, h3⟩

theorem scalar_eq {k : Leaf} {v w : Value} (hs : Scalar k w) (h : Stands v w) : v = w :=
  h.scalar (by rintro l rfl; cases k <;> simp [Scalar] at hs) (by rintro l rfl; cases k <;> simp [Scalar] at hs)

/-- The checks that accepted a struct accept what is loaded from its dump. -/
theorem Spec.OptionalSchema.accepts {Γ : Classes} {n : Nat} {d : StructDesc} {vals all r : Dict} (hd : OptionalSchema Γ d)
    (hh : Bears Γ d vals) (h : structToDict Γ n d vals = .ok all) (hval : Valid d vals) (hr : Dict.keys r = names d)
    (hst : ∀ k v w, Dict.get? r k = some v → Dict.get? all k = some w → Stands v w) : Valid d r := by
  have hset : ∀ f ∈ d.components, ∃ v, Dict.get? r f.name = some v := by
    intro f hf
    cases hg : Dict.get? r f.name with
    | none => exact absurd (by rw [hr]; exact List.mem_map.2 ⟨f, hf, rfl⟩) ((Dict.get?_none_iff _ _).1 hg)
    | some v => exact ⟨v, rfl⟩
  refine hd.checks vals r hh.inst ⟨by rw [hr]; exact hd.unique, by rw [hr]; exact fun _ h => h⟩ ?_ (fun f hf => ?_) hval
  · rintro q ⟨b, k, hb, rfl, ha, hk, hc⟩
    obtain ⟨x, h1, h2, h3⟩ := solid_toDict hd hh h hb ha hk hc
    obtain ⟨v, hv⟩ := hset _ hb
    have := scalar_eq h3 (hst _ _ _ hv h2)
    subst this
    exact ⟨v, h1, structGetItem_some (List.mem_map.2 ⟨_, hb, rfl⟩) hv⟩
  · obtain ⟨v, hv⟩ := hset f hf
    exact ⟨v, structGetItem_some (List.mem_map.2 ⟨_, hf, rfl⟩) hv⟩

/-- `present` says the same when the struct is dumped. -/
theorem present_toDict {Γ : Classes} {n : Nat} {d : StructDesc} {vals all : Dict} (hd : OptionalSchema Γ d) (hh : Bears Γ d vals)
    (h : structToDict Γ n d vals = .ok all) {f : Field} (hf : f ∈ d.components) (c : Value) (s : Option Stream) :
    f.base.present all.view c s = f.base.present (structView d vals) .none none := by
  obtain ⟨pre, post, hpre, hof⟩ := hd.field hf
  obtain ⟨refs, hr, hdep⟩ := hof.optional
  refine hdep _ _ _ _ _ _ fun r hx => ?_
  obtain ⟨b, k, h1, rfl, h2, hk, h3⟩ := hr r hx
  obtain ⟨x, h4, h5, -⟩ := solid_toDict hd hh h (show Field.leaf b k ∈ d.components by rw [hpre]; simp [h1]) h2 hk h3
  rw [view_get h5]
  exact h4.symm

/-- `present` says the same when the struct is loaded. -/
theorem present_loaded {Γ : Classes} {n : Nat} {d : StructDesc} {vals all loaded : Dict} (hd : OptionalSchema Γ d) (hh : Bears Γ d vals)
    (h : structToDict Γ n d vals = .ok all) {pre post : List Field} {f : Field} (hpre : d.components = pre ++ f :: post)
    (hc : Consistent (pre.map Field.name) all loaded) (c : Value) (s : Option Stream) :
    f.base.present loaded.view c s = f.base.present (structView d vals) .none none := by
  obtain ⟨refs, hr, hdep⟩ := (hd.fields pre f post hpre).optional
  refine hdep _ _ _ _ _ _ fun r hx => ?_
  obtain ⟨b, k, h1, rfl, h2, hk, h3⟩ := hr r hx
  obtain ⟨x, h4, h5, h6⟩ := solid_toDict hd hh h (show Field.leaf b k ∈ d.components by rw [hpre]; simp [h1]) h2 hk h3
  have h7 : Dict.get? loaded b.name ≠ none := (hc.1 b.name).2 (List.mem_map.2 ⟨_, h1, rfl⟩)
  cases hg : Dict.get? loaded b.name with
  | none => exact absurd hg h7
  | some v =>
    have h8 := hc.2 _ _ _ hg h5
    have : v = x := h8.scalar (by rintro l rfl; cases k <;> simp [Scalar] at h6) (by rintro l rfl; cases k <;> simp [Scalar] at h6)
    subst this
    rw [view_get hg]
    exact h4.symm

/-! ### Dumping without loss -/

theorem Spec.Omitted.of_absent {ctx : Value} {earlier : List String} {all : Dict} {f : Field}
    (h : ∀ loaded s, Consistent earlier all loaded → f.base.present loaded.view ctx (some s) = .ok false)
    (hn : f.base.notPresentValue = .notPresent) (hw : Dict.get? all f.name = some .notPresent) : Omitted ctx earlier all f := by
  refine ⟨h, fun w hx => ?_⟩
  rw [hw] at hx; cases hx
  rw [hn]; exact .same _

theorem chosen_all {all : Dict} {f : Field} {v w : Value} (h : Chosen f.base all.view v) (hw : Dict.get? all f.name = some w) : v = w :=
  Chosen.unique h (.explicit (view_contains hw) (view_get hw))

/-- Which fields are skipped, and what the others are dumped with. -/
theorem optional_facts {Γ : Classes} (hΓ : ∀ c d, Γ c = some d → OptionalSchema Γ d) {ctx : Value} {n : Nat} {d : StructDesc}
    {vals all : Dict} (hd : OptionalSchema Γ d) (hh : Bears Γ d vals) (h : structToDict Γ n d vals = .ok all) {pre post : List Field}
    {f : Field} (hpre : d.components = pre ++ f :: post) :
    (Skipped f all ctx → f.base.present (structView d vals) .none none = .ok false ∧ Omitted ctx (pre.map Field.name) all f) ∧
    ∀ w, Dumped f all ctx w → f.base.present (structView d vals) .none none = .ok true ∧ LoadsPresent ctx (pre.map Field.name) all f.base ∧
      Fitting Γ (SameTags d vals) f w ∧ NoStruct w ∧ SameTags d vals all ∧
      ∀ r, Solid d.components pre r → ∃ k x, Dict.get? all r = some x ∧ Scalar k x := by
  have hf : f ∈ d.components := by rw [hpre]; simp
  have hof := hd.fields pre f post hpre
  have hpa := fun c s => present_toDict hd hh h hf c s
  have htags : SameTags d vals all := by
    rintro r x ⟨b, k, h8, rfl, h9, hk, h10⟩ hx
    obtain ⟨x', h11, h12, -⟩ := solid_toDict hd hh h h8 h9 hk h10
    rw [hx] at h11; cases h11; exact h12
  have hsolid : ∀ r, Solid d.components pre r → ∃ k x, Dict.get? all r = some x ∧ Scalar k x := by
    rintro r ⟨b, k, h8, rfl, h9, hk, h10⟩
    obtain ⟨x, -, h11, h12⟩ := solid_toDict hd hh h (show Field.leaf b k ∈ d.components by rw [hpre]; simp [h8]) h9 hk h10
    exact ⟨k, x, h11, h12⟩
  cases hdisc : f.base.discard with
  | true =>
    obtain ⟨⟨b, k, rfl⟩, hcf⟩ := hof.kept.resolve_left (by simp [hdisc])
    have hgone : Dict.get? all b.name = none := by
      obtain ⟨-, -, h1⟩ := structToDict_get hd.unique hh.inst h
      rcases h1 _ hf with ⟨-, -, h1⟩ | ⟨h1 | h1, -⟩
      · exact h1
      · simp at h1
      · rw [hdisc] at h1; simp at h1
    have hno : all.view.contains b.name = false := view_unset hgone
    have hfit : ∀ v, Chosen b all.view v → v ≠ .undefined → Fitting Γ (fun _ => True) (.leaf b k) v := by
      intro v hv hne
      cases hv with
      | explicit h3 h4 => rw [hno] at h3; simp at h3
      | default h3 h4 h5 => exact hof.defaults _ h4 h5
      | computed h3 h4 h5 h6 => exact hof.computed _ _ _ h5 h6
      | nothing => exact absurd rfl hne
    constructor
    · rintro ⟨v, h4, h5⟩
      have hp : b.present (structView d vals) .none none = .ok false := by
        rcases h5 with rfl | h5
        · exact absurd rfl (hfit _ h4 (by simp)).ne.2.2
        · exact (hpa ctx none).symm.trans h5
      refine ⟨hp, fun loaded s hc => ?_, fun w hw => ?_⟩
      · rw [present_loaded hd hh h hpre hc]; exact hp
      · rw [show (Field.leaf b k).name = b.name from rfl, hgone] at hw; simp at hw
    · rintro w ⟨h4, h5, h6, h7⟩
      have hfw := hfit w h4 h6
      rw [hpa] at h7
      refine ⟨h7, fun loaded s hc => by rw [present_loaded hd hh h hpre hc, h7], hfw.any, ?_, htags, hsolid⟩
      cases hfw with
      | null => constructor
      | leaf h8 _ _ => exact Scalar.noStruct h8
  | false =>
  obtain ⟨w', h1, h2, h3⟩ := toDict_cases hΓ hd hh h hf hdisc
  constructor
  · rintro ⟨v, h4, h5⟩
    have := chosen_all h4 h1
    subst this
    have hp : f.base.present (structView d vals) .none none = .ok false := by
      rcases h3 with ⟨-, h3⟩ | ⟨h3, -, h6⟩
      · exact h3
      · rcases h5 with h5 | h5
        · exact absurd h5 h3
        · rw [hpa] at h5; exact h5
    refine ⟨hp, .of_absent (fun loaded s hc => by rw [present_loaded hd hh h hpre hc, hp]) hof.omitted ?_⟩
    rcases h3 with ⟨rfl, -⟩ | ⟨-, -, h6⟩
    · exact h1
    · exact absurd hp h6
  · rintro w ⟨h4, h5, h6, h7⟩
    have := chosen_all h4 h1
    subst this
    rw [hpa] at h7
    refine ⟨h7, fun loaded s hc => by rw [present_loaded hd hh h hpre hc, h7], ?_, h2, htags, hsolid⟩
    rcases h3 with ⟨h3, -⟩ | ⟨-, h3, -⟩
    · exact absurd h3 h5
    · exact h3

/-- The bytes of a value other than the one that looks like `None` do not begin like those of `None`. -/
theorem notNull_of {Γ : Classes} {ctx : Value} {earlier : List String} {all : Dict} {b : FieldBase} {k : Leaf} {w : Value}
    (hl : Lossless ctx earlier all b k w)
    (h : b.nullValue = .undefined ∨ ∃ repr nv, NullReads b k repr nv ∧ w ≠ nv ∧ scalarEq w b.nullValue = false) :
    NotNull Γ ctx earlier all b k w := by
  rcases h with h | ⟨repr, nv, ⟨h1, h2, h3⟩, hne, h4⟩
  · exact Or.inl h
  · refine Or.inr ⟨⟨h2, h4⟩, fun loaded hc => ⟨repr, h1 loaded, ?_⟩⟩
    rintro n bs rest hdump ⟨t, ht⟩
    obtain ⟨hn, hnd, -⟩ := hl.scalar
    cases n with
    | zero => simp [fieldToStream, W.fail] at hdump
    | succ m =>
      rw [fieldToStream_succ] at hdump
      obtain ⟨w', hw', -, -, -, h5⟩ := toStreamWith_ok hdump
      rw [if_neg hnd] at hw'; cases hw'
      rcases h5 with ⟨h5, -⟩ | ⟨-, ser, h5, h6⟩
      · exact absurd h5 hn
      · have h7 := leaf_restores (loaded := loaded) hl h5 h6 hc [] rest
        have h8 := h3 [] t ctx loaded
        simp only [List.nil_append, ← ht] at h7
        simp only [List.nil_append] at h8
        rw [h7] at h8
        simp at h8
        exact hne h8.1

/-- Plain fields are loaded as they were dumped. -/
theorem consistent_solid {fields pre : List Field} {all loaded : Dict} (hc : Consistent (pre.map Field.name) all loaded) {r : String}
    (hr : Solid fields pre r) (hs : ∃ k x, Dict.get? all r = some x ∧ Scalar k x) : Dict.get? loaded r = Dict.get? all r := by
  obtain ⟨k, x, h5, h6⟩ := hs
  obtain ⟨b, k', h1, rfl, -⟩ := hr
  have h7 : Dict.get? loaded b.name ≠ none := (hc.1 b.name).2 (List.mem_map.2 ⟨_, h1, rfl⟩)
  cases hg : Dict.get? loaded b.name with
  | none => exact absurd hg h7
  | some v =>
    have h8 := hc.2 _ _ _ hg h5
    have : v = x := h8.scalar (by rintro l rfl; cases k <;> simp [Scalar] at h6) (by rintro l rfl; cases k <;> simp [Scalar] at h6)
    rw [h5, this]

/-- A value that matches a field is dumped without loss. -/
theorem optional_proper {Γ : Classes} (hΓ : ∀ c d, Γ c = some d → OptionalSchema Γ d) {ctx : Value} {n : Nat} {fields pre : List Field}
    {tags : Dict → Prop} {all : Dict} {f : Field} {w : Value} {bs : Bytes} (hl : Layout (pre.map Field.name) f) (hg : Grounded fields pre f)
    (hp : LoadsPresent ctx (pre.map Field.name) all f.base) (hnull : f.base.nullValue = .undefined ∨ Nullable f) (ht : Fitting Γ tags f w)
    (hns : NoStruct w) (htags : tags all) (hc : ∀ r, Solid fields pre r → ∃ k x, Dict.get? all r = some x ∧ Scalar k x)
    (h : fieldToStream Γ n f w ctx all = (bs, .ok ())) : Proper Γ ctx (pre.map Field.name) all f w := by
  induction n generalizing fields pre tags all f w bs with
  | zero => simp [fieldToStream, W.fail] at h
  | succ n ih =>
    induction ht generalizing bs with
    | @union tags b choices ld dd w h1 h2 h3 h4 h5 h6 ih1 ih2 =>
      cases hl with
      | union h7 h8 _ h9 h10 =>
        cases hg with
        | @union _ _ _ _ refs h11 h12 h13 =>
          obtain ⟨m, hm, hdump⟩ := container_dumped (by simp) h1 h2 h
          cases hm
          have hnull' : b.nullValue = .undefined := by
            rcases hnull with hnull | ⟨_, _, _, _, hnull, -⟩
            · exact hnull
            · cases hnull
          have hopen : Open b w := ⟨hnull', h7, by simp [h8]⟩
          have hld : ∀ loaded s, Consistent (pre.map Field.name) all loaded → ld s ctx loaded = dd w ctx all := by
            intro loaded s hcon
            exact h12 _ _ _ _ _ _ fun r hr => consistent_solid hcon (h11 r hr) (hc r (h11 r hr))
          simp only [containerDump] at hdump
          cases hi : dd w ctx all with
          | error e => simp [hi, W.fail] at hdump
          | ok i =>
            simp only [hi] at hdump
            cases hch : choices[i]? with
            | none => simp [hch, W.fail] at hdump
            | some c =>
              cases c with
              | inl g =>
                simp only [hch] at hdump
                have hmem := List.mem_of_getElem? hch
                refine .unionField hp hopen h1 h2 hi hch (fun _ bs' loaded pre rest hcon _ => (hld loaded _ hcon).trans hi) ?_
                exact ih (h10 g hmem) (h13 g hmem) (fun _ _ _ => (h9 g hmem).1 _ _ _) (Or.inl (h9 g hmem).2)
                  (h5 w ctx all i g htags hi hch) hns htags hc hdump
              | inr cls =>
                simp only [hch] at hdump
                refine .unionStruct hp hopen h1 h2 hi hch (fun _ bs' loaded pre rest hcon _ => (hld loaded _ hcon).trans hi) ?_
                cases w <;> simp only at hdump <;> try (simp [W.fail] at hdump)
                rename_i dct
                have hto : fieldToStream Γ (n + 1) (.nested {} cls) (.dict dct) ctx all = (bs, .ok ()) :=
                  fieldToStream_plain (f := .nested {} cls) (by simp) (by simp) (by simp) (by simp [Field.base]) (Or.inl rfl) (by
                    simpa [fieldDoDump, containerDump] using hdump)
                exact ih2 (.dict dct) ctx all i cls htags hi hch (.nested rfl rfl) .nested (fun _ _ _ => rfl) (Or.inl rfl) hns htags hto
    | null h1 h2 => exact .null h1 hp fun n loaded _ => by simp only [fieldNullRepr, h2.1]
    | leaf h1 h2 h3 => exact .leaf hp (scalar_lossless hl h1) (notNull_of (scalar_lossless hl h1) h3) h2
    | @array tags b comp count halt l h1 _ =>
      cases hg with
      | array hg1 hg2 =>
      cases hl with
      | array h2 h3 h4 h5 h6 =>
        obtain ⟨m, hm, hdump⟩ := container_dumped (by simp) (by simp) (by simp) h
        cases hm
        have hnull' : b.nullValue = .undefined := by
          rcases hnull with hnull | ⟨_, _, _, _, hnull, -⟩
          · exact hnull
          · cases hnull
        have hl : ∀ x ∈ l, NoStruct x := by cases hns with | list hns => exact hns
        have hd : ∀ x ∈ l, ∃ p, fieldToStream Γ n comp x ctx all = (p, .ok ()) := by
          simp only [containerDump, arrayDump, arrayElements] at hdump
          have hall : ∃ bs, dumpAll (fun v => fieldToStream Γ n comp v ctx all) l = (bs, .ok ()) := by
            split at hdump
            · simp [W.fail] at hdump
            · split at hdump
              · split at hdump
                · simp [W.fail] at hdump
                · exact ⟨_, hdump⟩
              · exact ⟨_, hdump⟩
          obtain ⟨bs, hall⟩ := hall
          obtain ⟨ps, h7, -, h8⟩ := dumpAll_ok hall
          intro x hx
          obtain ⟨i, hi, rfl⟩ := List.mem_iff_getElem.1 hx
          exact ⟨_, h8 i hi (by omega)⟩
        refine .array hp ⟨hnull', h2, by simp [h3]⟩ ?_ (fun x hx => (h1 x hx).ne.2.2) (fun x hx => ?_)
        · rcases h4 with h4 | ⟨r, h4, h4'⟩
          · exact Or.inl h4
          · refine Or.inr ⟨r, h4, h4', fun hnone => ?_⟩
            obtain ⟨k, x, h7, h8⟩ := hc r (hg1 r h4')
            rw [hnone] at h7; cases h7
            exact (scalar_ne h8).2.2 rfl
        · obtain ⟨p, hpx⟩ := hd x hx
          exact ih h6 hg2 (fun _ _ _ => h5.1 _ _ _) (Or.inl h5.2) (h1 x hx) (hl x hx) htags hc hpx
    | @dict tags b cls d vals h1 h2 h3 h3' hdisc h3'' _ =>
      cases hl with
      | nested h4 h5 =>
        obtain ⟨m, hm, hdump⟩ := container_dumped (by simp) (by simp) (by simp) h
        cases hm
        have hnull' : b.nullValue = .undefined := by
          rcases hnull with hnull | ⟨_, _, _, _, hnull, -⟩
          · exact hnull
          · cases hnull
        have hd := hΓ _ _ h1
        have hvals : ∀ p ∈ vals, NoStruct p.2 := by cases hns with | dict hns => exact hns
        have hh : Bears Γ d vals := ⟨h2, h3, h3''⟩
        simp only [containerDump, dumpNew, h1] at hdump
        cases hi : structInit d vals with
        | error e => simp [hi, W.fail] at hdump
        | ok vals' =>
          simp only [hi] at hdump
          obtain ⟨rfl, -⟩ := structInit_ok_iff.1 hi
          cases n with
          | zero => simp [structToStream, W.fail] at hdump
          | succ n =>
            obtain ⟨hval, inner0, h6, ps, h7, -⟩ := structToStream_ok_iff.1 hdump
            have hsame : ∀ k inner, structToDict Γ k d vals' = .ok inner → inner = inner0 := by
              intro k inner hk
              have h8 := (structToDict_mono Γ (Nat.le_max_left k n) d vals' false).of_ok hk
              have h9 := (structToDict_mono Γ (Nat.le_max_right k n) d vals' false).of_ok h6
              rw [h8] at h9; cases h9; rfl
            refine .nested hp ⟨hnull', h4, by simp [h5]⟩ h1 hd.unique ⟨h2.1, h2.2, hvals, fun f hf w hw => ?_⟩
              (fun k inner hk r hr hst => hd.accepts hh hk hval hr hst) (fun k inner hk pre f post hpre hskip => ?_)
              (fun k inner hk pre f post w hpre hdw => ?_)
            · obtain ⟨pre, post, hpre, hof⟩ := hd.field hf
              have hkept : f.base.discard = false := by
                cases hx : f.base.discard with
                | false => rfl
                | true => rw [hdisc f hf hx] at hw; simp at hw
              by_cases hwn : w = .notPresent
              · subst hwn; exact ⟨by simp, hkept, Or.inl rfl⟩
              · refine ⟨(h3'' f hf w hw hwn).ne.2.1, hkept, Or.inr ?_⟩
                obtain ⟨p, ⟨hskip, -⟩ | ⟨y, hy, -⟩⟩ := parts_mem h7 hf
                · exact absurd ((optional_facts hΓ hd hh h6 hpre).1 hskip).1 (h3' f hf w hw hwn)
                · exact ((optional_facts hΓ hd hh h6 hpre).2 y hy).1
            · exact ((optional_facts hΓ hd hh hk hpre).1 hskip).2
            · have hf : f ∈ d.components := by rw [hpre]; simp
              have hof := hd.fields pre f post hpre
              rw [hsame k inner hk] at hdw ⊢
              obtain ⟨h8, h9, h10, h11, h11', h12⟩ := (optional_facts hΓ hd hh h6 hpre).2 w hdw
              obtain ⟨p, ⟨⟨x, hx, hskip⟩, -⟩ | ⟨y, hy, hp'⟩⟩ := parts_mem h7 hf
              · have := Chosen.unique hx hdw.1
                subst this
                rcases hskip with hskip | hskip
                · exact absurd hskip hdw.2.1
                · rw [hdw.2.2.2] at hskip; simp at hskip
              · have := Chosen.unique hy.1 hdw.1
                subst this
                rcases fieldToStream_mono Γ (Nat.le_succ n) f y ctx inner0 with h13 | h13
                · rw [hp'] at h13; simp at h13
                · exact ih hof.layout hof.grounded h9 hof.null h10 h11 h11' h12 (h13 ▸ hp')
    | struct => cases hns

/-- A struct with optional fields is dumped without loss. -/
theorem optionalSchema_proper {Γ : Classes} (hΓ : ∀ c d, Γ c = some d → OptionalSchema Γ d) {ctx : Value} {n : Nat} {d : StructDesc}
    {vals all : Dict} {ps : List Bytes} (hd : OptionalSchema Γ d) (hh : Bears Γ d vals) (h : structToDict Γ n d vals = .ok all)
    (hval : Valid d vals) (hps : Parts Γ n ctx all d.components ps) : ProperStruct Γ ctx d all where
  accepts r hr hst := hd.accepts hh h hval hr hst
  omitted pre f post hpre hskip := ((optional_facts hΓ hd hh h hpre).1 hskip).2
  proper pre f post w hpre hdw := by
    have hf : f ∈ d.components := by rw [hpre]; simp
    have hof := hd.fields pre f post hpre
    obtain ⟨h8, h9, h10, h11, h11', h12⟩ := (optional_facts hΓ hd hh h hpre).2 w hdw
    obtain ⟨p, ⟨⟨x, hx, hskip⟩, -⟩ | ⟨y, hy, hp'⟩⟩ := parts_mem hps hf
    · have := Chosen.unique hx hdw.1
      subst this
      rcases hskip with hskip | hskip
      · exact absurd hskip hdw.2.1
      · rw [hdw.2.2.2] at hskip; simp at hskip
    · have := Chosen.unique hy.1 hdw.1
      subst this
      exact optional_proper hΓ hof.layout hof.grounded h9 hof.null h10 h11 h11' h12 hp'

end Verif
