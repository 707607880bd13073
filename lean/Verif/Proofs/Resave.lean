import Verif.Proofs.Canonical
import Verif.Proofs.Optional

/-! Helper lemmas: what was loaded from a dump is dumped the same way. -/

namespace Verif
open Spec

/-- A field without children is dumped the same way next to other values, if the numbers among them are the same. -/
theorem leaf_redump {Γ : Classes} {ctx w : Value} {n : Nat} {earlier : List String} {b : FieldBase} {k : Leaf} {all all' : Dict} {bs : Bytes}
    (hl : Layout earlier (.leaf b k)) (hnull : w = .none → ∃ repr, ∀ values, leafNullRepr b k values = .ok repr) (hd : w ≠ .dflt)
    (hag : Agree all all') (h : fieldToStream Γ n (.leaf b k) w ctx all = (bs, .ok ())) :
    fieldToStream Γ n (.leaf b k) w ctx all' = (bs, .ok ()) := by
  cases n with
  | zero => simp [fieldToStream, W.fail] at h
  | succ n =>
    have h0 := h
    rw [fieldToStream_succ] at h ⊢
    obtain ⟨w', hw, hu, hd', hval, h4⟩ := toStreamWith_ok h
    rw [if_neg hd] at hw
    cases hw
    rcases h4 with ⟨rfl, h4⟩ | ⟨hne, ser, h5, h6⟩
    · obtain ⟨repr, hr⟩ := hnull rfl
      have h4' : leafNullRepr b k all = .ok bs := h4
      rw [hr] at h4'; cases h4'
      have := fieldToStream_null (Γ := Γ) (ctx := ctx) (all := all') (b := b) (k := k) hval (hr all')
      have := fieldToStream_of_le (Nat.succ_le_succ (Nat.zero_le n)) this
      rw [fieldToStream_succ] at this
      exact this
    · rw [toStreamWith_plain hd hu hne hval]
      have hdump : ∀ e, leafDump b k e w ctx all' = leafDump b k e w ctx all := by
        intro e; cases hl <;> rfl
      have h5' : leafDump b k (leafExpectedSize b k all) w ctx all = (ser, .ok ()) := h5
      have h6' : finishDump b (leafExpectedSize b k all) (leafAddPadding b k) ser = (bs, .ok ()) := h6
      show (match (leafDump b k (leafExpectedSize b k all') w ctx all').toExcept with
        | .error e => W.fail e
        | .ok serialized => finishDump b (leafExpectedSize b k all') (leafAddPadding b k) serialized) = (bs, .ok ())
      rw [hdump]
      cases hs : b.size with
      | none =>
        have he : ∀ e e' : Except Err Int, leafDump b k e w ctx all = leafDump b k e' w ctx all := by
          intro e e'
          cases hl with
          | integer hx => rw [hs] at hx; simp at hx
          | bytes hx => rcases hx with ⟨_, hx⟩ | ⟨_, _, hx⟩ <;> (rw [hs] at hx; simp at hx)
          | string _ hx => rcases hx with ⟨_, hx⟩ | ⟨_, _, hx⟩ <;> (rw [hs] at hx; simp at hx)
          | float _ hx => rw [hs] at hx; simp at hx
          | timestamp hx => rw [hs] at hx; simp at hx
          | _ => rfl
        rw [he _ (leafExpectedSize b k all), h5']
        simp only [W.toExcept]
        simp only [finishDump, hs] at h6' ⊢
        exact h6'
      | fixed m =>
        rw [leafSized hs] at h5' h6' ⊢
        rw [h5']; exact h6'
      | ref r =>
        rcases finishDump_ok h6' with ⟨h7, -⟩ | ⟨m, h7 | ⟨r', h7, h8⟩, -⟩
        · rw [hs] at h7; simp at h7
        · rw [hs] at h7; simp at h7
        · have h9 : leafExpectedSize b k all' = .ok m := by
            simp only [leafExpectedSize, FieldBase.expectedSizeWith, hs, sizeFromRef] at h8 ⊢
            cases hg : Dict.get? all r with
            | none => simp [hg] at h8
            | some x =>
              simp only [hg] at h8
              cases x <;> simp at h8
              subst h8
              rw [hag r _ hg]
          rw [h8] at h5' h6'
          rw [h9, h5']; exact h6'

/-- A container that was dumped can be dumped again next to other values, with the same bytes. -/
theorem container_redump {Γ : Classes} {ctx w w' : Value} {n m : Nat} {f : Field} {all all' : Dict} {bs : Bytes}
    (hf : ∀ b k, f ≠ .leaf b k) (hv : f.base.validators = []) (h1 : w ≠ .none) (h2 : w ≠ .dflt)
    (hw : w' ≠ .dflt ∧ w' ≠ .undefined ∧ w' ≠ .none) (hag : Agree all all') (h : fieldToStream Γ n f w ctx all = (bs, .ok ()))
    (hd : containerDump Γ (fieldToStream Γ m) (structToStream Γ m) f w' ctx all' = (bs, .ok ())) :
    fieldToStream Γ (m + 1) f w' ctx all' = (bs, .ok ()) := by
  refine fieldToStream_plain hw.1 hw.2.1 hw.2.2 (by simp [hv]) ?_ (by
    cases f with
    | leaf b k => exact absurd rfl (hf b k)
    | _ => exact hd)
  cases n with
  | zero => simp [fieldToStream, W.fail] at h
  | succ n =>
    rw [fieldToStream_succ] at h
    obtain ⟨x, hx, -, -, -, h4⟩ := toStreamWith_ok h
    rw [if_neg h2] at hx
    cases hx
    rcases h4 with ⟨h4, -⟩ | ⟨-, ser, -, h6⟩
    · exact absurd h4 h1
    · have hbs : bs = ser := by
        refine finishDump_unpadded ?_ h6
        intro k r
        cases f with
        | leaf b k => exact absurd rfl (hf b k)
        | _ => simp [fieldAddPadding]
      subst hbs
      rcases finishDump_ok h6 with ⟨h7, -⟩ | ⟨k, h7, h8⟩
      · exact Or.inl h7
      · have hk : (bs.length : Int) = k := by
          rcases h8 with ⟨h8, -⟩ | ⟨-, h8⟩
          · exact h8
          · cases f with
            | leaf b k => exact absurd rfl (hf b k)
            | _ => simp [fieldAddPadding] at h8
        rw [hk]
        rcases h7 with h7 | ⟨r, h7, h9⟩
        · exact Or.inr (Or.inl h7)
        · refine Or.inr (Or.inr ⟨r, h7, hag r k ?_⟩)
          have h9 : containerExpectedSize f.base (fun v => fieldDoDump Γ n f v .none all) all = .ok k := by
            cases f with
            | leaf b k => exact absurd rfl (hf b k)
            | _ => exact h9
          simp only [containerExpectedSize, FieldBase.expectedSizeWith, h7, sizeFromRef] at h9
          cases hg : Dict.get? all r with
          | none => simp [hg] at h9
          | some x =>
            simp only [hg] at h9
            cases x <;> simp at h9
            subst h9; rfl

/-- What is known of a value that was loaded from the dump `p` of a field of a struct with the `fields`, dumped with the values `all`. -/
structure Resaves (Γ : Classes) (ctx : Value) (fields : List Field) (all : Dict) (f : Field) (p : Bytes) (v : Value) : Prop where
  marks : v ≠ .dflt ∧ v ≠ .undefined ∧ v ≠ .notPresent
  null : v = .none → f.base.nullValue ≠ .undefined
  atom : ∀ b k, f = .leaf b k → NoStruct v
  dumps : ∃ m w, recursiveToDicts Γ m v = .ok w ∧ ∀ all', Agree all all' →
    (∀ r, Solid fields fields r → Dict.get? all' r = Dict.get? all r) → ∃ k, fieldToStream Γ k f w ctx all' = (p, .ok ())

/-- The fields of a struct and what was written for them. -/
theorem Landed.entries {P : Field → Value → Bytes → Value → Prop} {all r : Dict} {ctx : Value} {fs : List Field} {ps : List Bytes}
    (h : Landed P all ctx r fs ps) :
    ∃ es : List (Field × Bytes), es.map Prod.fst = fs ∧ es.map Prod.snd = ps ∧
      ∀ e ∈ es, (Skipped e.1 all ctx ∧ Dict.get? r e.1.name = some e.1.base.notPresentValue ∧ e.2 = []) ∨
        ∃ w v, Dumped e.1 all ctx w ∧ Dict.get? r e.1.name = some v ∧ Stands v w ∧ P e.1 w e.2 v := by
  induction h with
  | nil => exact ⟨[], rfl, rfl, by simp⟩
  | @skipped f fs ps h1 h2 _ ih =>
    obtain ⟨es, h3, h4, h5⟩ := ih
    refine ⟨(f, []) :: es, by simp [h3], by simp [h4], fun e he => ?_⟩
    rcases List.mem_cons.1 he with rfl | he
    · exact Or.inl ⟨h1, h2, rfl⟩
    · exact h5 e he
  | @dumped f fs p ps w v h1 h2 h2' h2'' _ ih =>
    obtain ⟨es, h3, h4, h5⟩ := ih
    refine ⟨(f, p) :: es, by simp [h3], by simp [h4], fun e he => ?_⟩
    rcases List.mem_cons.1 he with rfl | he
    · exact Or.inr ⟨w, v, h1, h2, h2', h2''⟩
    · exact h5 e he

/-- A struct that was loaded from the dumps of its fields. -/
theorem struct_resaves {Γ : Classes} (hΓ : ∀ c d, Γ c = some d → OptionalSchema Γ d) {ctx : Value} {n : Nat} {d : StructDesc}
    {vals all r : Dict} {ps : List Bytes} (hd : OptionalSchema Γ d) (hh : Bears Γ d vals) (h : structToDict Γ n d vals = .ok all)
    (hval : Valid d vals) (hk : Dict.keys r = names d) (hl : Landed (fun f _ p v => Resaves Γ ctx d.components all f p v) all ctx r d.components ps) :
    ∃ m inner, structToDict Γ m d (dropDiscarded d r) = .ok inner ∧ (∀ k ∈ Dict.keys inner, k ∈ names d) ∧
      structToStream Γ m d (dropDiscarded d r) ctx = (ps.flatten, .ok ()) ∧ structToStream Γ m d inner ctx = (ps.flatten, .ok ()) ∧
      Instance d inner ∧ (∀ f ∈ d.components, f.base.discard = true → Dict.get? inner f.name = none) ∧
      ∀ f ∈ d.components, f.base.discard = false →
        ∃ v w, Dict.get? (dropDiscarded d r) f.name = some v ∧ Dict.get? inner f.name = some w ∧ recursiveToDicts Γ m v = .ok w := by
  obtain ⟨es, hes, rfl, hent⟩ := hl.entries
  have hmem : ∀ f ∈ d.components, ∃ p, (f, p) ∈ es := by
    intro f hf
    rw [← hes] at hf
    obtain ⟨e, he, rfl⟩ := List.mem_map.1 hf
    exact ⟨e.2, he⟩
  have hin : ∀ e ∈ es, e.1 ∈ d.components := fun e he => by rw [← hes]; exact List.mem_map.2 ⟨e, he, rfl⟩
  have hinst : Instance d r := ⟨by rw [hk]; exact hd.unique, by rw [hk]; exact fun _ h => h⟩
  have hinst' : Instance d (dropDiscarded d r) := ⟨dropDiscarded_nodup hinst.1, fun k hk => hinst.2 k (dropDiscarded_keys hk)⟩
  have hkeep : ∀ f ∈ d.components, f.base.discard = false → Dict.get? (dropDiscarded d r) f.name = Dict.get? r f.name := fun f hf hk => by
    rw [dropDiscarded_get hd.unique r hf, hk]; simp
  have hgone : ∀ f ∈ d.components, f.base.discard = true → Dict.get? (dropDiscarded d r) f.name = none := fun f hf hk => by
    rw [dropDiscarded_get hd.unique r hf, hk]; simp
  obtain ⟨-, hall, hallget⟩ := structToDict_get hd.unique hh.inst h
  have hallgone : ∀ f ∈ d.components, f.base.discard = true → Dict.get? all f.name = none := by
    intro f hf hk
    rcases hallget f hf with ⟨-, -, h1⟩ | ⟨h1, -⟩
    · exact h1
    · rw [hk] at h1; simp at h1
  -- the fields that are skipped, and those that are not
  have hskip0 : ∀ f ∈ d.components, Skipped f all ctx → f.base.present (structView d vals) .none none = .ok false := by
    intro f hf hs
    obtain ⟨pre, post, hpre, -⟩ := hd.field hf
    exact ((optional_facts hΓ hd hh h hpre).1 hs).1
  have hdump0 : ∀ f ∈ d.components, ∀ w, Dumped f all ctx w → f.base.present (structView d vals) .none none = .ok true := by
    intro f hf w hs
    obtain ⟨pre, post, hpre, -⟩ := hd.field hf
    exact ((optional_facts hΓ hd hh h hpre).2 w hs).1
  have hskip : ∀ f ∈ d.components, f.base.discard = false → Skipped f all ctx → Dict.get? all f.name = some .notPresent := by
    intro f hf hkf hs
    have h1 := hskip0 f hf hs
    obtain ⟨w, h2, -, ⟨rfl, -⟩ | ⟨-, -, h3⟩⟩ := toDict_cases hΓ hd hh h hf hkf
    · exact h2
    · exact absurd h1 h3
  have hdump : ∀ f ∈ d.components, f.base.discard = false → ∀ w, Dumped f all ctx w → Dict.get? all f.name = some w := by
    intro f hf hkf w hs
    obtain ⟨w', h2, -⟩ := toDict_cases hΓ hd hh h hf hkf
    rw [chosen_all hs.1 h2]
    exact h2
  have homit : ∀ f ∈ d.components, f.base.notPresentValue = .notPresent := fun f hf => by
    obtain ⟨pre, post, -, hof⟩ := hd.field hf
    exact hof.omitted
  -- plain fields
  have hsolid : ∀ q, Solid d.components d.components q →
      ∃ x, structGetItem d vals q = .ok x ∧ Dict.get? all q = some x ∧ Dict.get? (dropDiscarded d r) q = some x := by
    rintro q ⟨b, k, h1, rfl, h2, hkb, h3⟩
    obtain ⟨x, h4, h5, h6⟩ := solid_toDict hd hh h h1 h2 hkb h3
    refine ⟨x, h4, h5, ?_⟩
    rw [show b.name = (Field.leaf b k).name from rfl, hkeep _ h1 hkb]
    obtain ⟨p, hp⟩ := hmem _ h1
    rcases hent _ hp with ⟨h7, -⟩ | ⟨w, v, h7, h8, h9, -⟩
    · have h8 : Dict.get? all b.name = some .notPresent := hskip _ h1 hkb h7
      rw [h5] at h8; cases h8
      exact absurd rfl (scalar_ne h6).2.1
    · have h10 : Dict.get? all b.name = some w := hdump _ h1 hkb w h7
      rw [h5] at h10; cases h10
      rw [← scalar_eq h6 h9]; exact h8
  have hag : Agree all (dropDiscarded d r) := by
    intro q k hq
    obtain ⟨f, hf, rfl⟩ := List.mem_map.1 (hall q (Dict.get?_some_key hq))
    cases hkf : f.base.discard with
    | true => rw [hallgone f hf hkf] at hq; simp at hq
    | false =>
    rw [hkeep f hf hkf]
    obtain ⟨p, hp⟩ := hmem _ hf
    rcases hent _ hp with ⟨h7, -⟩ | ⟨w, v, h7, h8, h9, -⟩
    · have := hskip _ hf hkf h7
      rw [hq] at this; cases this
    · have := hdump _ hf hkf w h7
      rw [hq] at this; cases this
      rw [← h9.scalar (by simp) (by simp)]; exact h8
  have hfollow : ∀ all', SameLeaves d (dropDiscarded d r) all' → ∀ q, Solid d.components d.components q → Dict.get? all' q = Dict.get? all q := by
    intro all' hs q hq
    obtain ⟨x, -, h2, h3⟩ := hsolid q hq
    obtain ⟨b, k, h1, rfl, -⟩ := hq
    rw [← hs b k h1, h2, h3]
  have hnames : ∀ q, Solid d.components d.components q → q ∈ names d := by
    rintro q ⟨b, k, h1, rfl, -⟩
    exact List.mem_map.2 ⟨_, h1, rfl⟩
  have hpres : ∀ f ∈ d.components, ∀ view c s,
      (∀ q x, Solid d.components d.components q → Dict.get? (dropDiscarded d r) q = some x → view.get q = .ok x) →
      f.base.present view c s = f.base.present (structView d vals) .none none := by
    intro f hf view c s hv
    obtain ⟨pre, post, hpre, hof⟩ := hd.field hf
    obtain ⟨refs, h1, h2⟩ := hof.optional
    refine h2 _ _ _ _ _ _ fun q hq => ?_
    have hq := solid_of_pre hpre (h1 q hq)
    obtain ⟨x, h3, -, h4⟩ := hsolid q hq
    rw [hv q x hq h4]; exact h3.symm
  have hview : ∀ vals', SameLeaves d (dropDiscarded d r) vals' → ∀ f ∈ d.components,
      f.base.present (structView d vals') .none none = f.base.present (structView d vals) .none none := by
    intro vals' hs f hf
    refine hpres f hf _ _ _ fun q x hq hx => ?_
    have hq' := hq
    obtain ⟨b, k, hb, rfl, -⟩ := hq
    rw [hs b k hb] at hx
    exact structGetItem_some (hnames _ hq') hx
  have hview' : ∀ vals', SameLeaves d (dropDiscarded d r) vals' → ∀ f ∈ d.components,
      f.base.present (Dict.view vals') ctx none = f.base.present (structView d vals) .none none := by
    intro vals' hs f hf
    refine hpres f hf _ _ _ fun q x hq hx => ?_
    obtain ⟨b, k, hb, rfl, -⟩ := hq
    rw [hs b k hb] at hx
    exact view_get hx
  have hatom : ∀ b k, Field.leaf b k ∈ d.components → ∀ v, Dict.get? (dropDiscarded d r) b.name = some v → NoStruct v := by
    intro b k hb v hv
    cases hkb : b.discard with
    | true =>
      have := hgone _ hb hkb
      rw [show (Field.leaf b k).name = b.name from rfl, hv] at this; simp at this
    | false =>
    have := hkeep _ hb hkb
    rw [show (Field.leaf b k).name = b.name from rfl] at this
    rw [this] at hv
    obtain ⟨p, hp⟩ := hmem _ hb
    rcases hent _ hp with ⟨-, h7, -⟩ | ⟨w, v', h7, h8, h9, h10⟩
    · have h7 : Dict.get? r b.name = some (Field.leaf b k).base.notPresentValue := h7
      rw [hv, homit _ hb] at h7; cases h7; constructor
    · have h8 : Dict.get? r b.name = some v' := h8
      rw [hv] at h8; cases h8
      exact h10.atom b k rfl
  -- discarded fields are dumped with their defaults both times
  have hfalls : ∀ e ∈ es, e.1.base.discard = true → ∀ vals', Agree all vals' → SameLeaves d (dropDiscarded d r) vals' →
      Dict.get? vals' e.1.name = none → Falls Γ ctx d vals' e.1 e.2 := by
    intro e he hkf vals' ha hs hn
    have hf := hin e he
    obtain ⟨pre, post, hpre, hof⟩ := hd.field hf
    obtain ⟨⟨b, k, hbk⟩, hnc⟩ : (∃ b k, e.1 = .leaf b k) ∧ e.1.base.computeFn = none := by
      rcases hof.kept with h1 | h1
      · rw [hkf] at h1; simp at h1
      · exact h1
    have hno : (Dict.view all).contains e.1.name = false := view_unset (hallgone _ hf hkf)
    -- what is chosen does not depend on anything
    have hch : ∀ c, Chosen e.1.base all.view c → ∀ view : View, view.contains e.1.name = false → Chosen e.1.base view c := by
      intro c hc view hv
      cases hc with
      | explicit h1 _ => rw [show e.1.base.name = e.1.name from rfl, hno] at h1; simp at h1
      | default _ h2 h3 => exact .default hv h2 h3
      | computed _ _ h3 _ => rw [hnc] at h3; simp at h3
      | nothing _ h2 h3 => exact .nothing hv h2 h3
    have hcne : ∀ c, Chosen e.1.base all.view c → c ≠ .notPresent := by
      intro c hc
      cases hc with
      | explicit h1 _ => rw [show e.1.base.name = e.1.name from rfl, hno] at h1; simp at h1
      | default _ h2 h3 => exact (hof.defaults c h2 h3).ne.2.2
      | computed _ _ h3 _ => rw [hnc] at h3; simp at h3
      | nothing _ h2 h3 => simp
    refine ⟨hkf, hn, ?_⟩
    rcases hent e he with ⟨h1, -, h2⟩ | ⟨w, v, h1, -, h3, h4⟩
    · have h1' := h1
      obtain ⟨c, hc, -⟩ := h1
      refine ⟨c, false, hch c hc, hcne c hc, ?_, fun all' hs' => ?_, fun _ => h2, by simp⟩
      · rw [hview _ hs _ hf]; exact hskip0 _ hf h1'
      · rw [hview' _ (fun b k hb => (hs b k hb).trans (hs' b k hb)) _ hf]; exact hskip0 _ hf h1'
    · refine ⟨w, true, hch w h1.1, h1.2.1, ?_, fun all' hs' => ?_, by simp, fun _ => ⟨h1.2.2.1, fun all' ha' hs' => ?_⟩⟩
      · rw [hview _ hs _ hf]; exact hdump0 _ hf w h1
      · rw [hview' _ (fun b k hb => (hs b k hb).trans (hs' b k hb)) _ hf]; exact hdump0 _ hf w h1
      · obtain ⟨m, w', h5, h6⟩ := h4.dumps
        have hv : NoStruct v := h4.atom b k hbk
        rw [(recursiveToDicts_spec h5).2 hv] at h6
        have hfit : Fitting Γ (SameTags d vals) e.1 w := ((optional_facts hΓ hd hh h hpre).2 w h1).2.2.1
        have hvw : v = w := by
          rw [hbk] at hfit
          cases hfit with
          | null => exact h3.scalar (by simp) (by simp)
          | leaf hs' _ _ => exact scalar_eq hs' h3
        subst hvw
        exact h6 all' (fun q x hq => ha' q x (ha q x hq)) (hfollow all' fun b k hb => (hs b k hb).trans (hs' b k hb))
  have hsome : ∀ f ∈ d.components, f.base.discard = false → Dict.get? (dropDiscarded d r) f.name ≠ none := by
    intro f hf hkf hn
    rw [hkeep f hf hkf] at hn
    exact (Dict.get?_none_iff _ _).1 hn (by rw [hk]; exact List.mem_map.2 ⟨f, hf, rfl⟩)
  have hchecks : ∀ vals', Instance d vals' → Agree all vals' → SameLeaves d (dropDiscarded d r) vals' →
      (∀ f ∈ d.components, f.base.discard = false → Dict.get? vals' f.name ≠ none) →
      (∀ f ∈ d.components, f.base.discard = true → Dict.get? vals' f.name = none) → Valid d vals' := by
    intro vals' hi2 ha hs h1 h2
    refine hd.checks vals vals' hh.inst hi2 (fun q hq => ?_) (fun f hf => ?_) hval
    · obtain ⟨x, h3, -, h4⟩ := hsolid q hq
      have hq' := hnames q hq
      obtain ⟨b, k, hb, rfl, -⟩ := hq
      rw [hs b k hb] at h4
      exact ⟨x, h3, structGetItem_some hq' h4⟩
    · cases hkf : f.base.discard with
      | false =>
        cases hg : Dict.get? vals' f.name with
        | none => exact absurd hg (h1 f hf hkf)
        | some v => exact ⟨v, structGetItem_some (List.mem_map.2 ⟨f, hf, rfl⟩) hg⟩
      | true =>
        obtain ⟨p, hp⟩ := hmem f hf
        obtain ⟨pre, post, hpre, hof⟩ := hd.field hf
        obtain ⟨refs, h3, h4⟩ := hof.optional
        refine (hfalls _ hp hkf vals' ha hs (h2 f hf hkf)).get hd.unique hi2 hf ⟨refs, fun q hq => ?_, h4⟩
        have hq := solid_of_pre hpre (h3 q hq)
        refine ⟨hnames q hq, ?_⟩
        obtain ⟨b, k, hb, rfl, -, hkb, -⟩ := hq
        exact h1 _ hb hkb
  obtain ⟨n1, inner, h1, h2, h3, h4, h5, h6, h7⟩ := dump_values (ctx := ctx) (es := es) hd.unique hinst' (hchecks _ hinst' hag (fun _ _ _ => rfl) hsome hgone) hes hatom (by
    intro e he
    cases hkf : e.1.base.discard with
    | true => exact Or.inr (Or.inr (hfalls e he hkf _ hag (fun _ _ _ => rfl) (hgone _ (hin e he) hkf)))
    | false =>
    rcases hent e he with ⟨-, h1, h2⟩ | ⟨w, v, h1, h2, h3, h4⟩
    · rw [homit _ (hin e he)] at h1; exact Or.inl ⟨rfl, by rw [hkeep _ (hin e he) hkf]; exact h1, h2⟩
    · obtain ⟨⟨m2, m3, m4⟩, -, -, m, w', h5, h6⟩ := h4
      refine Or.inr (Or.inl ⟨rfl, v, m, w', by rw [hkeep _ (hin e he) hkf]; exact h2, m3, m4, h5,
        fun all' ha hs => h6 all' (hag.trans ha) (hfollow all' hs), ?_, fun all' hs => ?_⟩)
      · rw [hview _ (fun _ _ _ => rfl) _ (hin e he)]; exact hdump0 _ (hin e he) w h1
      · rw [hview' _ hs _ (hin e he)]; exact hdump0 _ (hin e he) w h1)
  obtain ⟨n2, inner2, -, -, -, -, h8, -, -⟩ := dump_values (ctx := ctx) (es := es) hd.unique h2 (hchecks inner h2 (hag.trans h3) h4 (by
      intro f hf hkf
      obtain ⟨v, w, -, h9, -⟩ := h7 f hf hkf
      rw [h9]; simp) h6) hes
    (fun b k hb v hv => hatom b k hb v (by rw [h4 b k hb]; exact hv)) (by
    intro e he
    cases hkf : e.1.base.discard with
    | true => exact Or.inr (Or.inr (hfalls e he hkf _ (hag.trans h3) h4 (h6 _ (hin e he) hkf)))
    | false =>
    obtain ⟨v', w', h9, h10, h11⟩ := h7 e.1 (hin e he) hkf
    rw [hkeep _ (hin e he) hkf] at h9
    rcases hent e he with ⟨-, h12, h13⟩ | ⟨w, v, h12, h13, h14, h15⟩
    · rw [homit _ (hin e he), h9] at h12; cases h12
      have : w' = .notPresent := (recursiveToDicts_spec h11).2 (by constructor)
      subst this
      exact Or.inl ⟨rfl, h10, h13⟩
    · obtain ⟨⟨m2, m3, m4⟩, -, -, m, w'', h16, h17⟩ := h15
      rw [h13] at h9
      simp only [Option.some.injEq] at h9
      subst h9
      have := recursiveToDicts_det h16 h11
      subst this
      have hmk := recursiveToDicts_marker h16
      have hsame : ∀ all', SameLeaves d inner all' → SameLeaves d (dropDiscarded d r) all' := fun all' hs b k hb => (h4 b k hb).trans (hs b k hb)
      refine Or.inr (Or.inl ⟨rfl, w'', m, w'', h10, fun h => m3 (hmk.2.1 h), fun h => m4 (hmk.1 h), recursiveToDicts_idem h16,
        fun all' ha hs => h17 all' ((hag.trans h3).trans ha) (hfollow all' (hsame all' hs)), ?_, fun all' hs => ?_⟩)
      · rw [hview _ h4 _ (hin e he)]; exact hdump0 _ (hin e he) w h12
      · rw [hview' _ (hsame all' hs) _ (hin e he)]; exact hdump0 _ (hin e he) w h12)
  exact ⟨max (n1 + 1) (n2 + 1), inner, (structToDict_mono Γ (by omega) d _ false).of_ok h1, h2.2,
    structToStream_of_le (Nat.le_max_left ..) h5, structToStream_of_le (Nat.le_max_right ..) h8, h2, h6, fun f hf hkf => by
      obtain ⟨v, w, h9, h10, h11⟩ := h7 f hf hkf
      exact ⟨v, w, h9, h10, recursiveToDicts_of_le (by omega) h11⟩⟩

/-- What is loaded from the dump of a field is dumped the same way. -/
theorem proper_resaves {Γ : Classes} (hΓ : ∀ c d, Γ c = some d → OptionalSchema Γ d) {ctx : Value} {earlier : List String} {all : Dict}
    {f : Field} {w : Value} (h : Proper Γ ctx earlier all f w) :
    ∀ {pre fs : List Field} {tags : Dict → Prop}, earlier = pre.map Field.name → (∀ g ∈ pre, g ∈ fs) → Layout earlier f → Grounded fs pre f →
      (f.base.nullValue = .undefined ∨ Nullable f) → Fitting Γ tags f w → NoStruct w → tags all →
      (∀ r, Solid fs pre r → ∃ k x, Dict.get? all r = some x ∧ Scalar k x) →
      Restores Γ ctx earlier all f w (Resaves Γ ctx fs all f) := by
  induction h with
  | @null earlier all f h1 h2 h3 =>
    intro pre fs tags he hsub hl hg hn ht hns htags hc
    refine null_restores h1 h2 h3 fun n bs hto => ?_
    rcases hn with hn | ⟨b, k, repr, nv, rfl, hn⟩
    · exact absurd hn h1
    · exact ⟨by simp, fun _ => h1, fun _ _ _ => by constructor, 1, .none, rfl, fun all' ha _ =>
        ⟨n, leaf_redump hl (fun _ => ⟨repr, hn.1⟩) (by simp) ha hto⟩⟩
  | @leaf earlier all b k w h1 h2 h3 h4 =>
    intro pre fs tags he hsub hl hg hn ht hns htags hc
    obtain ⟨hne, hnd, hns', hnl, hnd'⟩ := h2.scalar
    refine leaf_field_restores h1 h2 h3 h4 fun n bs hto => ?_
    exact ⟨ht.ne, fun h => absurd h hne, fun _ _ _ => hns', 1, w, Atom.toDicts ⟨hns', hnl, hnd'⟩ 0, fun all' ha _ =>
      ⟨n, leaf_redump hl (fun h => absurd h hne) hnd ha hto⟩⟩
  | @array earlier all b comp count l h1 h2 h3 h4 _ ih =>
    intro pre fs tags he hsub hl hg hn ht hns htags hc
    cases hl with
    | array l1 l2 l3 l4 l5 =>
    cases hg with
    | array g1 g2 =>
    cases ht with
    | array t1 =>
    have hns' : ∀ x ∈ l, NoStruct x := by cases hns with | list hns => exact hns
    refine array_restores (P := fun _ => Resaves Γ ctx fs all comp) h1 h2 h3 h4
      (fun x hx => ih x hx he hsub l5 g2 (Or.inl l4.2) (t1 x hx) (hns' x hx) htags hc) ?_
    intro n ps vs hto hps hvs hP
    have hzip : vs = (vs.zip ps).map Prod.fst := by rw [List.map_fst_zip]; omega
    have hzip' : ps = (vs.zip ps).map Prod.snd := by rw [List.map_snd_zip]; omega
    have hel : ∀ e ∈ vs.zip ps, Resaves Γ ctx fs all comp e.2 e.1 := by
      intro e he
      obtain ⟨i, hi, rfl⟩ := List.mem_iff_getElem.1 he
      simp only [List.length_zip] at hi
      simp only [List.getElem_zip]
      exact hP i (by omega) (by omega) (by omega)
    generalize hes : vs.zip ps = es at *
    have hlen : es.length = l.length := by rw [← hes, List.length_zip]; omega
    subst hzip hzip'
    have : ∀ e ∈ es, ∃ q : Nat × Value, recursiveToDicts Γ q.1 e.1 = .ok q.2 ∧ ∀ all', Agree all all' →
        (∀ r, Solid fs fs r → Dict.get? all' r = Dict.get? all r) → ∃ k, fieldToStream Γ k comp q.2 ctx all' = (e.2, .ok ()) := by
      intro e he
      obtain ⟨m, w, h1⟩ := (hel e he).dumps
      exact ⟨(m, w), h1⟩
    obtain ⟨g, hg⟩ := exists_fun_of_mem this
    obtain ⟨M, hM⟩ := common_fuel (l := es) (P := fun n e => recursiveToDicts Γ n e.1 = .ok (g e).2)
      (fun hle h => recursiveToDicts_of_le hle h) (fun e he => ⟨(g e).1, (hg e he).1⟩)
    refine ⟨by simp, by simp, by simp, M + 1, .list (es.map fun e => (g e).2), ?_, fun all' ha hs => ?_⟩
    · simp only [recursiveToDicts]
      rw [mapE_zip (g := fun e => (g e).2) hM]; rfl
    · obtain ⟨K, hK⟩ := common_fuel (l := es) (P := fun n e => fieldToStream Γ n comp (g e).2 ctx all' = (e.2, .ok ()))
        (fun hle h => fieldToStream_of_le hle h) (fun e he => (hg e he).2 all' ha hs)
      refine ⟨K + 1, container_redump (by simp) l2 (by simp) (by simp) (by simp) ha hto ?_⟩
      obtain ⟨m, hm, hdump⟩ := container_dumped (by simp) (by simp) (by simp) hto
      have hcount : finalElementCount count all' = finalElementCount count all := by
        rcases h3 with ⟨k, rfl⟩ | ⟨r, -, rfl, -⟩
        · rfl
        · simp only [finalElementCount, hs r ((g1 r rfl).mono hsub)]
      simp only [containerDump, arrayDump, arrayElements, hcount] at hdump ⊢
      have hall : dumpAll (fun v => fieldToStream Γ K comp v ctx all') (es.map fun e => (g e).2) = ((es.map Prod.snd).flatten, .ok ()) :=
        dumpAll_zip hK
      rw [hall]
      cases hf : finalElementCount count all with
      | error e => simp [hf, W.fail] at hdump
      | ok c =>
        simp only [hf] at hdump ⊢
        cases c with
        | none => rfl
        | some c =>
          simp only at hdump ⊢
          split at hdump
          · simp [W.fail] at hdump
          · rename_i hc
            rw [if_neg (by simpa [hlen] using hc)]
  | @nested earlier all b cls d dct h1 h2 h3 h4 h5 h6 h7 _ ih =>
    intro pre fs tags he hsub hl hg hn ht hns htags hc
    cases hl with
    | nested l1 l2 =>
    cases ht with
    | @dict _ _ _ d' _ t1 t2 t3 t4 tdisc t5 =>
    rw [h3] at t1; cases t1
    have hd := hΓ _ _ h3
    have hh : Bears Γ d dct := ⟨t2, t3, t5⟩
    -- keep what the dictionary was dumped as
    intro n bs hto
    suffices H : Restores Γ ctx earlier all (.nested b cls) (.dict dct) (fun bs' v => bs' = bs → Resaves Γ ctx fs all (.nested b cls) bs' v) by
      intro loaded hc
      obtain ⟨m, v, h1, h2, h3⟩ := H n bs hto loaded hc
      exact ⟨m, v, h1, h2 rfl, h3⟩
    refine nested_restores (P := fun inner f _ => Resaves Γ ctx d.components inner f)
      h1 h2 h3 h4 h5 h6 h7 (fun k inner hk pre f post w hpre hdw => ?_) (fun k inner ps r hst hk hr hland hbs => ?_)
    · have hof := hd.fields pre f post hpre
      obtain ⟨h8, h9, h10, h11, h11', h12⟩ := (optional_facts hΓ hd hh hk hpre).2 w hdw
      exact ih k inner hk pre f post w hpre hdw rfl (fun g hg => by rw [hpre]; simp [hg]) hof.layout hof.grounded hof.null h10 h11 h11' h12
    · obtain ⟨m, inner', s1, s2, s3, s4, -⟩ := struct_resaves hΓ hd hh hk (structToStream_ok_iff.1 hst).1 hr hland
      refine ⟨by simp, by simp, by simp, m + 1, .dict inner', ?_, fun all' ha hs => ⟨m + 1, ?_⟩⟩
      · simp only [structToDict] at s1
        simp only [recursiveToDicts, h3]
        split at s1
        · simp at s1
        · rw [s1]; rfl
      · refine container_redump (by simp) l2 (by simp) (by simp) (by simp) ha (hbs ▸ hto) ?_
        simp only [containerDump, dumpNew, h3, structInit_ok_iff.2 ⟨rfl, s2⟩]
        exact s4
  | @unionField earlier all b choices ld dd i g w h1 h2 h3 h4 h5 h6 h7 _ ih =>
    intro pre fs tags he hsub hl hg hn ht hns htags hc
    cases hl with
    | union l1 l2 l3 l4 l5 =>
    cases hg with
    | @union _ _ _ _ refs g1 g2 g3 =>
    cases ht with
    | union t1 t2 t3 t4 t5 t6 =>
    have hmem := List.mem_of_getElem? h6
    refine unionField_restores h1 h2 h3 h4 h5 h6 h7 (ih he hsub (l5 g hmem) (g3 g hmem) (Or.inl (l4 g hmem).2) (t5 w ctx all i g htags h5 h6) hns htags hc) ?_
    rintro n bs v hto ⟨⟨m2, m3, m4⟩, hnone, hatom, m, w', hw', hdump⟩
    have hv : v ≠ .none := fun hx => hnone hx (l4 g hmem).2
    have hmk := recursiveToDicts_marker hw'
    refine ⟨⟨m2, m3, m4⟩, fun hx => absurd hx hv, by simp, m, w', hw', fun all' ha hs => ?_⟩
    obtain ⟨k, hk⟩ := hdump all' ha hs
    have hdd : dd w' ctx all' = .ok i := by
      have e1 := g2 ⟨[], 0⟩ w' ctx ctx all' all' fun _ _ => rfl
      have e2 := g2 ⟨[], 0⟩ w ctx ctx all' all fun r hr => hs r ((g1 r hr).mono hsub)
      rw [← e1, e2, h5]
    refine ⟨k + 1, container_redump (by simp) l2 h3 h4 ⟨fun h => m2 (hmk.2.2.2 h), fun h => m3 (hmk.2.1 h), fun h => hv (hmk.2.2.1.1 h)⟩ ha hto ?_⟩
    simp only [containerDump, hdd, h6]
    exact hk
  | @unionStruct earlier all b choices ld dd i cls w h1 h2 h3 h4 h5 h6 h7 _ ih =>
    intro pre fs tags he hsub hl hg hn ht hns htags hc
    cases hl with
    | union l1 l2 l3 l4 l5 =>
    cases hg with
    | @union _ _ _ _ refs g1 g2 g3 =>
    cases ht with
    | union t1 t2 t3 t4 t5 t6 =>
    refine unionStruct_restores h1 h2 h3 h4 h5 h6 h7 (ih he hsub (.nested rfl rfl) .nested (Or.inl rfl) (t6 w ctx all i cls htags h5 h6) hns htags hc) ?_
    rintro n bs v hto ⟨⟨m2, m3, m4⟩, hnone, hatom, m, w', hw', hdump⟩
    have hv : v ≠ .none := fun hx => hnone hx rfl
    have hmk := recursiveToDicts_marker hw'
    have hw : w' ≠ .dflt ∧ w' ≠ .undefined ∧ w' ≠ .none := ⟨fun h => m2 (hmk.2.2.2 h), fun h => m3 (hmk.2.1 h), fun h => hv (hmk.2.2.1.1 h)⟩
    refine ⟨⟨m2, m3, m4⟩, fun hx => absurd hx hv, by simp, m, w', hw', fun all' ha hs => ?_⟩
    obtain ⟨k, hk⟩ := hdump all' ha hs
    have hdd : dd w' ctx all' = .ok i := by
      have e1 := g2 ⟨[], 0⟩ w' ctx ctx all' all' fun _ _ => rfl
      have e2 := g2 ⟨[], 0⟩ w ctx ctx all' all fun r hr => hs r ((g1 r hr).mono hsub)
      rw [← e1, e2, h5]
    obtain ⟨k', -, hk'⟩ := container_dumped (by simp) hw.2.2 hw.1 hk
    refine ⟨k' + 1, container_redump (by simp) l2 h3 h4 hw ha hto ?_⟩
    have hns' := (recursiveToDicts_spec hw').1
    simp only [containerDump, hdd, h6]
    simp only [containerDump] at hk'
    cases w' <;> simp only at hk' ⊢ <;> first | exact hk' | (simp [W.fail] at hk'; done) | cases hns'

/-- A struct of a class with optional fields, dumped, loaded and dumped again. -/
theorem optional_resave {Γ : Classes} (hΓ : ∀ c d, Γ c = some d → OptionalSchema Γ d) {n : Nat} {d : StructDesc} {vals : Dict} {ctx : Value}
    {bs : Bytes} (hd : OptionalSchema Γ d) (hh : Bears Γ d vals) (h : structToStream Γ (n + 1) d vals ctx = (bs, .ok ())) :
    ∃ m r, (∀ pre rest, structFromStream Γ m d ⟨pre ++ bs ++ rest, pre.length⟩ ctx [] =
        (.ok r, ⟨pre ++ bs ++ rest, pre.length + bs.length⟩)) ∧ structToStream Γ m d r ctx = (bs, .ok ()) := by
  obtain ⟨hval, all, h1, ps, h2, rfl⟩ := structToStream_ok_iff.1 h
  have hp := optionalSchema_proper hΓ hd hh h1 hval h2
  obtain ⟨m, r, ⟨r', rfl, h3, h4⟩, -, h5⟩ := struct_restores (P := fun f _ => Resaves Γ ctx d.components all f) hd.unique hp.accepts hp.omitted
    (fun pre f post w hpre hdw => by
      have hof := hd.fields pre f post hpre
      obtain ⟨h8, h9, h10, h11, h11', h12⟩ := (optional_facts hΓ hd hh h1 hpre).2 w hdw
      exact proper_resaves hΓ (hp.proper pre f post w hpre hdw) rfl (fun g hg => by rw [hpre]; simp [hg]) hof.layout hof.grounded hof.null
        h10 h11 h11' h12) h2
  obtain ⟨k, inner, -, -, h6, -⟩ := struct_resaves hΓ hd hh h1 hval h3 h4
  exact ⟨max m k, dropDiscarded d r', fun pre rest => structFromStream_of_le (Nat.le_max_left ..) (h5 pre rest), structToStream_of_le (Nat.le_max_right ..) h6⟩

end Verif
