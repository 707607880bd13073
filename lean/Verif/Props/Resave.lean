import Verif.Props.Canonical
import Verif.Props.Optional
import Verif.Proofs.Resave

/-!
# C27 for classes with optional fields, and C80: dumping what was loaded from a dump
-/

namespace Verif
open Spec

/-! ### Null values with one encoding -/

theorem leafDump_alone {Γ : Classes} {pre : List Field} {b : FieldBase} {k : Leaf} (hk : Canonical Γ pre (.leaf b k)) (size : Except Err Int)
    (v c c' : Value) (values values' : Dict) : leafDump b k size v c values = leafDump b k size v c' values' := by
  cases hk <;> rfl

/-- A field without children, with a number for its size, whose null value can be dumped: `None` has one encoding, unless the field is a
float and its null value a number. -/
theorem C27_null_safe (Γ : Classes) (b : FieldBase) (k : Leaf) (n : Nat) (repr : Bytes) (hk : Canonical Γ [] (.leaf b k))
    (hsize : b.size = .fixed n) (hs : NoStruct b.nullValue) (hr : leafNullRepr b k [] = .ok repr)
    (hf : ∀ fmt e, k = .float fmt e → (∀ x, b.nullValue ≠ .float x) ∧ ∀ i, b.nullValue ≠ .int i) : OneNull b k := by
  have hsz : ∀ values, leafExpectedSize b k values = .ok (n : Int) := fun values => leafSized hsize
  have hrepr : ∀ values, leafNullRepr b k values = .ok repr := by
    intro values
    rw [← hr]
    unfold leafNullRepr
    rw [hsz, hsz]
    congr 1
    funext v
    exact leafDump_alone hk ..
  refine ⟨hs, repr, hrepr, fun w s ctx loaded t ctx' values bs hw heq hd => ?_⟩
  obtain ⟨-, -, -, ⟨m1, m2, m3, m4, m5⟩, -⟩ := leaf_canonical hk (loaded := loaded) (by rintro r ⟨_, _, hb, -⟩; simp at hb) hw
  have hnull := hrepr values
  unfold leafNullRepr at hnull
  simp only [FieldBase.nullReprWith] at hnull
  rw [leafDump_alone hk _ _ ctx' .none values values] at hd
  have same : w = b.nullValue → (leafDump b k (leafExpectedSize b k values) b.nullValue .none values).toExcept = .ok repr → bs = repr := by
    rintro rfl h
    rw [hd] at h
    simpa [W.toExcept] using h
  cases hv : b.nullValue with
  | int i =>
    simp only [hv] at hnull heq hf
    cases w <;> simp only [scalarEq, Bool.false_eq_true, decide_eq_true_eq] at heq
    · subst heq; exact same hv.symm (by rw [hv]; exact hnull)
    · cases hk <;> first | (exact absurd rfl ((hf _ _ rfl).2 i)) | simp [leafDump, W.fail, hsize, hsz] at hd
  | float x =>
    simp only [hv] at hnull heq hf
    cases hk <;> first | (exact absurd rfl ((hf _ _ rfl).1 x)) | simp [leafDump, W.fail, hsize, hsz, W.toExcept] at hnull
  | bytes x =>
    simp only [hv, Except.ok.injEq] at hnull heq
    subst hnull
    cases w <;> simp only [scalarEq, Bool.false_eq_true, decide_eq_true_eq] at heq
    subst heq
    cases hk <;> simp only [leafDump, W.fail, hsize, hsz, Prod.mk.injEq, reduceCtorEq, and_false] at hd
    split at hd
    · simp at hd
    · simp [W.ok] at hd; exact hd.symm
  | str x =>
    simp only [hv] at hnull heq
    cases w <;> simp only [scalarEq, Bool.false_eq_true, decide_eq_true_eq] at heq
    subst heq; exact same hv.symm (by rw [hv]; exact hnull)
  | uuid x =>
    simp only [hv] at hnull heq
    cases w <;> simp only [scalarEq, Bool.false_eq_true, decide_eq_true_eq] at heq
    subst heq; exact same hv.symm (by rw [hv]; exact hnull)
  | datetime x p =>
    simp only [hv] at hnull heq
    cases w <;> simp only [scalarEq, Bool.false_eq_true, decide_eq_true_eq, Bool.and_eq_true] at heq
    obtain ⟨rfl, rfl⟩ := heq; exact same hv.symm (by rw [hv]; exact hnull)
  | undefined => simp [hv] at hnull
  | dflt => rw [hv] at heq; cases w <;> simp [scalarEq] at heq m2
  | none => rw [hv] at heq; cases w <;> simp [scalarEq] at heq m1
  | notPresent => rw [hv] at heq; cases w <;> simp [scalarEq] at heq m4
  | _ => rw [hv] at heq; cases w <;> simp [scalarEq] at heq

/-- **C27** does not extend to floats with a number for their null value: −0.0 equals 0.0, so it is loaded as `None`, and dumped as 0.0. -/
theorem C27_null_zero_refuted :
    ∃ (d : StructDesc) (data bs : Bytes) (r : Dict), UniqueNames d ∧
      structFromStream Sample.noClasses 4 d ⟨data, 0⟩ .none [] = (.ok r, ⟨data, data.length⟩) ∧
      structToStream Sample.noClasses 4 d r .none = (bs, .ok ()) ∧ bs ≠ data :=
  ⟨{ name := "F", components := [.leaf { name := "x", size := .fixed 8, nullValue := .float 0 } (.float binary64 .big)],
     fieldValidators := [("x", [])] },
    [0x80, 0, 0, 0, 0, 0, 0, 0], List.replicate 8 0, [("x", .none)], by unfold UniqueNames; decide, by decide +kernel, by decide +kernel,
    by decide⟩

/-- Linked lists with values that may be missing. -/
theorem Sample.node_canonical : CanonicalClass Sample.nodeClasses Sample.node where
  unique := by unfold UniqueNames; decide
  checks := unchecked_fair (by decide) (by simp [Sample.node, Sample.nodeValue, Sample.nodeMore, Sample.nodeNext, Sample.upd, Sample.i16, Sample.u8, Sample.nested, Field.withBase, Field.base])
    rfl (by unfold UniqueNames; decide)
  fields := by
    refine fields_of_take (Q := CanonicalField Sample.nodeClasses) ?_
    intro i hi
    match i, hi with
    | 0, _ =>
      exact ⟨.integer (n := 2) rfl (by decide), Or.inl rfl,
        Or.inr ⟨_, _, rfl, C27_null_safe Sample.nodeClasses _ _ 2 [255, 255] (.integer (n := 2) rfl (by decide)) rfl (by constructor) (by decide)
          (by rintro _ _ ⟨⟩)⟩,
        ⟨[], by simp, fun _ _ _ _ _ _ _ => rfl⟩, rfl⟩
    | 1, _ => exact .plain (.integer (n := 1) rfl (by decide)) ⟨fun _ _ _ => rfl, rfl⟩ rfl rfl
    | 2, _ =>
      refine ⟨.nested (.unchecked rfl) (Or.inl rfl), Or.inl rfl, Or.inl rfl, ⟨["more"], ?_, ?_⟩, rfl⟩
      · intro r hr
        simp at hr; subst hr
        exact ⟨_, _, .tail _ (.head _), rfl, rfl⟩
      · intro v₁ v₂ _ _ _ _ h
        show (v₁.get "more").map _ = (v₂.get "more").map _
        rw [h "more" (by simp)]

theorem Sample.nodeClasses_canonical (c : String) (d : StructDesc) (h : Sample.nodeClasses c = some d) :
    CanonicalClass Sample.nodeClasses d := by
  unfold Sample.nodeClasses Classes.add at h
  split at h
  · cases h; exact Sample.node_canonical
  · simp [Sample.noClasses] at h

-- every way of reading a linked list, from any stream
example (n : Nat) (s s' : Stream) (r : Dict) (h : structFromStream Sample.nodeClasses n Sample.node s .none [] = (.ok r, s')) :
    ∃ bs m, Consumed s s' bs ∧ structToStream Sample.nodeClasses m Sample.node r .none = (bs, .ok ()) :=
  C27_load_dump_partial _ Sample.nodeClasses_canonical n Sample.node s s' .none r Sample.node_canonical h

-- two nodes, the first without a value
example : ∃ bs m, Consumed ⟨[9, 255, 255, 1, 7, 0, 0, 8], 1⟩ ⟨[9, 255, 255, 1, 7, 0, 0, 8], 7⟩ bs ∧
    structToStream Sample.nodeClasses m Sample.node [("value", .none), ("more", .int 1),
      ("next", .struct "Node" [("value", .int 7), ("more", .int 0), ("next", .notPresent)])] .none = (bs, .ok ()) :=
  C27_load_dump_partial _ Sample.nodeClasses_canonical 14 Sample.node _ _ .none _ Sample.node_canonical (by decide +kernel)

/-- Discarded constants: a magic number and padding. -/
theorem Sample.parcel_canonical : CanonicalClass Sample.noClasses Sample.parcel where
  unique := by unfold UniqueNames; decide
  checks r r' _ _ hs hr hv := by
    obtain ⟨v, w, h1, h2, h3⟩ := hs Sample.parcelVersion (by simp [Sample.parcel]) rfl
    have h := unchecked_accepts (d := { Sample.parcel with structValidators := [] }) (by decide)
      (by simp [Sample.parcel, Sample.parcelMagic, Sample.parcelVersion, Sample.parcelSize, Sample.parcelPad, Sample.upd, Sample.u8, Sample.bytesRef,
        Field.withBase, Field.base]) rfl (by unfold UniqueNames; decide) (r := r') hr
    refine ⟨h.1, fun m hm => ?_⟩
    simp only [Sample.parcel, List.mem_singleton] at hm
    subst hm
    have h4 := hv.2 Sample.parcelChecked (by simp [Sample.parcel])
    have h5 : structGetItem Sample.parcel r "version" = .ok v := structGetItem_some (by decide) h1
    have h6 : structGetItem Sample.parcel r' "version" = .ok w := structGetItem_some (by decide) h2
    simp only [Sample.parcelChecked, structView, h5, h6, Except.bind] at h4 ⊢
    split
    · rename_i h7
      cases h3 with
      | same => simp only [h7, if_true] at h4; cases h4
      | list => simp [scalarEq] at h7
      | struct => simp [scalarEq] at h7
    · rfl
  fields := by
    refine fields_of_take (Q := CanonicalField Sample.noClasses) ?_
    intro i hi
    match i, hi with
    | 0, _ =>
      exact ⟨.bytes (Or.inl ⟨2, rfl⟩), Or.inr ⟨_, _, _, rfl, rfl, rfl, rfl, rfl, Or.inl ⟨_, rfl⟩⟩, Or.inl rfl,
        ⟨[], by simp, fun _ _ _ _ _ _ _ => rfl⟩, rfl⟩
    | 1, _ => exact .plain (.integer (n := 1) rfl (by decide)) ⟨fun _ _ _ => rfl, rfl⟩ rfl rfl
    | 2, _ => exact .plain (.integer (n := 1) rfl (by decide)) ⟨fun _ _ _ => rfl, rfl⟩ rfl rfl
    | 3, _ =>
      refine ⟨.bytes (Or.inl ⟨1, rfl⟩), Or.inr ⟨_, _, _, rfl, rfl, rfl, rfl, rfl, Or.inl ⟨_, rfl⟩⟩, Or.inl rfl, ⟨["n"], ?_, ?_⟩, rfl⟩
      · intro r hr
        simp only [List.mem_singleton] at hr
        subst hr
        exact ⟨_, _, .tail _ (.tail _ (.head _)), rfl, rfl⟩
      · intro v₁ v₂ _ _ _ _ h
        show Sample.oddSize v₁ = Sample.oddSize v₂
        simp only [Sample.oddSize, h "n" (by simp)]
    | 4, _ =>
      exact .plain (.bytes (Or.inr ⟨"n", ⟨_, _, .tail _ (.tail _ (.head _)), rfl, ⟨fun _ _ _ => rfl, rfl⟩, rfl⟩, rfl⟩)) ⟨fun _ _ _ => rfl, rfl⟩ rfl rfl

-- every way of reading a parcel, from any stream
example (n : Nat) (s s' : Stream) (r : Dict) (h : structFromStream Sample.noClasses n Sample.parcel s .none [] = (.ok r, s')) :
    ∃ bs m, Consumed s s' bs ∧ structToStream Sample.noClasses m Sample.parcel r .none = (bs, .ok ()) :=
  C27_load_dump_partial _ (by intro c d h; simp [Sample.noClasses] at h) n Sample.parcel s s' .none r Sample.parcel_canonical h

example : structFromStream Sample.noClasses 9 Sample.parcel ⟨[80, 75, 2, 1, 0, 7], 0⟩ .none [] =
    (.ok [("version", .int 2), ("n", .int 1), ("data", .bytes [7])], ⟨[80, 75, 2, 1, 0, 7], 6⟩) := by decide +kernel

/-! ### Saving again -/

/-- **C80**: whatever was dumped from an instance whose values match the fields of its class can be loaded, wherever it is in a stream, and
dumping what was loaded gives the same bytes again. -/
theorem C80_resave (Γ : Classes) (hΓ : ∀ c d, Γ c = some d → OptionalSchema Γ d) (n : Nat) (d : StructDesc) (vals : Dict) (ctx : Value)
    (bs : Bytes) (hd : OptionalSchema Γ d) (hh : Bears Γ d vals) (h : structToStream Γ (n + 1) d vals ctx = (bs, .ok ())) :
    ∃ m r, (∀ pre rest, structFromStream Γ m d ⟨pre ++ bs ++ rest, pre.length⟩ ctx [] =
        (.ok r, ⟨pre ++ bs ++ rest, pre.length + bs.length⟩)) ∧ structToStream Γ m d r ctx = (bs, .ok ()) :=
  optional_resave hΓ hd hh h

-- a linked list with a missing value
example : ∃ m r, (∀ pre rest, structFromStream Sample.nodeClasses m Sample.node ⟨pre ++ [5, 0, 1, 255, 255, 1, 7, 0, 0] ++ rest, pre.length⟩ .none [] =
        (.ok r, ⟨pre ++ [5, 0, 1, 255, 255, 1, 7, 0, 0] ++ rest, pre.length + 9⟩)) ∧
      structToStream Sample.nodeClasses m Sample.node r .none = ([5, 0, 1, 255, 255, 1, 7, 0, 0], .ok ()) :=
  C80_resave Sample.nodeClasses Sample.nodeClasses_schema 11 Sample.node Sample.chain .none _ Sample.node_schema Sample.chain_bears
    (by decide +kernel)

-- a tagged union holding a struct
example : ∃ m r, (∀ pre rest, structFromStream Sample.cellClasses m Sample.cell ⟨pre ++ [2, 3, 0, 254, 255] ++ rest, pre.length⟩ .none [] =
        (.ok r, ⟨pre ++ [2, 3, 0, 254, 255] ++ rest, pre.length + 5⟩)) ∧
      structToStream Sample.cellClasses m Sample.cell r .none = ([2, 3, 0, 254, 255], .ok ()) :=
  C80_resave Sample.cellClasses Sample.cellClasses_schema 9 Sample.cell Sample.pointCell .none _ Sample.cell_schema Sample.pointCell_bears
    (by decide +kernel)

-- a parcel with padding: neither the magic number nor the padding is kept
example : ∃ m r, (∀ pre rest, structFromStream Sample.noClasses m Sample.parcel ⟨pre ++ [80, 75, 1, 3, 0, 7, 8, 9] ++ rest, pre.length⟩ .none [] =
        (.ok r, ⟨pre ++ [80, 75, 1, 3, 0, 7, 8, 9] ++ rest, pre.length + 8⟩)) ∧
      structToStream Sample.noClasses m Sample.parcel r .none = ([80, 75, 1, 3, 0, 7, 8, 9], .ok ()) :=
  C80_resave Sample.noClasses (by intro c d h; simp [Sample.noClasses] at h) 9 Sample.parcel _ .none _ Sample.parcel_schema
    (Sample.parcel_bears [7, 8, 9]) (by decide +kernel)

end Verif
