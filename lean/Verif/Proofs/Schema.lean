import Verif.Spec.Schema
import Verif.Proofs.RoundTrip

/-! Helper lemmas: plain struct classes dump without loss. -/

namespace Verif
open Spec

theorem Spec.Schema.field {Γ : Classes} {d : StructDesc} (h : Schema Γ d) {f : Field} (hf : f ∈ d.components) :
    Always f.base ∧ f.base.discard = false ∧ Sources Γ f := by
  obtain ⟨pre, post, hd⟩ := List.append_of_mem hf
  exact (h.fields pre f post hd).2

theorem Spec.Typed.ne {Γ : Classes} {f : Field} {w : Value} (h : Typed Γ f w) :
    w ≠ .none ∧ w ≠ .dflt ∧ w ≠ .undefined ∧ w ≠ .notPresent := by
  cases h with
  | @leaf b k w h1 _ => refine ⟨?_, ?_, ?_, ?_⟩ <;> (rintro rfl; cases k <;> simp [Scalar] at h1)
  | _ => simp

theorem Scalar.noStruct {k : Leaf} {w : Value} (h : Scalar k w) : NoStruct w := by
  cases w with
  | list l => cases k <;> simp [Scalar] at h
  | dict l => cases k <;> simp [Scalar] at h
  | struct c l => cases k <;> simp [Scalar] at h
  | _ => constructor

/-- A value chosen for a field matches it, if what is stored does. -/
theorem chosen_typed {Γ : Classes} {f : Field} {view : View} {v : Value} (hs : Sources Γ f)
    (hv : ∀ w, view.contains f.name = true → view.get f.name = .ok w → Typed Γ f w) (h : Chosen f.base view v)
    (hu : v ≠ .undefined) : Typed Γ f v := by
  cases h with
  | explicit h1 h2 => exact hv _ h1 h2
  | default h1 h2 h3 => exact hs.1 _ h2 h3
  | computed h1 h2 h3 h4 => exact hs.2 _ _ _ h3 h4
  | nothing => exact absurd rfl hu

theorem computed_typed {Γ : Classes} {f : Field} {view : View} {ctx v : Value} (ha : Always f.base) (hs : Sources Γ f)
    (hv : ∀ w, view.contains f.name = true → view.get f.name = .ok w → Typed Γ f w)
    (h : f.base.computeValueForDump view ctx = .ok v) : Typed Γ f v := by
  obtain ⟨w, h1, ⟨rfl, h2⟩ | ⟨rfl, -, h2, -⟩⟩ := computeValueForDump_ok h
  · rcases h2 with rfl | h2
    · exact chosen_typed hs hv h1 (by simp)
    · rw [ha.1] at h2; simp at h2
  · exact chosen_typed hs hv h1 h2

theorem dictValue_typed {Γ : Classes} {d : StructDesc} {vals : Dict} (hd : Schema Γ d) (hi : Instance d vals)
    (ht : ∀ f ∈ d.components, ∀ w, Dict.get? vals f.name = some w → Typed Γ f w) {f : Field} (hf : f ∈ d.components) {v : Value}
    (h : DictValue d vals f v) : Typed Γ f v := by
  obtain ⟨ha, -, hs⟩ := hd.field hf
  rcases h with h | ⟨e, -, -, ⟨-, h⟩ | ⟨-, dct, -, h1, h2⟩⟩
  · refine computed_typed ha hs (fun w h1 h2 => ?_) h
    obtain ⟨x, hx, -⟩ := (structContains_iff hi.1).1 h1
    have h3 := structGetItem_some (List.mem_map.2 ⟨f, hf, rfl⟩) hx
    simp only [structView] at h2
    rw [h3] at h2; cases h2
    exact ht f hf _ hx
  · exact ht f hf _ h
  · refine computed_typed ha hs (fun w h3 _ => ?_) h2
    simp only [Dict.view, Dict.contains_eq, h1] at h3
    simp at h3

/-- `to_dict` keeps values matching their fields. -/
theorem toDicts_typed {Γ : Classes} (hΓ : ∀ c d, Γ c = some d → Schema Γ d) {n : Nat} {f : Field} {v w : Value}
    (ht : Typed Γ f v) (h : recursiveToDicts Γ n v = .ok w) : Typed Γ f w := by
  induction n generalizing f v w with
  | zero => simp [recursiveToDicts] at h
  | succ n ih =>
    have hmap : ∀ {d : StructDesc} {dct r : Dict}, Instance d dct →
        (∀ f ∈ d.components, ∀ w, Dict.get? dct f.name = some w → Typed Γ f w) → mapDictE (recursiveToDicts Γ n) dct = .ok r →
        Instance d r ∧ ∀ f ∈ d.components, ∀ w, Dict.get? r f.name = some w → Typed Γ f w := by
      intro d dct r hi hv hr
      obtain ⟨h1, h2⟩ := mapDictE_ok hr
      refine ⟨⟨h1 ▸ hi.1, fun k hk => hi.2 k (h1 ▸ hk)⟩, fun f hf w hw => ?_⟩
      rcases h2 f.name with ⟨-, h3⟩ | ⟨x, y, h3, h4, h5⟩
      · rw [hw] at h3; simp at h3
      · rw [hw] at h4; cases h4
        exact ih (hv f hf x h3) h5
    cases ht with
    | leaf h1 h2 => rw [(recursiveToDicts_spec h).2 (Scalar.noStruct h1)]; exact .leaf h1 h2
    | array h1 =>
      simp only [recursiveToDicts] at h
      obtain ⟨r, hr, rfl⟩ := Except.map_ok h
      exact .array (mapE_forall hr fun a ha b hb => ih (h1 a ha) hb)
    | dict h1 h2 h3 =>
      simp only [recursiveToDicts] at h
      obtain ⟨r, hr, rfl⟩ := Except.map_ok h
      obtain ⟨h4, h5⟩ := hmap h2 h3 hr
      exact .dict h1 h4 h5
    | @struct b cls d vals h1 h2 h3 =>
      simp only [recursiveToDicts, h1] at h
      cases hs : toDictShallow d vals false with
      | error e => simp [hs] at h
      | ok dct =>
        simp only [hs] at h
        obtain ⟨r, hr, rfl⟩ := Except.map_ok h
        obtain ⟨h6, h7, h8⟩ := toDictShallow_get (hΓ _ _ h1).unique h2 hs
        obtain ⟨h4, h5⟩ := hmap (d := d) ⟨h6, h7⟩ (fun f hf w hw => by
          rcases h8 f hf with ⟨-, -, h9⟩ | ⟨-, v, h9, h10⟩
          · rw [hw] at h9; simp at h9
          · rw [hw] at h10; cases h10
            exact dictValue_typed (hΓ _ _ h1) h2 h3 hf h9) hr
        exact .dict h1 h4 h5

theorem structToDict_typed {Γ : Classes} (hΓ : ∀ c d, Γ c = some d → Schema Γ d) {n : Nat} {d : StructDesc} {vals all : Dict}
    (hd : Schema Γ d) (hi : Instance d vals) (ht : ∀ f ∈ d.components, ∀ w, Dict.get? vals f.name = some w → Typed Γ f w)
    (h : structToDict Γ n d vals = .ok all) {f : Field} (hf : f ∈ d.components) {w : Value} (hw : Dict.get? all f.name = some w) :
    Typed Γ f w ∧ NoStruct w := by
  obtain ⟨-, -, h3⟩ := structToDict_get hd.unique hi h
  rcases h3 f hf with ⟨-, -, h4⟩ | ⟨-, v, x, h4, h5, h6⟩
  · rw [hw] at h4; simp at h4
  · rw [hw] at h6; cases h6
    exact ⟨toDicts_typed hΓ (dictValue_typed hd hi ht hf h4) h5, (recursiveToDicts_spec h5).1⟩

theorem scalar_lossless {ctx : Value} {earlier : List String} {all : Dict} {b : FieldBase} {k : Leaf} {w : Value}
    (hl : Layout earlier (.leaf b k)) (h : Scalar k w) : Lossless ctx earlier all b k w := by
  cases hl with
  | integer h1 h2 => cases w <;> simp [Scalar] at h; exact .integer _ h1 h2
  | varint h1 => cases w <;> simp [Scalar] at h; exact .varint _ h1
  | bytes h1 => cases w <;> simp [Scalar] at h; exact .bytes _ h1
  | string h1 h2 => cases w <;> simp [Scalar] at h; exact .string _ h1 h2 (Or.inl rfl)
  | stringz h1 h2 h3 h4 => cases w <;> simp [Scalar] at h; exact .stringz _ h1 h h2 h3 h4
  | stringzSized h1 h2 => cases w <;> simp [Scalar] at h; exact .stringzSized _ h1 h h2 (Or.inl rfl)
  | uuid => cases w <;> simp only [Scalar] at h; exact .uuid _ h
  | float h1 h2 => cases w <;> simp only [Scalar] at h; exact .float _ h1 h2 h.1 h.2
  | timestamp h1 h2 =>
    cases w <;> simp only [Scalar] at h
    obtain ⟨rfl, k, rfl, h3, h4, h5⟩ := h
    exact .timestamp k h1 h2 h3 h4 h5

theorem layout_open {b : FieldBase} {w : Value} (ha : Always b) (h1 : b.const = .undefined) (h2 : b.validators = []) : Open b w :=
  ⟨ha.2, h1, by simp [h2]⟩

theorem parts_mem {Γ : Classes} {n : Nat} {ctx : Value} {all : Dict} {fs : List Field} {ps : List Bytes}
    (h : Parts Γ n ctx all fs ps) {f : Field} (hf : f ∈ fs) : ∃ p, Part Γ n ctx all f p := by
  induction h with
  | nil => simp at hf
  | cons h1 _ ih =>
    rcases List.mem_cons.1 hf with rfl | hf
    · exact ⟨_, h1⟩
    · exact ih hf

/-- All fields of a plain struct are dumped, with the values `to_dict` gives. -/
theorem plain_dumped {Γ : Classes} (hΓ : ∀ c d, Γ c = some d → Schema Γ d) {n : Nat} {d : StructDesc} {vals all : Dict}
    (hd : Schema Γ d) (hi : Instance d vals) (ht : ∀ f ∈ d.components, ∀ w, Dict.get? vals f.name = some w → Typed Γ f w)
    (h : structToDict Γ n d vals = .ok all) {f : Field} (hf : f ∈ d.components) :
    ∃ w, Dict.get? all f.name = some w ∧ Typed Γ f w ∧ NoStruct w ∧ (∀ v, Chosen f.base all.view v → v = w) := by
  obtain ⟨-, hdisc, -⟩ := hd.field hf
  obtain ⟨-, -, h3⟩ := structToDict_get hd.unique hi h
  rcases h3 f hf with ⟨-, h4, -⟩ | ⟨-, v, w, -, -, h6⟩
  · rw [hdisc] at h4; simp at h4
  · obtain ⟨h7, h8⟩ := structToDict_typed hΓ hd hi ht h hf h6
    refine ⟨w, h6, h7, h8, fun x hx => ?_⟩
    have : Chosen f.base all.view w := .explicit
      (by simp only [Dict.view, Dict.contains_eq]; rw [show f.base.name = f.name from rfl, h6]; rfl)
      (by simp only [Dict.view]; rw [show f.base.name = f.name from rfl, h6])
    exact Chosen.unique hx this

theorem plain_not_skipped {Γ : Classes} (hΓ : ∀ c d, Γ c = some d → Schema Γ d) {n : Nat} {d : StructDesc} {vals all : Dict}
    (hd : Schema Γ d) (hi : Instance d vals) (ht : ∀ f ∈ d.components, ∀ w, Dict.get? vals f.name = some w → Typed Γ f w)
    (h : structToDict Γ n d vals = .ok all) {f : Field} (hf : f ∈ d.components) {ctx : Value} : ¬ Skipped f all ctx := by
  rintro ⟨v, h1, h2⟩
  obtain ⟨w, -, h3, -, h4⟩ := plain_dumped hΓ hd hi ht h hf
  have := h4 v h1
  subst this
  rcases h2 with h2 | h2
  · exact h3.ne.2.2.2 h2
  · rw [(hd.field hf).1.1] at h2; simp at h2

/-- A value that matches a plain field is dumped without loss. -/
theorem layout_proper {Γ : Classes} (hΓ : ∀ c d, Γ c = some d → Schema Γ d) {ctx : Value} {n : Nat} {earlier : List String}
    {all : Dict} {f : Field} {w : Value} {bs : Bytes} (hl : Layout earlier f) (ha : Always f.base) (ht : Typed Γ f w)
    (hns : NoStruct w) (hc : ∀ r ∈ earlier, Dict.get? all r ≠ some .none)
    (h : fieldToStream Γ n f w ctx all = (bs, .ok ())) : Proper Γ ctx earlier all f w := by
  induction n generalizing earlier all f w bs with
  | zero => simp [fieldToStream, W.fail] at h
  | succ n ih =>
    have hp : LoadsPresent ctx earlier all f.base := fun _ _ _ => ha.1 _ _ _
    cases ht with
    | leaf h1 h2 => exact .leaf hp (scalar_lossless hl h1) (Or.inl ha.2) h2
    | @array b comp count halt l h1 =>
      cases hl with
      | array h2 h3 h4 h5 h6 =>
        obtain ⟨m, hm, hdump⟩ := container_dumped (by simp) (by simp) (by simp) h
        cases hm
        have hl : ∀ x ∈ l, NoStruct x := by cases hns with | list hns => exact hns
        have hd : ∀ x ∈ l, ∃ p, fieldToStream Γ n comp x ctx all = (p, .ok ()) := by
          simp only [containerDump, arrayDump, arrayElements] at hdump
          have hall : ∃ bs, dumpAll (fun v => fieldToStream Γ n comp v ctx all) l = (bs, .ok ()) := by
            split at hdump
            · simp [W.fail] at hdump
            · split at hdump
              · split at hdump
                · simp [W.fail] at hdump
                · exact ⟨_, hdump⟩
              · exact ⟨_, hdump⟩
          obtain ⟨bs, hall⟩ := hall
          obtain ⟨ps, h7, -, h8⟩ := dumpAll_ok hall
          intro x hx
          obtain ⟨i, hi, rfl⟩ := List.mem_iff_getElem.1 hx
          exact ⟨_, h8 i hi (by omega)⟩
        refine .array hp (layout_open ha h2 h3) ?_ (fun x hx => (h1 x hx).ne.2.2.2) (fun x hx => ?_)
        · rcases h4 with h4 | ⟨r, h4, h4'⟩
          · exact Or.inl h4
          · exact Or.inr ⟨r, h4, h4', hc r h4⟩
        · obtain ⟨p, hpx⟩ := hd x hx
          exact ih h6 h5 (h1 x hx) (hl x hx) hc hpx
    | @dict b cls d vals h1 h2 h3 =>
      cases hl with
      | nested h4 h5 =>
        obtain ⟨m, hm, hdump⟩ := container_dumped (by simp) (by simp) (by simp) h
        cases hm
        have hd := hΓ _ _ h1
        have hvals : ∀ p ∈ vals, NoStruct p.2 := by cases hns with | dict hns => exact hns
        simp only [containerDump, dumpNew, h1] at hdump
        cases hi : structInit d vals with
        | error e => simp [hi, W.fail] at hdump
        | ok vals' =>
          simp only [hi] at hdump
          obtain ⟨rfl, -⟩ := structInit_ok_iff.1 hi
          cases n with
          | zero => simp [structToStream, W.fail] at hdump
          | succ n =>
            obtain ⟨-, inner0, h6, ps, h7, -⟩ := structToStream_ok_iff.1 hdump
            have hsame : ∀ k inner, structToDict Γ k d vals' = .ok inner → inner = inner0 := by
              intro k inner hk
              have h8 := (structToDict_mono Γ (Nat.le_max_left k n) d vals' false).of_ok hk
              have h9 := (structToDict_mono Γ (Nat.le_max_right k n) d vals' false).of_ok h6
              rw [h8] at h9; cases h9; rfl
            refine .nested hp (layout_open ha h4 h5) h1 hd.unique ⟨h2.1, h2.2, hvals, fun f hf w hw => ?_⟩
              (fun k inner hk r hr _ => hd.checks r hr) (fun k inner hk pre f post hpre hskip => ?_)
              (fun k inner hk pre f post w hpre hdw => ?_)
            · obtain ⟨h8, h9, -⟩ := hd.field hf
              exact ⟨(h3 f hf w hw).ne.2.2.1, h9, Or.inr (h8.1 _ _ _)⟩
            · exact absurd hskip (plain_not_skipped hΓ hd h2 h3 hk (by rw [hpre]; simp))
            · have hf : f ∈ d.components := by rw [hpre]; simp
              rw [hsame k inner hk] at hdw ⊢
              obtain ⟨x, h8, h9, h10, h11⟩ := plain_dumped hΓ hd h2 h3 h6 hf
              have := h11 w hdw.1
              subst this
              obtain ⟨hlay, halw, -, -⟩ := hd.fields pre f post hpre
              obtain ⟨p, ⟨hskip, -⟩ | ⟨y, hy, hp'⟩⟩ := parts_mem h7 hf
              · exact absurd hskip (plain_not_skipped hΓ hd h2 h3 h6 hf)
              · have := h11 y hy.1
                subst this
                rcases fieldToStream_mono Γ (Nat.le_succ n) f y ctx inner0 with h12 | h12
                · rw [hp'] at h12; simp at h12
                · refine ih hlay halw h9 h10 (fun r hr hnone => ?_) (h12 ▸ hp')
                  obtain ⟨g, hg, rfl⟩ := List.mem_map.1 hr
                  have hg' : g ∈ d.components := by rw [hpre]; simp [hg]
                  exact (structToDict_typed hΓ hd h2 h3 h6 hg' hnone).1.ne.1 rfl
    | struct => cases hns

/-- A plain struct is dumped without loss. -/
theorem schema_proper {Γ : Classes} (hΓ : ∀ c d, Γ c = some d → Schema Γ d) {ctx : Value} {n : Nat} {d : StructDesc}
    {vals all : Dict} {ps : List Bytes} (hd : Schema Γ d) (hi : Instance d vals)
    (ht : ∀ f ∈ d.components, ∀ w, Dict.get? vals f.name = some w → Typed Γ f w) (h : structToDict Γ n d vals = .ok all)
    (hps : Parts Γ n ctx all d.components ps) : ProperStruct Γ ctx d all where
  accepts r hr _ := hd.checks r hr
  omitted pre f post hpre hskip := absurd hskip (plain_not_skipped hΓ hd hi ht h (by rw [hpre]; simp))
  proper pre f post w hpre hdw := by
    have hf : f ∈ d.components := by rw [hpre]; simp
    obtain ⟨x, h8, h9, h10, h11⟩ := plain_dumped hΓ hd hi ht h hf
    have := h11 w hdw.1
    subst this
    obtain ⟨hlay, halw, -, -⟩ := hd.fields pre f post hpre
    obtain ⟨p, ⟨hskip, -⟩ | ⟨y, hy, hp'⟩⟩ := parts_mem hps hf
    · exact absurd hskip (plain_not_skipped hΓ hd hi ht h hf)
    · have := h11 y hy.1
      subst this
      refine layout_proper hΓ hlay halw h9 h10 (fun r hr hnone => ?_) hp'
      obtain ⟨g, hg, rfl⟩ := List.mem_map.1 hr
      have hg' : g ∈ d.components := by rw [hpre]; simp [hg]
      exact (structToDict_typed hΓ hd hi ht h hg' hnone).1.ne.1 rfl

end Verif
