import Verif.Spec.Group
import Verif.Proofs.Envelope
import Verif.Proofs.Rekey

/-! Helper lemmas: fields put together in a nested struct. -/

namespace Verif
open Spec

/-- Fields that are not in `S` and do not look at those in `S` are loaded the same whatever these are, also if they are not there. -/
theorem loads_apart {Γ : Classes} {n : Nat} {ctx : Value} {S : String → Prop} {fs : List Field} {acc r : Dict} {s t : Stream}
    (h : Loads Γ n ctx fs acc s r t) :
    (∀ f ∈ fs, ReadsOff S f ∧ ¬ S f.name) → ∀ acc', AgreeOff S acc acc' → ∃ r', Loads Γ n ctx fs acc' s r' t ∧ AgreeOff S r r' := by
  induction h with
  | nil acc s => exact fun _ acc' ha => ⟨acc', .nil _ _, ha⟩
  | @cons f fs acc r v s s1 s2 h1 h2 ih =>
    intro hf acc' ha
    obtain ⟨ho, hSf⟩ := hf f List.mem_cons_self
    rw [(ho.load Γ ha n s ctx).1] at h1
    have hiff : (Dict.get? acc f.name = none) ↔ Dict.get? acc' f.name = none := by rw [ha _ hSf]
    have happ : ∀ (x : Dict), Dict.get? x f.name = none → ∀ k, Dict.get? (x ++ [(f.name, v)]) k = if f.name = k then some v else Dict.get? x k := by
      intro x hx k
      rw [← set_of_not_mem hx, Dict.get?_set]
    obtain ⟨r', h7, h9⟩ := ih (fun g hg => hf g (List.mem_cons_of_mem _ hg))
      (if Dict.get? acc' f.name = none then acc' ++ [(f.name, v)] else acc') (by
        intro k hk
        by_cases hn : Dict.get? acc f.name = none
        · rw [if_pos hn, if_pos (hiff.1 hn), happ _ hn, happ _ (hiff.1 hn), ha k hk]
        · rw [if_neg hn, if_neg (fun h => hn (hiff.2 h)), ha k hk])
    exact ⟨r', .cons h1 h7, h9⟩

/-- What was there before is still there after loading further fields, and other names are not added. -/
theorem loads_frame {Γ : Classes} {n : Nat} {ctx : Value} {fs : List Field} {acc r : Dict} {s t : Stream} (h : Loads Γ n ctx fs acc s r t)
    {k : String} (hk : k ∉ fs.map Field.name) : Dict.get? r k = Dict.get? acc k := by
  cases hv : Dict.get? acc k with
  | some v => exact h.mono_get hv
  | none =>
    rw [Dict.get?_none_iff]
    intro hx
    rcases (h.keys k).1 hx with h | h
    · exact (Dict.get?_none_iff _ _).1 hv h
    · exact hk h

/-- The end of `Struct.from_stream`, once the fields are loaded. -/
theorem loadsUnlessRejected_of {Γ : Classes} {n : Nat} {ctx : Value} {d : StructDesc} {s t : Stream} {r : Dict}
    (h : Loads Γ n ctx d.components [] s r t) : LoadsUnlessRejected Γ (n + 1) d s ctx (dropDiscarded d r) t := by
  have hkeys : ∀ k ∈ Dict.keys r, k ∈ names d := by
    intro k hk
    rcases (h.keys k).1 hk with h | h
    · simp [Dict.keys] at h
    · exact h
  cases hval : validateContents d r with
  | ok _ => exact Or.inl (structFromStream_ok_iff.2 ⟨r, h, hkeys, validateContents_ok_iff.1 hval, rfl⟩)
  | error e =>
    right
    refine ⟨e, r, hval, ?_⟩
    simp only [structFromStream, structFromStreamWith]
    rw [loadFields_ok_iff.2 h]
    simp only
    rw [structInit_ok_iff.2 ⟨rfl, hkeys⟩]
    simp only [hval]

/-- The names of the three parts, and of the nested struct, are different. -/
theorem Spec.Grouped.apart {Γ : Classes} {d d' inner : StructDesc} {pre mid post : List Field} {b : FieldBase} {cls : String}
    (h : Grouped Γ d d' inner pre mid post b cls) :
    (∀ f ∈ pre, ∀ g ∈ mid, f.name ≠ g.name) ∧ (∀ f ∈ pre, ∀ g ∈ post, f.name ≠ g.name) ∧ (∀ f ∈ mid, ∀ g ∈ post, f.name ≠ g.name) ∧
      (∀ f ∈ pre, f.name ≠ b.name) ∧ (∀ f ∈ post, f.name ≠ b.name) ∧ UniqueNames inner := by
  have h1 := h.unique
  have h2 := h.unique'
  unfold UniqueNames names at h1 h2
  rw [h.flat, List.map_append, List.map_append, List.nodup_append, List.nodup_append] at h1
  rw [h.grouped, List.map_append, List.map_cons, List.nodup_append, List.nodup_cons] at h2
  obtain ⟨⟨h3, h4, h5⟩, h6, h7⟩ := h1
  obtain ⟨h8, ⟨h9, h10⟩, h11⟩ := h2
  have mem : ∀ {l : List Field} {f : Field}, f ∈ l → f.name ∈ l.map Field.name := fun hf => List.mem_map.2 ⟨_, hf, rfl⟩
  refine ⟨fun f hf g hg => h5 _ (mem hf) _ (mem hg), fun f hf g hg => h7 _ (List.mem_append_left _ (mem hf)) _ (mem hg),
    fun f hf g hg => h7 _ (List.mem_append_right _ (mem hf)) _ (mem hg), fun f hf => h11 _ (mem hf) _ (List.mem_cons_self ..), ?_, ?_⟩
  · intro f hf he
    exact h9 (by rw [show (Field.nested b cls).name = b.name from rfl, ← he]; exact mem hf)
  · unfold UniqueNames names
    rw [h.fields]
    exact h4

theorem grouped_same {Γ : Classes} {d d' inner : StructDesc} {pre mid post : List Field} {b : FieldBase} {cls : String}
    (hg : Grouped Γ d d' inner pre mid post b cls) (hnd : b.discard = false) {m1 m2 ri results r' : Dict}
    (h1 : ∀ k, k ∉ post.map Field.name → Dict.get? results k = Dict.get? m2 k) (h2 : ∀ k, k ∉ mid.map Field.name → Dict.get? m2 k = Dict.get? m1 k)
    (h3 : AgreeOff (· ∈ pre.map Field.name) m2 ri)
    (h4 : ∀ k, k ∉ post.map Field.name → Dict.get? r' k = if b.name = k then some (.struct cls (dropDiscarded inner ri)) else Dict.get? m1 k)
    (h5 : AgreeOff (fun k => k ∈ mid.map Field.name ∨ k = b.name) results r') :
    SameData pre mid post b cls (dropDiscarded d results) (dropDiscarded d' r') (dropDiscarded inner ri) := by
  obtain ⟨a1, a2, a3, a4, a5, a6⟩ := hg.apart
  have off : ∀ {l : List Field} {k : String}, (∀ f ∈ l, f.name ≠ k) → k ∉ l.map Field.name := by
    intro l k h hx
    obtain ⟨f, hf, he⟩ := List.mem_map.1 hx
    exact h f hf he
  refine ⟨?_, ?_, ?_⟩
  · intro g hgm
    have hd : g ∈ d.components := by rw [hg.flat]; rcases List.mem_append.1 hgm with h | h <;> simp [h]
    have hd' : g ∈ d'.components := by rw [hg.grouped]; rcases List.mem_append.1 hgm with h | h <;> simp [h]
    rw [dropDiscarded_get hg.unique _ hd, dropDiscarded_get hg.unique' _ hd']
    split
    · rfl
    · rcases List.mem_append.1 hgm with h | h
      · have hp : g.name ∉ post.map Field.name := off fun f hf he => a2 g h f hf he.symm
        rw [h4 _ hp, h1 _ hp, h2 _ (off fun f hf he => a1 g h f hf he.symm), if_neg (fun he => a4 g h he.symm)]
      · exact (h5 g.name (by rintro (hx | hx); exacts [off (fun f hf he => a3 f hf g h he) hx, a5 g h hx])).symm
  · intro g hgm
    have hd : g ∈ d.components := by rw [hg.flat]; simp [hgm]
    rw [dropDiscarded_get hg.unique _ hd, dropDiscarded_get a6 _ (by rw [hg.fields]; exact hgm)]
    split
    · rfl
    · rw [h1 _ (off fun f hf he => a3 g hgm f hf he.symm), h3 _ (off fun f hf he => a1 f hf g hgm he)]
  · have := dropDiscarded_get hg.unique' r' (f := .nested b cls) (by rw [hg.grouped]; simp)
    rw [show (Field.nested b cls).name = b.name from rfl, show (Field.nested b cls).base = b from rfl, hnd] at this
    rw [this, h4 _ (off a5)]
    simp

theorem parts_append {Γ : Classes} {n : Nat} {ctx : Value} {all : Dict} {gs hs : List Field} {ps : List Bytes} :
    Parts Γ n ctx all (gs ++ hs) ps ↔ ∃ xs ys, ps = xs ++ ys ∧ Parts Γ n ctx all gs xs ∧ Parts Γ n ctx all hs ys := by
  constructor
  · intro h
    induction gs generalizing ps with
    | nil => exact ⟨[], ps, rfl, .nil, h⟩
    | cons g gs ih =>
      cases h with
      | cons h1 h2 =>
        obtain ⟨xs, ys, rfl, h3, h4⟩ := ih h2
        exact ⟨_ :: xs, ys, rfl, .cons h1 h3, h4⟩
  · rintro ⟨xs, ys, rfl, h1, h2⟩
    induction h1 with
    | nil => exact h2
    | cons h3 _ ih => exact .cons h3 ih

theorem Parts_runs {S : String → Prop} {Γ : Classes} {n : Nat} {ctx : Value} {a a' : Dict} {fs : List Field} {ps : List Bytes}
    (hu : ∀ f ∈ fs, Unaware S f) (ha : AgreeOff S a a') (hp : Parts Γ n ctx a' fs ps) : Parts Γ n ctx a fs ps := by
  induction hp with
  | nil => exact .nil
  | cons h _ ih => exact .cons (Part_runs (hu _ List.mem_cons_self) ha h) (ih fun f hf => hu f (List.mem_cons_of_mem _ hf))

theorem structGetItem_unknown {d : StructDesc} {vals : Dict} {k : String} (h : k ∉ names d) : structGetItem d vals k = .error (.keyErr k) := by
  simp only [structGetItem, structGet]
  cases hf : d.find? k with
  | none => rfl
  | some g => obtain ⟨h2, rfl⟩ := find?_some hf; exact absurd (List.mem_map.2 ⟨g, h2, rfl⟩) h

/-- Two instances in which the fields outside `S` are all set, to the same values, look the same outside `S`. -/
theorem stored_twoRuns {S : String → Prop} {d e : StructDesc} {vals vals' : Dict} (hd : UniqueNames d) (he : UniqueNames e) (hi : Instance d vals)
    (hi' : Instance e vals') (hf : SameFieldsOff S d e) (hs : Separated S d)
    (hset : ∀ g ∈ d.components, ¬ S g.name → Dict.get? vals g.name ≠ none ∧ Dict.get? vals' g.name = Dict.get? vals g.name) :
    TwoRuns S d e vals vals' := by
  have hag : AgreeOff S vals vals' := by
    refine get?_eq_of_names hf hi.2 hi'.2 fun g hg _ hS => (hset g hg hS).2.symm
  refine ⟨hd, he, hi, hi', hf, hs, hag, fun k hk => ⟨structContains_agree hi.1 hi'.1 hag hk, ?_⟩⟩
  simp only [structView]
  by_cases hm : k ∈ names d
  · obtain ⟨g, hg, rfl⟩ := mem_names hm
    obtain ⟨h1, h2⟩ := hset g hg hk
    cases hv : Dict.get? vals g.name with
    | none => exact absurd hv h1
    | some v =>
      rw [structGetItem_some hm hv, structGetItem_some (List.mem_map.2 ⟨g, (hf g hk).1 hg, rfl⟩) (by rw [h2, hv])]
  · have hm' : k ∉ names e := by
      intro hx
      obtain ⟨g, hg, rfl⟩ := mem_names hx
      exact hm (List.mem_map.2 ⟨g, (hf g hk).2 hg, rfl⟩)
    rw [structGetItem_unknown hm, structGetItem_unknown hm']

/-- The nested struct against the flat one. -/
theorem grouped_inner_runs {Γ : Classes} {d d' inner : StructDesc} {pre mid post : List Field} {b : FieldBase} {cls : String}
    (hg : Grouped Γ d d' inner pre mid post b cls) {vals vals' iv : Dict} (hs : SameData pre mid post b cls vals vals' iv)
    (hu : ∀ g ∈ mid, Unaware (· ∈ (pre ++ post).map Field.name) g) (hi : Instance d vals) (hii : Instance inner iv)
    (hset : ∀ g ∈ d.components, Dict.get? vals g.name ≠ none) :
    TwoRuns (· ∈ (pre ++ post).map Field.name) inner d iv vals := by
  obtain ⟨a1, a2, a3, a4, a5, a6⟩ := hg.apart
  refine stored_twoRuns a6 hg.unique hii hi ?_ ?_ ?_
  · intro f hf
    rw [hg.fields, hg.flat]
    constructor
    · intro h; simp [h]
    · intro h
      rw [List.mem_append, List.mem_append] at h
      rcases h with (h | h) | h
      · exact absurd (List.mem_map.2 ⟨f, List.mem_append_left _ h, rfl⟩) hf
      · exact h
      · exact absurd (List.mem_map.2 ⟨f, List.mem_append_right _ h, rfl⟩) hf
  · intro f hf
    rw [hg.fields] at hf
    exact Or.inr (hu f hf)
  · intro g hgm _
    rw [hg.fields] at hgm
    rw [hs.inside g hgm]
    exact ⟨hset g (by rw [hg.flat]; simp [hgm]), rfl⟩

/-- The class with the nested struct against the flat one. -/
theorem grouped_outer_runs {Γ : Classes} {d d' inner : StructDesc} {pre mid post : List Field} {b : FieldBase} {cls : String}
    (hg : Grouped Γ d d' inner pre mid post b cls) {vals vals' iv : Dict} (hs : SameData pre mid post b cls vals vals' iv)
    (hu : ∀ g ∈ pre ++ post, Unaware (fun k => k ∈ mid.map Field.name ∨ k = b.name) g) (hi : Instance d vals) (hi' : Instance d' vals')
    (hset : ∀ g ∈ d.components, Dict.get? vals g.name ≠ none) :
    TwoRuns (fun k => k ∈ mid.map Field.name ∨ k = b.name) d' d vals' vals := by
  have hmem : ∀ f : Field, ¬ (f.name ∈ mid.map Field.name ∨ f.name = b.name) → (f ∈ d'.components ↔ f ∈ pre ++ post) := by
    intro f hf
    rw [hg.grouped, List.mem_append, List.mem_cons, List.mem_append]
    have : f ≠ .nested b cls := by rintro rfl; exact hf (Or.inr rfl)
    simp [this]
  refine stored_twoRuns hg.unique' hg.unique hi' hi ?_ ?_ ?_
  · intro f hf
    rw [hmem f hf, hg.flat, List.mem_append, List.mem_append, List.mem_append]
    have : f ∉ mid := fun h => hf (Or.inl (List.mem_map.2 ⟨f, h, rfl⟩))
    simp [this]
  · intro f hf
    by_cases hS : f.name ∈ mid.map Field.name ∨ f.name = b.name
    · exact Or.inl hS
    · exact Or.inr (hu f ((hmem f hS).1 hf))
  · intro g hgm hS
    have hgm := (hmem g hS).1 hgm
    rw [hs.outer g hgm]
    exact ⟨hset g (by rw [hg.flat]; rcases List.mem_append.1 hgm with h | h <;> simp [h]), rfl⟩

/-- The flat class against the one with the nested struct. -/
theorem grouped_flat_runs {Γ : Classes} {d d' inner : StructDesc} {pre mid post : List Field} {b : FieldBase} {cls : String}
    (hg : Grouped Γ d d' inner pre mid post b cls) {vals vals' iv : Dict} (hs : SameData pre mid post b cls vals vals' iv)
    (hu : ∀ g ∈ pre ++ post, Unaware (fun k => k ∈ mid.map Field.name ∨ k = b.name) g) (hi : Instance d vals) (hi' : Instance d' vals')
    (hset : ∀ g ∈ d.components, Dict.get? vals g.name ≠ none) :
    TwoRuns (fun k => k ∈ mid.map Field.name ∨ k = b.name) d d' vals vals' := by
  have h := grouped_outer_runs hg hs hu hi hi' hset
  refine ⟨h.unique', h.unique, h.inst', h.inst, fun f hf => (h.fields f hf).symm, ?_, fun k hk => (h.agree k hk).symm,
    fun k hk => ⟨(h.views k hk).1.symm, (h.views k hk).2.symm⟩⟩
  intro f hf
  by_cases hS : f.name ∈ mid.map Field.name ∨ f.name = b.name
  · exact Or.inl hS
  · exact Or.inr ((h.separated f ((h.fields f hS).2 hf)).resolve_left hS)

end Verif
