import Verif.Proofs.Runs
import Verif.Props.Frame

/-!
# Base classes and subclasses on the wire

C72.
-/

namespace Verif
open Spec

/-- **C72** In every program, a class declared with a base extends it: it has the fields of the base, then its own, and runs all
validators of the base; and so does a class declared with annotations. -/
theorem C72_extends (Γ : Classes) (hΓ : Program Γ) (n : Nat) (decl : ClassDecl) (b d : StructDesc) (base : String)
    (hb : decl.bases = [base]) (hbase : Γ base = some b) (h : fromClass Γ n decl = .ok d) :
    (∃ own, Extends b d own) ∧
    ∀ m hints d', pep526Dataclass Γ m d hints = .ok d' → ∃ own, Extends b d' own := by
  have hmain : ∃ own, Extends b d own := by
    rcases fromClass_ok h with ⟨h1, _⟩ | ⟨base', b', size, h1, h2, _, h3⟩
    · rw [hb] at h1; simp at h1
    · rw [hb] at h1
      cases h1
      rw [hbase] at h2
      cases h2
      obtain ⟨-, -, -, h4, -, own, h5, -⟩ := fromClassWith_ok h3
      exact ⟨own, h5, (fromClassWith_validators h3 (program_validatorsNamed hΓ hbase)).2, fun m hm => by rw [h4]; simp [hm]⟩
  refine ⟨hmain, fun m hints d' h' => ?_⟩
  obtain ⟨own, h1⟩ := hmain
  obtain ⟨own', h2⟩ := pep526_extends h'
  exact ⟨own ++ own', h1.trans h2⟩

/-- **C72** Whatever a class derived from `b` can be loaded from, `b` can be loaded from: each field of `b` gets the value it has in the
instance of the derived class, and the load ends where the first field of the derived class's own begins. -/
theorem C72_load_base (Γ : Classes) (n : Nat) (b d : StructDesc) (own : List Field) (s s' : Stream) (ctx : Value) (vals : Dict)
    (he : Extends b d own) (hd : UniqueNames d) (hn : ∀ p ∈ b.fieldValidators, p.1 ∈ names b) (hl : LocalValidators b)
    (h : structFromStream Γ (n + 1) d s ctx [] = (.ok vals, s')) :
    ∃ r t seen results, structFromStream Γ (n + 1) b s ctx [] = (.ok r, t) ∧
      (∀ k ∈ names b, Dict.get? r k = Dict.get? vals k) ∧ (∀ k ∈ Dict.keys r, k ∈ names b) ∧
      (∀ k v, Dict.get? r k = some v → Dict.get? seen k = some v) ∧ Loads Γ n ctx own seen t results s' := by
  obtain ⟨results, h1, h2, h3, rfl⟩ := structFromStream_ok_iff.1 h
  rw [he.components] at h1
  obtain ⟨m, t, h4, h5⟩ := Loads.append.1 h1
  have hkeys : ∀ k, k ∈ Dict.keys m ↔ k ∈ names b := by
    intro k; rw [h4.keys k]; simp [Dict.keys, Spec.names]
  have hmn : (Dict.keys m).Nodup := h4.nodup (by simp [Dict.keys])
  have hrn : (Dict.keys results).Nodup := h1.nodup (by simp [Dict.keys])
  have hget : ∀ k ∈ names b, Dict.get? m k = Dict.get? results k := by
    intro k hk
    cases hm : Dict.get? m k with
    | none => exact absurd ((hkeys k).2 hk) ((Dict.get?_none_iff m k).1 hm)
    | some v => rw [h5.mono_get hm]
  have hsub : ∀ k ∈ names b, k ∈ names d := fun k hk => by rw [he.names]; exact List.mem_append_left _ hk
  have hstored : ∀ k ∈ names b, ∃ v, Dict.get? m k = some v := by
    intro k hk
    cases hm : Dict.get? m k with
    | none => exact absurd ((hkeys k).2 hk) ((Dict.get?_none_iff m k).1 hm)
    | some v => exact ⟨v, rfl⟩
  have hviews : ViewsAgreeOff (· ∉ names b) (structView b m) (structView d results) := by
    intro k hk
    have hk' : k ∈ names b := Classical.not_not.1 hk
    obtain ⟨v, hv⟩ := hstored k hk'
    refine ⟨?_, ?_⟩
    · simp only [structView]
      rw [Bool.eq_iff_iff, structContains_iff hmn, structContains_iff hrn, hget k hk']
    · simp only [structView]
      rw [structGetItem_stored hk' hv, structGetItem_stored (hsub k hk') (by rw [← hget k hk']; exact hv)]
  have hub := he.unique hd
  have hvalid : Valid b m := by
    refine ⟨fun p hp => ?_, fun x hx => ?_⟩
    · obtain ⟨q, hq, hqn, hqm⟩ := he.validators p hp
      obtain ⟨f, v, a1, a2, a3, a4⟩ := h3.1 q hq
      have hpn := hn p hp
      obtain ⟨g, hg, hgn⟩ := mem_names hpn
      have hfg : d.find? q.1 = some g := by
        rw [hqn, ← hgn]; exact find?_of_mem hd (by rw [he.components]; simp [hg])
      rw [a1] at hfg; cases hfg
      obtain ⟨w, hw⟩ := hstored p.1 hpn
      have e1 := structGetItem_stored hpn hw
      have e2 := structGetItem_stored (hsub _ hpn) (by rw [← hget _ hpn]; exact hw)
      rw [hqn, e2] at a2; cases a2
      refine ⟨f, _, by rw [← hgn]; exact find?_of_mem hub hg, e1, a3, fun x hx => ?_⟩
      rw [hl.1 p hp x hx _ _ _ hviews]
      exact a4 x (hqm x hx)
    · rw [hl.2 x hx _ _ hviews]
      exact h3.2 x (he.structValidators x hx)
  refine ⟨dropDiscarded b m, t, m, results, structFromStream_ok_iff.2 ⟨m, h4, fun k hk => (hkeys k).1 hk, hvalid, rfl⟩, ?_, ?_, ?_, h5⟩
  · intro k hk
    obtain ⟨f, hf, rfl⟩ := mem_names hk
    rw [dropDiscarded_get hub m hf, dropDiscarded_get hd results (by rw [he.components]; simp [hf]), hget _ hk]
  · intro k hk
    exact (hkeys k).1 (dropDiscarded_keys hk)
  · intro k v hk
    obtain ⟨f, hf, rfl⟩ := mem_names ((hkeys k).1 (dropDiscarded_keys (Dict.keys_of_some hk)))
    rw [dropDiscarded_get hub m hf] at hk
    split at hk
    · simp at hk
    · exact hk

/-- **C72** The dump of an instance of a class derived from `b` begins with the dump of the instance of `b` that has the same values, provided
the fields of `b` do not look at fields of the derived class, and their `present` and compute functions read stored fields only. -/
theorem C72_dump_base (Γ : Classes) (n : Nat) (b d : StructDesc) (own : List Field) (vals valsb : Dict) (ctx : Value) (bs bsb : Bytes)
    (he : Extends b d own) (hd : UniqueNames d) (hi : Instance d vals) (hib : Instance b valsb)
    (hsame : ∀ k ∈ names b, Dict.get? valsb k = Dict.get? vals k)
    (hu : ∀ f ∈ b.components, Unaware (· ∈ own.map Field.name) f)
    (hc : ∀ f ∈ b.components, CallsUnaware (fun k => k ∉ names b ∨ Dict.get? vals k = none) f.base)
    (h : structToStream Γ (n + 1) d vals ctx = (bs, .ok ())) (hb : structToStream Γ (n + 1) b valsb ctx = (bsb, .ok ())) :
    ∃ rest, bs = bsb ++ rest := by
  obtain ⟨-, all, h1, ps, h2, rfl⟩ := structToStream_ok_iff.1 h
  obtain ⟨-, allb, h3, psb, h4, rfl⟩ := structToStream_ok_iff.1 hb
  have ha := structToDict_agree (he.twoRuns hd hi hib hsame hu hc) h3 h1
  rw [he.components] at h2
  clear h h1 h3 hb
  suffices key : ∀ (fs : List Field) (xs ys : List Bytes), (∀ f ∈ fs, Unaware (· ∈ own.map Field.name) f) →
      Parts Γ n ctx allb fs xs → Parts Γ n ctx all (fs ++ own) ys → ∃ rest, ys.flatten = xs.flatten ++ rest from
    key b.components psb ps hu h4 h2
  intro fs xs ys hf hx hy
  induction hx generalizing ys with
  | nil => exact ⟨ys.flatten, by simp⟩
  | @cons f fs p xs h5 h6 ih =>
    cases hy with
    | cons h7 h8 =>
      obtain ⟨rest, h9⟩ := ih _ (fun g hg => hf g (by simp [hg])) h8
      rw [Part_agree (hf f (by simp)) ha h5 h7]
      exact ⟨rest, by simp [h9]⟩

/-- **C72** If, besides, the validators of `b` only look at fields of `b`: whenever the instance of the derived class can be dumped, the instance
of `b` with the same values can be, and its dump is the beginning of the other one. -/
theorem C72_base_dumps (Γ : Classes) (n : Nat) (b d : StructDesc) (own : List Field) (vals valsb : Dict) (ctx : Value) (bs : Bytes)
    (he : Extends b d own) (hd : UniqueNames d) (hi : Instance d vals) (hib : Instance b valsb)
    (hsame : ∀ k ∈ names b, Dict.get? valsb k = Dict.get? vals k)
    (hu : ∀ f ∈ b.components, Unaware (· ∈ own.map Field.name) f)
    (hc : ∀ f ∈ b.components, CallsUnaware (fun k => k ∉ names b ∨ Dict.get? vals k = none) f.base)
    (hn : ∀ p ∈ b.fieldValidators, p.1 ∈ names b) (hl : LocalValidators b)
    (h : structToStream Γ (n + 1) d vals ctx = (bs, .ok ())) :
    ∃ bsb rest, structToStream Γ (n + 1) b valsb ctx = (bsb, .ok ()) ∧ bs = bsb ++ rest := by
  have htr := he.twoRuns hd hi hib hsame hu hc
  have hS : ∀ f ∈ b.components, ¬ f.name ∈ own.map Field.name := by
    intro f hf hx
    have hd' := hd
    unfold UniqueNames at hd'
    rw [he.names] at hd'
    exact (List.nodup_append.1 hd').2.2 f.name (List.mem_map.2 ⟨f, hf, rfl⟩) f.name hx rfl
  have hsub : ∀ k ∈ names b, k ∈ names d := fun k hk => by rw [he.names]; exact List.mem_append_left _ hk
  have hub := he.unique hd
  obtain ⟨hv, all, h1, ps, h2, hbs⟩ := structToStream_ok_iff.1 h
  obtain ⟨allb, h3⟩ := structToDict_runs htr hS h1
  have ha := structToDict_agree htr h3 h1
  have hviews : ViewsAgreeOff (· ∉ names b) (structView b valsb) (structView d vals) := by
    intro k hk
    obtain ⟨f, hf, rfl⟩ := mem_names (Classical.not_not.1 hk)
    exact htr.views f.name (hS f hf)
  have hvalid : Valid b valsb := by
    refine ⟨fun p hp => ?_, fun x hx => ?_⟩
    · obtain ⟨q, hq, hqn, hqm⟩ := he.validators p hp
      obtain ⟨f, v, a1, a2, a3, a4⟩ := hv.1 q hq
      have hpn := hn p hp
      obtain ⟨g, hg, hgn⟩ := mem_names hpn
      have hfg : d.find? q.1 = some g := by
        rw [hqn, ← hgn]; exact find?_of_mem hd (by rw [he.components]; simp [hg])
      rw [a1] at hfg; cases hfg
      have e1 : structGetItem b valsb p.1 = .ok v := by
        have := (hviews p.1 (fun hx => hx hpn)).2
        rw [hqn] at a2
        exact this.trans a2
      refine ⟨f, v, by rw [← hgn]; exact find?_of_mem hub hg, e1, a3, fun x hx => ?_⟩
      rw [hl.1 p hp x hx _ _ _ hviews]
      exact a4 x (hqm x hx)
    · rw [hl.2 x hx _ _ hviews]
      exact hv.2 x (he.structValidators x hx)
  have hparts : ∃ psb, Parts Γ n ctx allb b.components psb := by
    rw [he.components] at h2
    clear hbs h1 h3 h hv hvalid
    suffices key : ∀ (fs : List Field) (ys : List Bytes), (∀ f ∈ fs, Unaware (· ∈ own.map Field.name) f) →
        Parts Γ n ctx all (fs ++ own) ys → ∃ xs, Parts Γ n ctx allb fs xs from key b.components ps hu h2
    intro fs
    induction fs with
    | nil => intro _ _ _; exact ⟨[], .nil⟩
    | cons f fs ih =>
      intro ys hf hy
      cases hy with
      | cons h7 h8 =>
        obtain ⟨xs, hx⟩ := ih _ (fun g hg => hf g (by simp [hg])) h8
        exact ⟨_, .cons (Part_runs (hf f (by simp)) ha h7) hx⟩
  obtain ⟨psb, h4⟩ := hparts
  have hdump := structToStream_ok_iff.2 ⟨hvalid, allb, h3, psb, h4, rfl⟩
  obtain ⟨rest, hrest⟩ := C72_dump_base Γ n b d own vals valsb ctx bs _ he hd hi hib hsame hu hc h hdump
  exact ⟨_, rest, hdump, hrest⟩

/-! ### Examples: `Point` and `Point3(Point)` -/

theorem Sample.point_program : Program (Classes.add (fun _ => none) Sample.point) :=
  .declare (decl := Sample.pointDecl) (n := 3) .empty rfl rfl

theorem Sample.point3_extends : ∃ d own, fromClass (Classes.add (fun _ => none) Sample.point) 3 Sample.point3Decl = .ok d ∧
    Extends Sample.point d own ∧ own.map Field.name = ["z"] ∧ UniqueNames d := by
  obtain ⟨own, h⟩ := (C72_extends _ Sample.point_program 3 Sample.point3Decl Sample.point _ "Point" rfl rfl rfl).1
  refine ⟨_, own, rfl, h, ?_, by unfold UniqueNames; decide⟩
  have h1 := congrArg (List.map Field.name) h.components
  rw [List.map_append] at h1
  exact (List.append_cancel_left (show (["x", "y"] ++ ["z"] : List String) = ["x", "y"] ++ _ from h1)).symm

-- what a `Point3` was loaded from, a `Point` can be loaded from
example (n : Nat) (d : StructDesc) (s s' : Stream) (vals : Dict)
    (h : fromClass (Classes.add (fun _ => none) Sample.point) 3 Sample.point3Decl = .ok d)
    (hl : structFromStream Sample.noClasses (n + 1) d s .none [] = (.ok vals, s')) :
    ∃ r t, structFromStream Sample.noClasses (n + 1) Sample.point s .none [] = (.ok r, t) ∧
      Dict.get? r "x" = Dict.get? vals "x" ∧ Dict.get? r "y" = Dict.get? vals "y" ∧ Dict.get? r "z" = none := by
  obtain ⟨d', own, h1, h2, h3, h4⟩ := Sample.point3_extends
  rw [h] at h1; cases h1
  obtain ⟨r, t, -, -, h5, h6, h7, -, -⟩ := C72_load_base Sample.noClasses n Sample.point d own s s' .none vals h2 h4 (by decide)
    ⟨fun p hp m hm => by simp [Sample.point] at hp; rcases hp with rfl | rfl <;> simp at hm, fun m hm => by simp [Sample.point] at hm⟩ hl
  exact ⟨r, t, h5, h6 "x" (by decide), h6 "y" (by decide), (Dict.get?_none_iff _ _).2 fun hx => absurd (h7 _ hx) (by decide)⟩

-- and its dump begins with that of a `Point`
example (n : Nat) (d : StructDesc) (x y z : Int) (bs bsb : Bytes)
    (h : fromClass (Classes.add (fun _ => none) Sample.point) 3 Sample.point3Decl = .ok d)
    (h1 : structToStream Sample.noClasses (n + 1) d [("x", .int x), ("y", .int y), ("z", .int z)] .none = (bs, .ok ()))
    (h2 : structToStream Sample.noClasses (n + 1) Sample.point [("x", .int x), ("y", .int y)] .none = (bsb, .ok ())) :
    ∃ rest, bs = bsb ++ rest := by
  obtain ⟨d', own, h3, h4, h5, h6⟩ := Sample.point3_extends
  rw [h] at h3; cases h3
  have hf : ∀ f ∈ Sample.point.components, (∃ b k, f = .leaf b k ∧ (∀ ops, k ≠ .custom ops)) ∧ f.name ≠ "z" ∧ (∀ r, f.base.size ≠ .ref r) ∧
      f.base.present = (fun _ _ _ => .ok true) ∧ f.base.computeFn = none := by
    intro f hf
    simp only [Sample.point, List.mem_cons, List.not_mem_nil, or_false] at hf
    rcases hf with rfl | rfl
    · exact ⟨⟨_, _, rfl, by intro ops h; cases h⟩, by decide, (by intro r h; cases h), rfl, rfl⟩
    · exact ⟨⟨_, _, rfl, by intro ops h; cases h⟩, by decide, (by intro r h; cases h), rfl, rfl⟩
  refine C72_dump_base Sample.noClasses n Sample.point d own [("x", .int x), ("y", .int y), ("z", .int z)]
    [("x", .int x), ("y", .int y)] .none bs bsb h4 h6 ?_ ?_ ?_ ?_ ?_ h1 h2
  · unfold Instance; rw [h4.names, h5]; simp [Dict.keys]; decide
  · unfold Instance; simp [Dict.keys]; decide
  · intro k hk
    have : k = "x" ∨ k = "y" := by simpa [Spec.names, Sample.point, Sample.upd, Sample.i16, Field.name, Field.base, Field.withBase] using hk
    rcases this with rfl | rfl <;> rfl
  · intro f hff
    obtain ⟨⟨b, k, rfl, hk⟩, hn, hs, hp, hc⟩ := hf f hff
    rw [h5]
    exact .leaf (.plain (by simpa [Field.name, Field.base] using hn) (fun r hr => absurd hr (hs r)) hp hc) (fun ops hx => absurd hx (hk ops))
  · intro f hff
    obtain ⟨-, -, -, hp, hc⟩ := hf f hff
    exact ⟨fun _ _ _ _ _ => by rw [hp], fun fn hx => by rw [hc] at hx; cases hx⟩

-- the `Point` can be dumped, then
example (n : Nat) (d : StructDesc) (x y z : Int) (bs : Bytes)
    (h : fromClass (Classes.add (fun _ => none) Sample.point) 3 Sample.point3Decl = .ok d)
    (h1 : structToStream Sample.noClasses (n + 1) d [("x", .int x), ("y", .int y), ("z", .int z)] .none = (bs, .ok ())) :
    ∃ bsb rest, structToStream Sample.noClasses (n + 1) Sample.point [("x", .int x), ("y", .int y)] .none = (bsb, .ok ()) ∧ bs = bsb ++ rest := by
  obtain ⟨d', own, h3, h4, h5, h6⟩ := Sample.point3_extends
  rw [h] at h3; cases h3
  have hf : ∀ f ∈ Sample.point.components, (∃ b k, f = .leaf b k ∧ (∀ ops, k ≠ .custom ops)) ∧ f.name ≠ "z" ∧ (∀ r, f.base.size ≠ .ref r) ∧
      f.base.present = (fun _ _ _ => .ok true) ∧ f.base.computeFn = none := by
    intro f hf
    simp only [Sample.point, List.mem_cons, List.not_mem_nil, or_false] at hf
    rcases hf with rfl | rfl
    · exact ⟨⟨_, _, rfl, by intro ops h; cases h⟩, by decide, (by intro r h; cases h), rfl, rfl⟩
    · exact ⟨⟨_, _, rfl, by intro ops h; cases h⟩, by decide, (by intro r h; cases h), rfl, rfl⟩
  refine C72_base_dumps Sample.noClasses n Sample.point d own [("x", .int x), ("y", .int y), ("z", .int z)]
    [("x", .int x), ("y", .int y)] .none bs h4 h6 ?_ ?_ ?_ ?_ ?_ (by decide)
    ⟨fun p hp m hm => by simp [Sample.point] at hp; rcases hp with rfl | rfl <;> simp at hm, fun m hm => by simp [Sample.point] at hm⟩ h1
  · unfold Instance; rw [h4.names, h5]; simp [Dict.keys]; decide
  · unfold Instance; simp [Dict.keys]; decide
  · intro k hk
    have : k = "x" ∨ k = "y" := by simpa [Spec.names, Sample.point, Sample.upd, Sample.i16, Field.name, Field.base, Field.withBase] using hk
    rcases this with rfl | rfl <;> rfl
  · intro f hff
    obtain ⟨⟨b, k, rfl, hk⟩, hn, hs, hp, hc⟩ := hf f hff
    rw [h5]
    exact .leaf (.plain (by simpa [Field.name, Field.base] using hn) (fun r hr => absurd hr (hs r)) hp hc) (fun ops hx => absurd hx (hk ops))
  · intro f hff
    obtain ⟨-, -, -, hp, hc⟩ := hf f hff
    exact ⟨fun _ _ _ _ _ => by rw [hp], fun fn hx => by rw [hc] at hx; cases hx⟩

end Verif
