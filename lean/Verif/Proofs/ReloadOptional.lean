import Verif.Proofs.Reload

/-! Helper lemmas: what was loaded from a dump equals what was dumped, for classes with optional fields. -/

namespace Verif
open Spec

/-- What is loaded is determined by what was dumped, so two facts about it hold together. -/
theorem Restores.and {Γ : Classes} {ctx : Value} {earlier : List String} {all : Dict} {f : Field} {w : Value} {P Q : Bytes → Value → Prop}
    (h1 : Restores Γ ctx earlier all f w P) (h2 : Restores Γ ctx earlier all f w Q) : Restores Γ ctx earlier all f w (fun p v => P p v ∧ Q p v) := by
  intro n bs hto loaded hc
  obtain ⟨m1, v1, s1, p1, l1, k1⟩ := h1 n bs hto loaded hc
  obtain ⟨m2, v2, s2, p2, l2, k2⟩ := h2 n bs hto loaded hc
  have e1 := fieldFromStream_of_le (Nat.le_max_left m1 m2) (l1 [] [])
  have e2 := fieldFromStream_of_le (Nat.le_max_right m1 m2) (l2 [] [])
  rw [e1] at e2
  have : v1 = v2 := by simpa using e2
  subst this
  exact ⟨m1, v1, s1, ⟨p1, p2⟩, l1, k1⟩

theorem Landed.mono {P Q : Field → Value → Bytes → Value → Prop} {all r : Dict} {ctx : Value} {fs : List Field} {ps : List Bytes}
    (h : Landed P all ctx r fs ps) (hpq : ∀ f w p v, P f w p v → Q f w p v) : Landed Q all ctx r fs ps := by
  induction h with
  | nil => exact .nil
  | skipped h1 h2 _ ih => exact .skipped h1 h2 ih
  | dumped h1 h2 h3 h4 _ ih => exact .dumped h1 h2 h3 (hpq _ _ _ _ h4) ih

/-- A struct that was loaded has the same `to_dict`. -/
theorem optional_to_dict {Γ : Classes} (hΓ : ∀ c d, Γ c = some d → OptionalSchema Γ d) {ctx : Value} {n : Nat} {d : StructDesc}
    {vals all r : Dict} {ps : List Bytes} (hd : OptionalSchema Γ d) (hh : Bears Γ d vals) (h : structToDict Γ n d vals = .ok all)
    (hval : Valid d vals) (hk : Dict.keys r = names d)
    (hl : Landed (fun f w p v => Resaves Γ ctx d.components all f p v ∧ (f.base.discard = false → ConvertsTo Γ v w)) all ctx r d.components ps) :
    ∃ m all', structToDict Γ m d (dropDiscarded d r) = .ok all' ∧ Matches (.dict all') (.dict all) ∧ DistinctKeys (.dict all') ∧
      (∀ f ∈ d.components, f.base.discard = false →
        ∃ v w, Dict.get? (dropDiscarded d r) f.name = some v ∧ Dict.get? all' f.name = some w ∧ v ≠ .undefined ∧ recursiveToDicts Γ m v = .ok w) := by
  obtain ⟨m, inner, h1, -, -, -, h2, h3, h4⟩ := struct_resaves hΓ hd hh h hval hk (hl.mono fun _ _ _ _ hx => hx.1)
  obtain ⟨-, hall, hallget⟩ := structToDict_get hd.unique hh.inst h
  have hallgone : ∀ f ∈ d.components, f.base.discard = true → Dict.get? all f.name = none := by
    intro f hf hkf
    rcases hallget f hf with ⟨-, -, h5⟩ | ⟨h5, -⟩
    · exact h5
    · rw [hkf] at h5; simp at h5
  have hkept : ∀ f ∈ d.components, f.base.discard = false → ∃ v x y, Dict.get? (dropDiscarded d r) f.name = some v ∧
      Dict.get? inner f.name = some x ∧ Dict.get? all f.name = some y ∧ Matches x y ∧ DistinctKeys x ∧ v ≠ .undefined ∧ recursiveToDicts Γ m v = .ok x := by
    intro f hf hkf
    obtain ⟨v, x, h5, h6, h7⟩ := h4 f hf hkf
    have h5' := h5
    rw [dropDiscarded_get hd.unique r hf, hkf] at h5
    simp only [Bool.false_eq_true, if_false] at h5
    obtain ⟨pre, post, hpre, hof⟩ := hd.field hf
    obtain ⟨y, hy, -, hy'⟩ := toDict_cases hΓ hd hh h hf hkf
    obtain ⟨es, e1, -, e3⟩ := hl.entries
    have hf' := hf
    rw [← e1] at hf'
    obtain ⟨e, he, rfl⟩ := List.mem_map.1 hf'
    rcases e3 e he with ⟨h8, h9, -⟩ | ⟨w, v', h8, h9, h10, h11, h12⟩
    · have h13 := ((optional_facts hΓ hd hh h hpre).1 h8).1
      rw [hof.omitted, h5] at h9
      simp only [Option.some.injEq] at h9
      subst h9
      have hx : x = .notPresent := (recursiveToDicts_spec h7).2 (by constructor)
      subst hx
      rcases hy' with ⟨rfl, -⟩ | ⟨-, -, h14⟩
      · exact ⟨_, _, _, h5', h6, hy, .self rfl, .other (by simp) (by simp), by simp, h7⟩
      · exact absurd h13 h14
    · rw [h5] at h9
      simp only [Option.some.injEq] at h9
      subst h9
      obtain ⟨m', w', c1, c2, c3⟩ := h12 hkf
      have := recursiveToDicts_det h7 c1
      subst this
      have := chosen_all h8.1 hy
      subst this
      exact ⟨_, _, _, h5', h6, hy, c2, c3, h11.marks.2.1, h7⟩
  have hkey : ∀ k x, Dict.get? inner k = some x → ∃ f ∈ d.components, f.name = k ∧ f.base.discard = false := by
    intro k x hx
    obtain ⟨f, hf, rfl⟩ := List.mem_map.1 (h2.2 k (Dict.get?_some_key hx))
    refine ⟨f, hf, rfl, ?_⟩
    cases hkf : f.base.discard with
    | false => rfl
    | true => rw [h3 f hf hkf] at hx; simp at hx
  refine ⟨m, inner, h1, .dict (fun k => ?_) (fun k x y hx hy => ?_), .dict h2.1 fun p hp => ?_, fun f hf hkf => ?_⟩
  · constructor
    · intro hnone
      cases hw : Dict.get? all k with
      | none => rfl
      | some w =>
        obtain ⟨f, hf, rfl⟩ := List.mem_map.1 (hall k (Dict.get?_some_key hw))
        cases hkf : f.base.discard with
        | true => rw [hallgone f hf hkf] at hw; simp at hw
        | false =>
          obtain ⟨v, x, y, -, h5, -⟩ := hkept f hf hkf
          rw [hnone] at h5; simp at h5
    · intro hnone
      cases hw : Dict.get? inner k with
      | none => rfl
      | some w =>
        obtain ⟨f, hf, rfl, hkf⟩ := hkey k w hw
        obtain ⟨v, x, y, -, -, h5, -⟩ := hkept f hf hkf
        rw [hnone] at h5; simp at h5
  · obtain ⟨f, hf, rfl, hkf⟩ := hkey k x hx
    obtain ⟨v, x', y', -, h5, h6, h7, -⟩ := hkept f hf hkf
    rw [hx] at h5; rw [hy] at h6; cases h5; cases h6; exact h7
  · have hx := Dict.get?_of_mem h2.1 hp
    obtain ⟨f, hf, hn, hkf⟩ := hkey _ _ hx
    obtain ⟨v, x', y', -, h5, -, -, h7, -⟩ := hkept f hf hkf
    rw [hn, hx] at h5; cases h5; exact h7
  · obtain ⟨v, x, y, h5, h6, -, -, -, h7, h8⟩ := hkept f hf hkf
    exact ⟨v, x, h5, h6, h7, h8⟩

theorem Matches.congr {u a b : Dict} (h : Matches (.dict u) (.dict a)) (hab : ∀ k, Dict.get? a k = Dict.get? b k) : Matches (.dict u) (.dict b) := by
  obtain ⟨h1, h2⟩ := h
  constructor
  · cases h1 with
    | same => exact .dict (fun k => by rw [hab k]) (fun k x y hx hy => by rw [hab k, hy] at hx; cases hx; exact .same _)
    | dict q1 q2 => exact .dict (fun k => by rw [← hab k]; exact q1 k) (fun k x y hx hy => q2 k x y hx (by rw [hab k]; exact hy))
  · cases h2 with
    | scalar hx => simp [scalarEq] at hx
    | dict q1 q2 => exact .dict (fun k => by rw [← hab k]; exact q1 k) (fun k x y hx hy => q2 k x y hx (by rw [hab k]; exact hy))

theorem list_converts {Γ : Classes} {vs l : List Value} (hvs : vs.length = l.length)
    (hP : ∀ i (h : i < l.length) (h' : i < vs.length), ConvertsTo Γ vs[i] l[i]) : ConvertsTo Γ (.list vs) (.list l) := by
  have : ∀ e ∈ vs.zip l, ∃ q : Nat × Value, recursiveToDicts Γ q.1 e.1 = .ok q.2 ∧ Matches q.2 e.2 ∧ DistinctKeys q.2 := by
    intro e he
    obtain ⟨i, hi, rfl⟩ := List.mem_iff_getElem.1 he
    simp only [List.length_zip] at hi
    simp only [List.getElem_zip]
    obtain ⟨m, w', h⟩ := hP i (by omega) (by omega)
    exact ⟨(m, w'), h⟩
  obtain ⟨g, hg⟩ := exists_fun_of_mem this
  obtain ⟨M, hM⟩ := common_fuel (l := vs.zip l) (P := fun n e => recursiveToDicts Γ n e.1 = .ok (g e).2)
    (fun hle h => recursiveToDicts_of_le hle h) (fun e he => ⟨(g e).1, (hg e he).1⟩)
  have hzip : vs = (vs.zip l).map Prod.fst := by rw [List.map_fst_zip]; omega
  refine ⟨M + 1, .list ((vs.zip l).map fun e => (g e).2), ?_, .list (by simp; omega) (fun i x y hx hy => ?_), .list fun v hv => ?_⟩
  · simp only [recursiveToDicts]
    rw [show mapE (recursiveToDicts Γ M) vs = .ok ((vs.zip l).map fun e => (g e).2) from by
      conv => lhs; rw [hzip]
      exact mapE_zip (g := fun e => (g e).2) hM]
    rfl
  · rw [List.getElem?_map] at hx
    obtain ⟨e, he, rfl⟩ := Option.map_eq_some_iff.1 hx
    have h5 := (hg e (List.mem_of_getElem? he)).2.1
    obtain ⟨hi, rfl⟩ := List.getElem?_eq_some_iff.1 he
    obtain ⟨hi', rfl⟩ := List.getElem?_eq_some_iff.1 hy
    simpa using h5
  · obtain ⟨e, he, rfl⟩ := List.mem_map.1 hv
    exact (hg e he).2.2

theorem proper_converts_optional {Γ : Classes} (hΓ : ∀ c d, Γ c = some d → OptionalSchema Γ d) {ctx : Value} {earlier : List String} {all : Dict}
    {f : Field} {w : Value} (h : Proper Γ ctx earlier all f w) :
    ∀ {pre fs : List Field} {tags : Dict → Prop}, earlier = pre.map Field.name → (∀ g ∈ pre, g ∈ fs) → Layout earlier f → Grounded fs pre f →
      (f.base.nullValue = .undefined ∨ Nullable f) → Fitting Γ tags f w → NoStruct w → tags all →
      (∀ r, Solid fs pre r → ∃ k x, Dict.get? all r = some x ∧ Scalar k x) → Filled Γ tags f w →
      Restores Γ ctx earlier all f w (fun _ v => ConvertsTo Γ v w) := by
  induction h with
  | @null earlier all f h1 h2 h3 =>
    intro pre fs tags he hsub hl hg hn ht hns htags hc hfill
    exact null_restores h1 h2 h3 fun n bs hto => ⟨1, .none, rfl, .self rfl, .other (by simp) (by simp)⟩
  | @leaf earlier all b k w h1 h2 h3 h4 =>
    intro pre fs tags he hsub hl hg hn ht hns htags hc hfill
    obtain ⟨hne, -, hns, hnl, hnd⟩ := h2.scalar
    refine leaf_field_restores h1 h2 h3 h4 fun n bs hto => ?_
    cases ht with
    | null => exact absurd rfl hne
    | leaf t1 t2 => exact ⟨1, w, Atom.toDicts ⟨hns, hnl, hnd⟩ 0, .self (Scalar.self_eq t1), .other hnl hnd⟩
  | @array earlier all b comp count l h1 h2 h3 h4 _ ih =>
    intro pre fs tags he hsub hl hg hn ht hns htags hc hfill
    cases hl with
    | array l1 l2 l3 l4 l5 =>
    cases hg with
    | array g1 g2 =>
    cases ht with
    | array t1 =>
    cases hns with
    | list hns =>
    cases hfill with
    | array hfill =>
    refine array_restores (P := fun w _ v => ConvertsTo Γ v w) h1 h2 h3 h4
      (fun x hx => ih x hx he hsub l5 g2 (Or.inl l4.2) (t1 x hx) (hns x hx) htags hc (hfill x hx)) ?_
    intro n ps vs hto hps hvs hP
    exact list_converts hvs fun i h5 h6 => hP i h5 (by omega) (by omega)
  | @nested earlier all b cls d dct h1 h2 h3 h4 h5 h6 h7 hpr ih =>
    intro pre fs tags he hsub hl hg hn ht hns htags hc hfill
    cases ht with
    | @dict _ _ _ d' _ t1 t2 t3 t4 tdisc t5 =>
    rw [h3] at t1; cases t1
    cases hfill with
    | @dict _ _ _ d' _ c1 c2 c3 =>
    rw [h3] at c1; cases c1
    have hd := hΓ _ _ h3
    have hh : Bears Γ d dct := ⟨t2, t3, t5⟩
    refine nested_restores (P := fun inner f w p v => Resaves Γ ctx d.components inner f p v ∧ (f.base.discard = false → ConvertsTo Γ v w))
      h1 h2 h3 h4 h5 h6 h7 (fun k inner hk pre f post w hpre hdw => ?_) (fun k inner ps r hst hk hr hland => ?_)
    · have hf : f ∈ d.components := by rw [hpre]; simp
      have hof := hd.fields pre f post hpre
      obtain ⟨h8, h9, h10, h11, h11', h12⟩ := (optional_facts hΓ hd hh hk hpre).2 w hdw
      have hsub : ∀ g ∈ pre, g ∈ d.components := fun g hg => by rw [hpre]; simp [hg]
      refine Restores.and (proper_resaves hΓ (hpr k inner hk pre f post w hpre hdw) rfl hsub hof.layout hof.grounded hof.null h10 h11 h11' h12) ?_
      cases hkf : f.base.discard with
      | true =>
        intro n bs hto loaded hc
        obtain ⟨m, v, r1, -, r2⟩ := proper_resaves hΓ (hpr k inner hk pre f post w hpre hdw) rfl hsub hof.layout hof.grounded hof.null h10 h11 h11' h12
          n bs hto loaded hc
        exact ⟨m, v, r1, by simp, r2⟩
      | false =>
        have hfw : Filled Γ (SameTags d dct) f w := by
          obtain ⟨y, hy⟩ := Option.ne_none_iff_exists'.1 (c2 f hf hkf)
          have := chosen_all hdw.1 (passed_kept h4 h5 hk hf hy)
          subst this
          exact c3 f hf w hy hdw.2.1
        intro n bs hto loaded hc
        obtain ⟨m, v, r1, r2, r3⟩ := ih k inner hk pre f post w hpre hdw rfl hsub hof.layout hof.grounded hof.null h10 h11 h11' h12 hfw
          n bs hto loaded hc
        exact ⟨m, v, r1, fun _ => r2, r3⟩
    · obtain ⟨m, all', k1, k2, k3, -⟩ := optional_to_dict hΓ hd hh hk (structToStream_ok_iff.1 hst).1 hr hland
      have hsame : ∀ k, Dict.get? inner k = Dict.get? dct k := by
        intro q
        obtain ⟨-, hn1, hn2⟩ := structToDict_get hd.unique hh.inst hk
        cases hq : Dict.get? dct q with
        | some y =>
          obtain ⟨f, hf, rfl⟩ := List.mem_map.1 (t2.2 q (Dict.get?_some_key hq))
          exact passed_kept h4 h5 hk hf hq
        | none =>
          cases hi : Dict.get? inner q with
          | none => rfl
          | some y =>
            obtain ⟨f, hf, rfl⟩ := List.mem_map.1 (hn1 q (Dict.get?_some_key hi))
            rcases hn2 f hf with ⟨-, -, h8⟩ | ⟨h8, -⟩
            · rw [hi] at h8; simp at h8
            · exact absurd hq (c2 f hf (by simpa using h8))
      refine ⟨m + 1, .dict all', ?_, ?_, k3⟩
      · simp only [structToDict] at k1
        simp only [recursiveToDicts, h3]
        split at k1
        · simp at k1
        · rw [k1]; rfl
      · exact k2.congr hsame
  | @unionField earlier all b choices ld dd i g w h1 h2 h3 h4 h5 h6 h7 _ ih =>
    intro pre fs tags he hsub hl hg hn ht hns htags hc hfill
    cases hl with
    | union l1 l2 l3 l4 l5 =>
    cases hg with
    | @union _ _ _ _ refs g1 g2 g3 =>
    cases ht with
    | union t1 t2 t3 t4 t5 t6 =>
    cases hfill with
    | union f1 f2 =>
    have hmem := List.mem_of_getElem? h6
    exact unionField_restores h1 h2 h3 h4 h5 h6 h7 (ih he hsub (l5 g hmem) (g3 g hmem) (Or.inl (l4 g hmem).2) (t5 w ctx all i g htags h5 h6) hns htags hc
      (f1 w ctx all i g htags h5 h6)) fun n bs v hto hx => hx
  | @unionStruct earlier all b choices ld dd i cls w h1 h2 h3 h4 h5 h6 h7 _ ih =>
    intro pre fs tags he hsub hl hg hn ht hns htags hc hfill
    cases hl with
    | union l1 l2 l3 l4 l5 =>
    cases ht with
    | union t1 t2 t3 t4 t5 t6 =>
    cases hfill with
    | union f1 f2 =>
    exact unionStruct_restores h1 h2 h3 h4 h5 h6 h7 (ih he hsub (.nested rfl rfl) .nested (Or.inl rfl) (t6 w ctx all i cls htags h5 h6) hns htags hc
      (f2 w ctx all i cls htags h5 h6)) fun n bs v hto hx => hx

/-- A struct of a class with optional fields, dumped and loaded, with what its `to_dict` returns before and after. -/
theorem optional_reload {Γ : Classes} (hΓ : ∀ c d, Γ c = some d → OptionalSchema Γ d) {n : Nat} {d : StructDesc} {vals all : Dict} {ctx : Value}
    {bs : Bytes} (hd : OptionalSchema Γ d) (hh : Bears Γ d vals) (ha : structToDict Γ n d vals = .ok all)
    (hc : ∀ f ∈ d.components, ∀ w, Dict.get? all f.name = some w → w ≠ .notPresent → Filled Γ (SameTags d vals) f w)
    (h : structToStream Γ (n + 1) d vals ctx = (bs, .ok ())) :
    ∃ m r all', (∀ pre rest, structFromStream Γ m d ⟨pre ++ bs ++ rest, pre.length⟩ ctx [] =
        (.ok r, ⟨pre ++ bs ++ rest, pre.length + bs.length⟩)) ∧
      structToDict Γ m d r = .ok all' ∧ Matches (.dict all') (.dict all) ∧ DistinctKeys (.dict all') ∧ Instance d r ∧
      (∀ f ∈ d.components, f.base.discard = true → Dict.get? r f.name = none) ∧
      (∀ f ∈ d.components, f.base.discard = false →
        ∃ v w, Dict.get? r f.name = some v ∧ Dict.get? all' f.name = some w ∧ v ≠ .undefined ∧ recursiveToDicts Γ m v = .ok w) := by
  obtain ⟨hval, all', h1, ps, h2, rfl⟩ := structToStream_ok_iff.1 h
  rw [ha] at h1; cases h1
  have hp := optionalSchema_proper hΓ hd hh ha hval h2
  obtain ⟨m, r, ⟨r', rfl, h3, h4⟩, -, h5⟩ := struct_restores
    (P := fun f w p v => Resaves Γ ctx d.components all f p v ∧ (f.base.discard = false → ConvertsTo Γ v w)) hd.unique hp.accepts hp.omitted
    (fun pre f post w hpre hdw => by
      have hf : f ∈ d.components := by rw [hpre]; simp
      have hof := hd.fields pre f post hpre
      obtain ⟨h8, h9, h10, h11, h11', h12⟩ := (optional_facts hΓ hd hh ha hpre).2 w hdw
      have hsub : ∀ g ∈ pre, g ∈ d.components := fun g hg => by rw [hpre]; simp [hg]
      have hres := proper_resaves hΓ (hp.proper pre f post w hpre hdw) rfl hsub hof.layout hof.grounded hof.null h10 h11 h11' h12
      refine Restores.and hres ?_
      cases hkf : f.base.discard with
      | true =>
        intro n bs hto loaded hc
        obtain ⟨m, v, r1, -, r2⟩ := hres n bs hto loaded hc
        exact ⟨m, v, r1, by simp, r2⟩
      | false =>
        have hfw : Filled Γ (SameTags d vals) f w := by
          obtain ⟨y, hy, -⟩ := toDict_cases hΓ hd hh ha hf hkf
          have := chosen_all hdw.1 hy
          subst this
          exact hc f hf w hy hdw.2.1
        intro n bs hto loaded hc
        obtain ⟨m, v, r1, r2, r3⟩ := proper_converts_optional hΓ (hp.proper pre f post w hpre hdw) rfl hsub hof.layout hof.grounded hof.null
          h10 h11 h11' h12 hfw n bs hto loaded hc
        exact ⟨m, v, r1, fun _ => r2, r3⟩) h2
  obtain ⟨k, all', k1, k2, k3, k4⟩ := optional_to_dict hΓ hd hh ha hval h3 h4
  have hinst : Instance d r' := ⟨by rw [h3]; exact hd.unique, by rw [h3]; exact fun _ h => h⟩
  refine ⟨max m k, dropDiscarded d r', all', fun pre rest => structFromStream_of_le (Nat.le_max_left ..) (h5 pre rest),
    (structToDict_mono Γ (Nat.le_max_right ..) d _ false).of_ok k1, k2, k3,
    ⟨dropDiscarded_nodup hinst.1, fun k hk => hinst.2 k (dropDiscarded_keys hk)⟩, fun f hf hkf => ?_, fun f hf hkf => ?_⟩
  · rw [dropDiscarded_get hd.unique r' hf, hkf]; simp
  · obtain ⟨v, w, h6, h7, h8, h9⟩ := k4 f hf hkf
    exact ⟨v, w, h6, h7, h8, recursiveToDicts_of_le (Nat.le_max_right ..) h9⟩

theorem Spec.Filled.mono {Γ : Classes} {tags tags' : Dict → Prop} {f : Field} {w : Value} (h : Filled Γ tags f w)
    (hs : ∀ all, tags' all → tags all) : Filled Γ tags' f w := by
  induction h with
  | leaf => exact .leaf
  | array _ ih => exact .array fun w hw => ih w hw hs
  | dict h1 h2 h3 => exact .dict h1 h2 h3
  | union _ _ ih1 ih2 =>
    exact .union (fun v ctx all i g ha hd hi => ih1 v ctx all i g (hs all ha) hd hi hs) (fun v ctx all i c ha hd hi => ih2 v ctx all i c (hs all ha) hd hi hs)

theorem Spec.Assembled.mono {Γ : Classes} {tags tags' : Dict → Prop} {f : Field} {w : Value} (h : Assembled Γ tags f w)
    (hs : ∀ all, tags' all → tags all) : Assembled Γ tags' f w := by
  induction h with
  | leaf => exact .leaf
  | array _ ih => exact .array fun w hw => ih w hw hs
  | struct h1 h2 => exact .struct h1 h2
  | union _ _ ih1 ih2 =>
    exact .union (fun v ctx all i g ha hd hi => ih1 v ctx all i g (hs all ha) hd hi hs) (fun v ctx all i c ha hd hi => ih2 v ctx all i c (hs all ha) hd hi hs)


theorem dictValue_assembled {Γ : Classes} {d : StructDesc} {vals : Dict} (hi : Instance d vals)
    (ht : ∀ f ∈ d.components, ∀ w, Dict.get? vals f.name = some w → w ≠ .notPresent → Assembled Γ (SameTags d vals) f w) {f : Field}
    (hs : AssembledSources Γ f) (hf : f ∈ d.components) {v : Value} (hne : v ≠ .notPresent) (h : DictValue d vals f v) :
    Assembled Γ (SameTags d vals) f v := by
  have computed : ∀ {view : View} {ctx : Value},
      (∀ w, view.contains f.name = true → view.get f.name = .ok w → w ≠ .notPresent → Assembled Γ (SameTags d vals) f w) →
      f.base.computeValueForDump view ctx = .ok v → Assembled Γ (SameTags d vals) f v := by
    intro view ctx hv h
    obtain ⟨w, h1, ⟨rfl, -⟩ | ⟨rfl, -, h2, -⟩⟩ := computeValueForDump_ok h
    · exact absurd rfl hne
    · cases h1 with
      | explicit h1 h2 => exact hv _ h1 h2 hne
      | default h1 h2 h3 => exact (hs.1 _ h2 h3).mono fun _ _ => trivial
      | computed h1 h2 h3 h4 => exact (hs.2 _ _ _ h3 h4).mono fun _ _ => trivial
      | nothing => exact absurd rfl h2
  rcases h with h | ⟨e, -, -, ⟨-, h⟩ | ⟨-, dct, -, h1, h2⟩⟩
  · refine computed (fun w h1 h2 hw => ?_) h
    obtain ⟨x, hx, -⟩ := (structContains_iff hi.1).1 h1
    have h3 := structGetItem_some (List.mem_map.2 ⟨f, hf, rfl⟩) hx
    simp only [structView] at h2
    rw [h3] at h2; cases h2
    exact ht f hf _ hx hw
  · exact ht f hf _ h hne
  · refine computed (fun w h3 _ => ?_) h2
    simp only [Dict.view, Dict.contains_eq, h1] at h3
    simp at h3

/-- Conversion of structs to dictionaries leaves no gaps. -/
theorem assembled_filled {Γ : Classes} (hΓ : ∀ c d, Γ c = some d → OptionalSchema Γ d)
    (hs : ∀ c d, Γ c = some d → ∀ f ∈ d.components, AssembledSources Γ f)
    {n : Nat} {tags : Dict → Prop} {f : Field} {v w : Value} (ht : Fitting Γ tags f v) (hb : Assembled Γ tags f v)
    (h : recursiveToDicts Γ n v = .ok w) : Filled Γ tags f w := by
  induction n generalizing tags f v w with
  | zero => simp [recursiveToDicts] at h
  | succ n ih =>
    induction hb with
    | leaf => exact .leaf
    | array h1 _ =>
      cases ht with
      | array t1 =>
      simp only [recursiveToDicts] at h
      obtain ⟨r, hr, rfl⟩ := Except.map_ok h
      exact .array (mapE_forall hr fun a ha b hb => ih (t1 a ha) (h1 a ha) hb)
    | union _ _ ih1 ih2 =>
      cases ht with
      | union _ _ _ _ t1 t2 =>
        exact .union (fun v ctx all i g ha hd hi => ih1 v ctx all i g ha hd hi (t1 v ctx all i g ha hd hi) h)
          (fun v ctx all i cls ha hd hi => ih2 v ctx all i cls ha hd hi (t2 v ctx all i cls ha hd hi) h)
    | @struct _ b cls d vals h1 h2 _ =>
      cases ht with
      | @struct _ _ _ _ _ t1 t2 t3 t4 =>
      rw [h1] at t1; cases t1
      simp only [recursiveToDicts, h1] at h
      cases hsh : toDictShallow d vals false with
      | error e => simp [hsh] at h
      | ok dct =>
        simp only [hsh] at h
        obtain ⟨r, hr, rfl⟩ := Except.map_ok h
        have hd := hΓ _ _ h1
        have hh : Bears Γ d vals := ⟨t2, t3, t4⟩
        obtain ⟨-, -, h8⟩ := toDictShallow_get hd.unique t2 hsh
        obtain ⟨-, h9⟩ := mapDictE_ok hr
        refine .dict h1 (fun f hf hkf => ?_) (fun f hf y hy hne => ?_)
        · obtain ⟨v, h10, -⟩ := shallow_cases hd hh hsh hf hkf
          rcases h9 f.name with ⟨h11, -⟩ | ⟨x, y, -, h11, -⟩
          · rw [h10] at h11; simp at h11
          · simp [h11]
        · rcases h9 f.name with ⟨-, h11⟩ | ⟨x, y', h10, h11, h12⟩
          · rw [hy] at h11; simp at h11
          · rw [hy] at h11; cases h11
            rcases h8 f hf with ⟨-, -, h13⟩ | ⟨hkf, v, h13, h14⟩
            · rw [h10] at h13; simp at h13
            · rw [h10] at h14; cases h14
              have hxne : x ≠ .notPresent := by
                rintro rfl
                exact hne ((recursiveToDicts_spec h12).2 (by constructor))
              obtain ⟨v', h15, h16⟩ := shallow_cases hd hh hsh hf (by simpa using hkf)
              rw [h10] at h15; cases h15
              have hfit : Fitting Γ (SameTags d vals) f x := by
                rcases h16 with ⟨h16, -⟩ | ⟨-, h16, -⟩
                · exact absurd h16 hxne
                · exact h16
              refine (ih hfit (dictValue_assembled t2 h2 (hs _ _ h1 f hf) hf hxne h13) h12).mono fun all ha q z hq hz => ha q z hq ?_
              obtain ⟨b, k, hf', rfl, h4, hk', h5⟩ := hq
              obtain ⟨x, h11, h12, h13, -⟩ := solid_shallow hd hh hsh hf' h4 hk' h5
              rw [h11] at hz; cases hz
              rcases h9 b.name with ⟨h17, -⟩ | ⟨x', y, h17, h18, h19⟩
              · rw [h12] at h17; simp at h17
              · rw [h12] at h17; cases h17
                rw [toDicts_scalar h13 h19] at h18
                exact structGetItem_some (List.mem_map.2 ⟨_, hf', rfl⟩) h18

end Verif
