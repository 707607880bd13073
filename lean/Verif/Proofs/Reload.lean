import Verif.Spec.Reload
import Verif.Proofs.Canonical
import Verif.Proofs.Resave
import Verif.Proofs.Schema
import Verif.Proofs.Numbers
import Verif.Spec.Records

/-! Helper lemmas: what was loaded from a dump equals what was dumped. -/

namespace Verif
open Spec

/-- The values that match a leaf field equal themselves. -/
theorem Scalar.self_eq {k : Leaf} {w : Value} (h : Scalar k w) : scalarEq w w = true := by
  cases w with
  | float x =>
    cases k <;> simp only [Scalar] at h
    rename_i f e
    obtain ⟨hx, c, -, hs⟩ := h
    have hf : Fits binary64 x := by unfold Fits; rw [(standard_bounds (f := binary64) (by simp [Standard])).2.2.2.2.2]; exact hx
    simp only [scalarEq]
    rw [floatEq_iff hf hf]
    rcases hs with hs | hs
    · exact Or.inl ⟨hs.1, hs.1, rfl⟩
    · exact Or.inr ⟨hs.1, hs.1, Iff.rfl⟩
  | list l => cases k <;> simp [Scalar] at h
  | dict l => cases k <;> simp [Scalar] at h
  | struct c l => cases k <;> simp [Scalar] at h
  | iter i => cases k <;> simp [Scalar] at h
  | _ => simp [scalarEq]

/-- The same but for the order of keys, and equal in the sense of `==`. -/
def Matches (v w : Value) : Prop := Identical v w ∧ Same v w

theorem Matches.self {v : Value} (h : scalarEq v v = true) : Matches v v := ⟨.same v, .scalar h⟩

theorem Matches.list {a b : List Value} (h : a.length = b.length)
    (h' : ∀ (i : Nat) (x y : Value), a[i]? = some x → b[i]? = some y → Matches x y) : Matches (.list a) (.list b) :=
  ⟨.list h fun i x y hx hy => (h' i x y hx hy).1, .list h fun i x y hx hy => (h' i x y hx hy).2⟩

theorem Matches.dict {a b : Dict} (h : ∀ k, Dict.get? a k = none ↔ Dict.get? b k = none)
    (h' : ∀ (k : String) (x y : Value), Dict.get? a k = some x → Dict.get? b k = some y → Matches x y) : Matches (.dict a) (.dict b) :=
  ⟨.dict h fun i x y hx hy => (h' i x y hx hy).1, .dict h fun i x y hx hy => (h' i x y hx hy).2⟩

/-- `v`, which was loaded, is equal to `w` once converted to dictionaries. -/
def ConvertsTo (Γ : Classes) (v w : Value) : Prop :=
  ∃ m w', recursiveToDicts Γ m v = .ok w' ∧ Matches w' w ∧ DistinctKeys w'

theorem typed_distinct {Γ : Classes} {f : Field} {w : Value} (ht : Typed Γ f w) (hns : NoStruct w) : DistinctKeys w := by
  induction ht with
  | @leaf b k w h1 _ =>
    refine .other ?_ ?_ <;> (rintro l rfl; cases k <;> simp [Scalar] at h1)
  | array _ ih =>
    cases hns with
    | list hns => exact .list fun v hv => ih v hv (hns v hv)
  | dict h1 h2 _ ih =>
    cases hns with
    | dict hns =>
      refine .dict h2.1 fun p hp => ?_
      obtain ⟨f, hf, hn⟩ := List.mem_map.1 (h2.2 p.1 (List.mem_map.2 ⟨p, hp, rfl⟩))
      exact ih f hf p.2 (hn ▸ Dict.get?_of_mem h2.1 hp) (hns p hp)
  | struct => cases hns

/-- A loaded instance of a plain class has its values in its `to_dict`, converted. -/
theorem loaded_to_dict {Γ : Classes} {d : StructDesc} {r dct : Dict} (hd : Schema Γ d) (hk : Dict.keys r = names d)
    (hk1 : ∀ k, Dict.get? dct k ≠ none → k ∈ names d)
    (hv : ∀ f ∈ d.components, ∃ v w, Dict.get? r f.name = some v ∧ v ≠ .undefined ∧ Dict.get? dct f.name = some w ∧ ConvertsTo Γ v w) :
    ∃ m all', structToDict Γ m d r = .ok all' ∧ Matches (.dict all') (.dict dct) ∧ DistinctKeys (.dict all') := by
  have hi : Instance d r := ⟨by rw [hk]; exact hd.unique, fun k h => by rw [hk] at h; exact h⟩
  have hfull : Full d r := by
    intro f hf
    obtain ⟨v, w, h1, h2, -⟩ := hv f hf
    obtain ⟨ha, hdis, -⟩ := hd.field hf
    exact Or.inl ⟨hdis, v, h1, Or.inr ⟨h2, ha.1 _ _ _⟩⟩
  obtain ⟨sh, h1, h2, h3, h4⟩ := toDictShallow_full hd.unique hi hfull
  have hconv : ∀ p ∈ sh, ∃ q : Nat × Value, recursiveToDicts Γ q.1 p.2 = .ok q.2 ∧ DistinctKeys q.2 ∧
      ∃ w, Dict.get? dct p.1 = some w ∧ Matches q.2 w := by
    intro p hp
    obtain ⟨f, hf, hn⟩ := List.mem_map.1 (h3 p.1 (List.mem_map.2 ⟨p, hp, rfl⟩))
    obtain ⟨v, w, h5, -, h6, m, w', h7, h8, h9⟩ := hv f hf
    have h10 := Dict.get?_of_mem h2 hp
    rw [← hn, h4 f hf, h5] at h10
    cases h10
    exact ⟨(m, w'), h7, h9, w, hn ▸ h6, h8⟩
  obtain ⟨g, hg⟩ := exists_fun_of_mem hconv
  obtain ⟨M, hM⟩ := common_fuel (l := sh) (P := fun n p => recursiveToDicts Γ n p.2 = .ok (g p).2)
    (fun hle h => recursiveToDicts_of_le hle h) (fun p hp => ⟨(g p).1, (hg p hp).1⟩)
  have hmap : ∃ all', mapDictE (recursiveToDicts Γ M) sh = .ok all' := by
    unfold mapDictE
    clear h1 h2 h3 h4 hconv hg
    induction sh with
    | nil => exact ⟨[], rfl⟩
    | cons p sh ih =>
      obtain ⟨r', hr'⟩ := ih fun q hq => hM q (by simp [hq])
      have e : (recursiveToDicts Γ M p.2).map (fun v => (p.1, v)) = .ok (p.1, (g p).2) := by rw [hM p (by simp)]; rfl
      exact ⟨(p.1, (g p).2) :: r', by simp only [mapE, e, hr']⟩
  obtain ⟨all', hall⟩ := hmap
  obtain ⟨h5, h6⟩ := mapDictE_ok hall
  have hkey : ∀ k y, Dict.get? all' k = some y → ∃ w, Dict.get? dct k = some w ∧ Matches y w ∧ DistinctKeys y := by
    intro k y hy
    rcases h6 k with ⟨-, h7⟩ | ⟨v, w, h7, h8, h9⟩
    · rw [hy] at h7; simp at h7
    · rw [hy] at h8; cases h8
      have hp := Dict.get?_some_mem h7
      rw [hM _ hp] at h9; cases h9
      obtain ⟨-, h10, w, h11, h12⟩ := hg _ hp
      exact ⟨w, h11, h12, h10⟩
  refine ⟨M, all', by simp [structToDict, h1, hall], .dict (fun k => ?_) (fun k x y hx hy => ?_), .dict (h5 ▸ h2) fun p hp => ?_⟩
  · constructor
    · intro hnone
      cases hw : Dict.get? dct k with
      | none => rfl
      | some w =>
        obtain ⟨f, hf, rfl⟩ := List.mem_map.1 (hk1 k (by simp [hw]))
        obtain ⟨v, -, h7, -⟩ := hv f hf
        rcases h6 f.name with ⟨h8, -⟩ | ⟨_, _, _, h8, _⟩
        · rw [h4 f hf, h7] at h8; simp at h8
        · rw [hnone] at h8; simp at h8
    · intro hnone
      cases hw : Dict.get? all' k with
      | none => rfl
      | some w =>
        obtain ⟨w', h7, -⟩ := hkey k w hw
        rw [hnone] at h7; simp at h7
  · obtain ⟨w, h7, h8, -⟩ := hkey k x hx
    rw [hy] at h7; cases h7; exact h8
  · obtain ⟨-, -, -, h7⟩ := hkey p.1 p.2 (Dict.get?_of_mem (h5 ▸ h2) hp)
    exact h7

theorem ConvertsTo.ne_undefined {Γ : Classes} {f : Field} {v w : Value} (ht : Typed Γ f w) (h : Stands v w) : v ≠ .undefined := by
  cases h with
  | same => exact ht.ne.2.2.1
  | list => simp
  | struct => simp

theorem Landed.values {P : Field → Value → Bytes → Value → Prop} {all r : Dict} {ctx : Value} {fs : List Field} {ps : List Bytes}
    (h : Landed P all ctx r fs ps) (hs : ∀ f ∈ fs, ¬ Skipped f all ctx) {f : Field} (hf : f ∈ fs) :
    ∃ w v p, Dumped f all ctx w ∧ Dict.get? r f.name = some v ∧ Stands v w ∧ P f w p v := by
  obtain ⟨es, h1, -, h3⟩ := h.entries
  rw [← h1] at hf
  obtain ⟨e, he, rfl⟩ := List.mem_map.1 hf
  rcases h3 e he with ⟨h4, -⟩ | ⟨w, v, h4, h5, h6, h7⟩
  · exact absurd h4 (hs _ (h1 ▸ hf))
  · exact ⟨w, v, e.2, h4, h5, h6, h7⟩

theorem proper_converts {Γ : Classes} (hΓ : ∀ c d, Γ c = some d → Schema Γ d) {ctx : Value} {earlier : List String} {all : Dict}
    {f : Field} {w : Value} (h : Proper Γ ctx earlier all f w) :
    Typed Γ f w → NoStruct w → Complete Γ f w → Restores Γ ctx earlier all f w (fun _ v => ConvertsTo Γ v w) := by
  induction h with
  | null => intro ht; exact absurd rfl ht.ne.1
  | @leaf earlier all b k w h1 h2 h3 h4 =>
    intro ht _ _
    obtain ⟨-, -, hns, hnl, hnd⟩ := h2.scalar
    refine leaf_field_restores h1 h2 h3 h4 fun n bs hto => ?_
    cases ht with
    | leaf t1 t2 => exact ⟨1, w, Atom.toDicts ⟨hns, hnl, hnd⟩ 0, .self (Scalar.self_eq t1), .other hnl hnd⟩
  | @array earlier all b comp count l h1 h2 h3 h4 _ ih =>
    intro ht hns hc
    cases ht with
    | array t1 =>
    cases hns with
    | list hns =>
    cases hc with
    | array hc =>
    refine array_restores (P := fun w _ v => ConvertsTo Γ v w) h1 h2 h3 h4
      (fun x hx => ih x hx (t1 x hx) (hns x hx) (hc x hx)) ?_
    intro n ps vs hto hps hvs hP
    have : ∀ e ∈ vs.zip l, ∃ q : Nat × Value, recursiveToDicts Γ q.1 e.1 = .ok q.2 ∧ Matches q.2 e.2 ∧ DistinctKeys q.2 := by
      intro e he
      obtain ⟨i, hi, rfl⟩ := List.mem_iff_getElem.1 he
      simp only [List.length_zip] at hi
      simp only [List.getElem_zip]
      obtain ⟨m, w', h⟩ := hP i (by omega) (by omega) (by omega)
      exact ⟨(m, w'), h⟩
    obtain ⟨g, hg⟩ := exists_fun_of_mem this
    obtain ⟨M, hM⟩ := common_fuel (l := vs.zip l) (P := fun n e => recursiveToDicts Γ n e.1 = .ok (g e).2)
      (fun hle h => recursiveToDicts_of_le hle h) (fun e he => ⟨(g e).1, (hg e he).1⟩)
    have hzip : vs = (vs.zip l).map Prod.fst := by rw [List.map_fst_zip]; omega
    refine ⟨M + 1, .list ((vs.zip l).map fun e => (g e).2), ?_, .list (by simp; omega) (fun i x y hx hy => ?_), .list fun v hv => ?_⟩
    · simp only [recursiveToDicts]
      rw [show mapE (recursiveToDicts Γ M) vs = .ok ((vs.zip l).map fun e => (g e).2) from by
        conv => lhs; rw [hzip]
        exact mapE_zip (g := fun e => (g e).2) hM]
      rfl
    · rw [List.getElem?_map] at hx
      obtain ⟨e, he, rfl⟩ := Option.map_eq_some_iff.1 hx
      have h5 := (hg e (List.mem_of_getElem? he)).2.1
      obtain ⟨hi, rfl⟩ := List.getElem?_eq_some_iff.1 he
      obtain ⟨hi', rfl⟩ := List.getElem?_eq_some_iff.1 hy
      simpa using h5
    · obtain ⟨e, he, rfl⟩ := List.mem_map.1 hv
      exact (hg e he).2.2
  | @nested earlier all b cls d dct h1 h2 h3 h4 h5 h6 h7 _ ih =>
    intro ht hns hc
    cases ht with
    | @dict _ _ d' _ t1 t2 t3 =>
    rw [h3] at t1; cases t1
    cases hns with
    | dict hns =>
    cases hc with
    | @dict _ _ d' _ c1 c2' c2'' =>
    rw [h3] at c1; cases c1
    have c2 : ∀ f ∈ d.components, ∃ w, Dict.get? dct f.name = some w ∧ Complete Γ f w := by
      intro f hf
      obtain ⟨w, hw⟩ := Option.ne_none_iff_exists'.1 (c2' f hf)
      exact ⟨w, hw, c2'' f hf w hw⟩
    have hd := hΓ _ _ h3
    have key : ∀ n inner, structToDict Γ n d dct = .ok inner → ∀ f ∈ d.components, ∀ w, Dumped f inner ctx w →
        Typed Γ f w ∧ NoStruct w ∧ Complete Γ f w ∧ Dict.get? dct f.name = some w := by
      intro n inner hn f hf w hw
      obtain ⟨x, k1, k2, k3, k4⟩ := plain_dumped hΓ hd t2 t3 hn hf
      have := k4 w hw.1
      subst this
      obtain ⟨y, k5, k6⟩ := c2 f hf
      have := passed_kept h4 h5 hn hf k5
      rw [k1] at this; cases this
      exact ⟨k2, k3, k6, k5⟩
    refine nested_restores (P := fun inner f w _ v => ConvertsTo Γ v w)
      h1 h2 h3 h4 h5 h6 h7 (fun k inner hk pre f post w hpre hdw => ?_) (fun k inner ps r hst hk hr hland => ?_)
    · obtain ⟨k1, k2, k3, -⟩ := key k inner hk f (by rw [hpre]; simp) w hdw
      exact ih k inner hk pre f post w hpre hdw k1 k2 k3
    · rw [dropDiscarded_none fun f hf => (hd.field hf).2.1]
      obtain ⟨m, all', k1, k2, k3⟩ := loaded_to_dict (dct := dct) hd hr
        (fun k hk => t2.2 k ((Decidable.byContradiction fun hn => hk ((Dict.get?_none_iff _ _).2 hn))))
        (fun f hf => by
          obtain ⟨w, v, p, l1, l2, l3, l4⟩ := hland.values (fun g hg => plain_not_skipped hΓ hd t2 t3 hk hg) hf
          obtain ⟨k1, -, -, k4⟩ := key k inner hk f hf w l1
          exact ⟨v, w, l2, ConvertsTo.ne_undefined k1 l3, k4, l4⟩)
      refine ⟨m + 1, .dict all', ?_, k2, k3⟩
      simp only [structToDict] at k1
      simp only [recursiveToDicts, h3]
      split at k1
      · simp at k1
      · rw [k1]; rfl
  | unionField => intro ht; cases ht
  | unionStruct => intro ht; cases ht

/-- A plain struct, dumped and loaded, with what its `to_dict` returns before and after. -/
theorem plain_reload {Γ : Classes} (hΓ : ∀ c d, Γ c = some d → Schema Γ d) {n : Nat} {d : StructDesc} {vals all : Dict} {ctx : Value}
    {bs : Bytes} (hp : PlainInstance Γ d vals) (ha : structToDict Γ n d vals = .ok all)
    (hc : ∀ f ∈ d.components, ∀ w, Dict.get? all f.name = some w → Complete Γ f w)
    (h : structToStream Γ (n + 1) d vals ctx = (bs, .ok ())) :
    ∃ m r, Dict.keys r = names d ∧
      (∀ f ∈ d.components, ∃ v w, Dict.get? r f.name = some v ∧ v ≠ .undefined ∧ Dict.get? all f.name = some w ∧ ConvertsTo Γ v w) ∧
      ∀ pre rest, structFromStream Γ m d ⟨pre ++ bs ++ rest, pre.length⟩ ctx [] =
        (.ok r, ⟨pre ++ bs ++ rest, pre.length + bs.length⟩) := by
  obtain ⟨hd, hi, ht⟩ := hp
  obtain ⟨hval, all', h1, ps, h2, rfl⟩ := structToStream_ok_iff.1 h
  rw [ha] at h1; cases h1
  have hpr := schema_proper hΓ hd hi ht ha h2
  have key : ∀ f ∈ d.components, ∀ w, Dumped f all ctx w → Typed Γ f w ∧ NoStruct w ∧ Dict.get? all f.name = some w := by
    intro f hf w hw
    obtain ⟨x, k1, k2, k3, k4⟩ := plain_dumped hΓ hd hi ht ha hf
    have := k4 w hw.1
    subst this
    exact ⟨k2, k3, k1⟩
  obtain ⟨m, r, ⟨r', rfl, h3, h4⟩, -, h5⟩ := struct_restores (P := fun f w _ v => ConvertsTo Γ v w) hd.unique hpr.accepts hpr.omitted
    (fun pre f post w hpre hdw => by
      obtain ⟨k1, k2, k3⟩ := key f (by rw [hpre]; simp) w hdw
      exact proper_converts hΓ (hpr.proper pre f post w hpre hdw) k1 k2 (hc f (by rw [hpre]; simp) w k3)) h2
  rw [dropDiscarded_none fun f hf => (hd.field hf).2.1] at h5
  refine ⟨m, r', h3, fun f hf => ?_, h5⟩
  obtain ⟨w, v, p, l1, l2, l3, l4⟩ := h4.values (fun g hg => plain_not_skipped hΓ hd hi ht ha hg) hf
  obtain ⟨k1, -, k3⟩ := key f hf w l1
  exact ⟨v, w, l2, ConvertsTo.ne_undefined k1 l3, k3, l4⟩

theorem dictValue_built {Γ : Classes} {d : StructDesc} {vals : Dict} (hd : Schema Γ d) (hi : Instance d vals)
    (ht : ∀ f ∈ d.components, ∀ w, Dict.get? vals f.name = some w → Built Γ f w) {f : Field} (hs : BuiltSources Γ f) (hf : f ∈ d.components)
    {v : Value} (h : DictValue d vals f v) : Built Γ f v := by
  obtain ⟨ha, -, -⟩ := hd.field hf
  have chosen : ∀ {view : View} {v : Value}, (∀ w, view.contains f.name = true → view.get f.name = .ok w → Built Γ f w) →
      Chosen f.base view v → v ≠ .undefined → Built Γ f v := by
    intro view v hv h hu
    cases h with
    | explicit h1 h2 => exact hv _ h1 h2
    | default h1 h2 h3 => exact hs.1 _ h2 h3
    | computed h1 h2 h3 h4 => exact hs.2 _ _ _ h3 h4
    | nothing => exact absurd rfl hu
  have computed : ∀ {view : View} {ctx v : Value}, (∀ w, view.contains f.name = true → view.get f.name = .ok w → Built Γ f w) →
      f.base.computeValueForDump view ctx = .ok v → Built Γ f v := by
    intro view ctx v hv h
    obtain ⟨w, h1, ⟨rfl, h2⟩ | ⟨rfl, -, h2, -⟩⟩ := computeValueForDump_ok h
    · rcases h2 with rfl | h2
      · exact chosen hv h1 (by simp)
      · rw [ha.1] at h2; simp at h2
    · exact chosen hv h1 h2
  rcases h with h | ⟨e, -, -, ⟨-, h⟩ | ⟨-, dct, -, h1, h2⟩⟩
  · refine computed (fun w h1 h2 => ?_) h
    obtain ⟨x, hx, -⟩ := (structContains_iff hi.1).1 h1
    have h3 := structGetItem_some (List.mem_map.2 ⟨f, hf, rfl⟩) hx
    simp only [structView] at h2
    rw [h3] at h2; cases h2
    exact ht f hf _ hx
  · exact ht f hf _ h
  · refine computed (fun w h3 _ => ?_) h2
    simp only [Dict.view, Dict.contains_eq, h1] at h3
    simp at h3

/-- Conversion of structs to dictionaries leaves no gaps. -/
theorem built_complete {Γ : Classes} (hΓ : ∀ c d, Γ c = some d → Schema Γ d) (hs : ∀ c d, Γ c = some d → ∀ f ∈ d.components, BuiltSources Γ f)
    {n : Nat} {f : Field} {v w : Value} (ht : Typed Γ f v) (hb : Built Γ f v) (h : recursiveToDicts Γ n v = .ok w) : Complete Γ f w := by
  induction n generalizing f v w with
  | zero => simp [recursiveToDicts] at h
  | succ n ih =>
    cases hb with
    | leaf => exact .leaf
    | array h1 =>
      cases ht with
      | array t1 =>
      simp only [recursiveToDicts] at h
      obtain ⟨r, hr, rfl⟩ := Except.map_ok h
      exact .array (mapE_forall hr fun a ha b hb => ih (t1 a ha) (h1 a ha) hb)
    | @struct b cls d vals h1 h2 =>
      cases ht with
      | @struct _ _ _ _ t1 t2 t3 =>
      rw [h1] at t1; cases t1
      simp only [recursiveToDicts, h1] at h
      cases hsh : toDictShallow d vals false with
      | error e => simp [hsh] at h
      | ok dct =>
        simp only [hsh] at h
        obtain ⟨r, hr, rfl⟩ := Except.map_ok h
        have hd := hΓ _ _ h1
        obtain ⟨-, -, h8⟩ := toDictShallow_get hd.unique t2 hsh
        obtain ⟨-, h9⟩ := mapDictE_ok hr
        suffices H : ∀ f ∈ d.components, ∃ w, Dict.get? r f.name = some w ∧ Complete Γ f w by
          refine .dict h1 (fun f hf => ?_) (fun f hf w hw => ?_)
          · obtain ⟨w, hw, -⟩ := H f hf; simp [hw]
          · obtain ⟨w', hw', hcw⟩ := H f hf
            rw [hw] at hw'; cases hw'; exact hcw
        intro f hf
        rcases h8 f hf with ⟨-, h10, -⟩ | ⟨-, v, h10, h11⟩
        · rw [(hd.field hf).2.1] at h10; simp at h10
        · rcases h9 f.name with ⟨h12, -⟩ | ⟨x, y, h12, h13, h14⟩
          · rw [h11] at h12; simp at h12
          · rw [h11] at h12; cases h12
            exact ⟨y, h13, ih (dictValue_typed hd t2 t3 hf h10) (dictValue_built hd t2 h2 (hs _ _ h1 f hf) hf h10) h14⟩

end Verif
