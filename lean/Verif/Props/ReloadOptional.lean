import Verif.Proofs.ReloadOptional
import Verif.Props.Reload
import Verif.Props.Optional

/-!
# Saved and loaded again, with optional fields (C104)

`C104` for the classes of `C26_optional_round_trip`: fields may be left out, may be `None`, may be discarded, and there may be unions.
-/

namespace Verif
open Spec

/-- **C104** `from_bytes(bytes(s)).to_dict() == s.to_dict()` for classes with optional fields, nullable fields, unions and discarded
fields: a field that is not there is `NOT_PRESENT` in both, a discarded field is in neither, and all other values are equal down to the
last level.  (If dictionaries were given for nested structs, they must have all the fields.) -/
theorem C104_optional_to_dict (Γ : Classes) (hΓ : ∀ c d, Γ c = some d → OptionalSchema Γ d) (n : Nat) (d : StructDesc) (vals all : Dict)
    (ctx : Value) (bs : Bytes) (hd : OptionalSchema Γ d) (hh : Bears Γ d vals) (ha : structToDict Γ n d vals = .ok all)
    (hc : ∀ f ∈ d.components, ∀ w, Dict.get? all f.name = some w → w ≠ .notPresent → Filled Γ (SameTags d vals) f w)
    (h : structToStream Γ (n + 1) d vals ctx = (bs, .ok ())) :
    ∃ m r all', (∀ pre rest, structFromStream Γ m d ⟨pre ++ bs ++ rest, pre.length⟩ ctx [] =
        (.ok r, ⟨pre ++ bs ++ rest, pre.length + bs.length⟩)) ∧
      structToDict Γ m d r = .ok all' ∧ Identical (.dict all') (.dict all) ∧ Same (.dict all') (.dict all) := by
  obtain ⟨m, r, all', h1, h2, h3, -⟩ := optional_reload hΓ hd hh ha hc h
  exact ⟨m, r, all', h1, h2, h3⟩

/-- **C104** the dictionaries of nested structs have all the fields whenever no dictionaries are used in place of struct instances. -/
theorem C104_optional_structs (Γ : Classes) (hΓ : ∀ c d, Γ c = some d → OptionalSchema Γ d) (n : Nat) (d : StructDesc) (vals all : Dict)
    (hd : OptionalSchema Γ d) (hh : Bears Γ d vals) (hs : ∀ c d, Γ c = some d → ∀ f ∈ d.components, AssembledSources Γ f)
    (hs' : ∀ f ∈ d.components, AssembledSources Γ f)
    (hb : ∀ f ∈ d.components, ∀ v, Dict.get? vals f.name = some v → v ≠ .notPresent → Assembled Γ (SameTags d vals) f v)
    (ha : structToDict Γ n d vals = .ok all) :
    ∀ f ∈ d.components, ∀ w, Dict.get? all f.name = some w → w ≠ .notPresent → Filled Γ (SameTags d vals) f w := by
  intro f hf w hw hne
  unfold structToDict at ha
  split at ha
  · simp at ha
  · rename_i dct hdct
    obtain ⟨-, h5⟩ := mapDictE_ok ha
    obtain ⟨-, -, h9⟩ := toDictShallow_get hd.unique hh.inst hdct
    rcases h5 f.name with ⟨-, h6⟩ | ⟨v, y, h6, h7, h8⟩
    · rw [hw] at h6; simp at h6
    · rw [hw] at h7; cases h7
      have hvne : v ≠ .notPresent := by
        rintro rfl
        exact hne ((recursiveToDicts_spec h8).2 (by constructor))
      rcases h9 f hf with ⟨-, -, h10⟩ | ⟨hk, v', h10, h11⟩
      · rw [h6] at h10; simp at h10
      · rw [h6] at h11; cases h11
        obtain ⟨v', h11, h12⟩ := shallow_cases hd hh hdct hf (by simpa using hk)
        rw [h6] at h11; cases h11
        refine assembled_filled hΓ hs ?_ (dictValue_assembled hh.inst hb (hs' f hf) hf hvne h10) h8
        rcases h12 with ⟨h12, -⟩ | ⟨-, h12, -⟩
        · exact absurd h12 hvne
        · exact h12

/-- The dict of the values that are set in an instance in which all fields are set that are not discarded is its `to_dict`. -/
theorem definedValues_kept {Γ : Classes} {n : Nat} {d : StructDesc} {vals all : Dict} (hu : UniqueNames d) (hi : Instance d vals)
    (hset : KeptSet d vals) (hne : ∀ f ∈ d.components, Dict.get? vals f.name ≠ some .undefined) (h : structToDict Γ n d vals = .ok all) :
    DefinedValues Γ vals all := by
  obtain ⟨-, h2, h3⟩ := structToDict_get hu hi h
  intro k
  by_cases hk : k ∈ names d
  · obtain ⟨f, hf, rfl⟩ := List.mem_map.1 hk
    rcases hset f hf with ⟨hkf, v, hv, hp⟩ | ⟨hkf, hv⟩
    · right
      have hu : v ≠ .undefined := by rintro rfl; exact hne f hf hv
      have hcomp := full_value hi hf hv (hp.imp id fun hp => ⟨hu, hp⟩)
      rcases h3 f hf with ⟨-, h4, -⟩ | ⟨-, v', w, h4, h5, h6⟩
      · rw [hkf] at h4; simp at h4
      · have : v' = v := by
          rcases h4 with h4 | ⟨e, h4, -⟩
          · rw [hcomp] at h4; cases h4; rfl
          · rw [hcomp] at h4; simp at h4
        subst this
        exact ⟨v', w, n, hv, hu, h5, h6⟩
    · left
      rcases h3 f hf with ⟨-, -, h4⟩ | ⟨h4, -⟩
      · exact ⟨h4, Or.inl hv⟩
      · rw [hkf] at h4; simp at h4
  · left
    refine ⟨?_, Or.inl ?_⟩
    · exact (Dict.get?_none_iff _ _).2 fun h => hk (h2 k h)
    · exact (Dict.get?_none_iff _ _).2 fun h => hk (hi.2 k h)

/-- What is loaded has what it needs to be compared. -/
theorem optional_comparable {Γ : Classes} {m : Nat} {d : StructDesc} {r all' : Dict} (hi : Instance d r)
    (h1 : structToDict Γ m d r = .ok all') (hu : UniqueNames d) (hdk : DistinctKeys (.dict all'))
    (hgone : ∀ f ∈ d.components, f.base.discard = true → Dict.get? r f.name = none)
    (hkept : ∀ f ∈ d.components, f.base.discard = false →
      ∃ v w, Dict.get? r f.name = some v ∧ Dict.get? all' f.name = some w ∧ v ≠ .undefined ∧ recursiveToDicts Γ m v = .ok w) :
    ProperValues Γ r ∧ DefinedValues Γ r all' := by
  have hd : ∀ p ∈ all', DistinctKeys p.2 := by
    cases hdk with
    | dict _ h => exact h
    | other _ h => exact absurd rfl (h _)
  obtain ⟨-, h2, h3⟩ := structToDict_get hu hi h1
  refine ⟨fun k v n w hv hw => ?_, fun k => ?_⟩
  · obtain ⟨f, hf, rfl⟩ := List.mem_map.1 (hi.2 k (Dict.get?_some_key hv))
    cases hkf : f.base.discard with
    | true => rw [hgone f hf hkf] at hv; simp at hv
    | false =>
      obtain ⟨v', w', h4, h5, -, h6⟩ := hkept f hf hkf
      rw [hv] at h4; cases h4
      rw [recursiveToDicts_det hw h6]
      exact hd _ (Dict.get?_some_mem h5)
  · by_cases hk : k ∈ names d
    · obtain ⟨f, hf, rfl⟩ := List.mem_map.1 hk
      cases hkf : f.base.discard with
      | true =>
        left
        rcases h3 f hf with ⟨-, -, h4⟩ | ⟨h4, -⟩
        · exact ⟨h4, Or.inl (hgone f hf hkf)⟩
        · rw [hkf] at h4; simp at h4
      | false =>
        obtain ⟨v, w, h4, h5, h6, h7⟩ := hkept f hf hkf
        exact Or.inr ⟨v, w, m, h4, h6, h7, h5⟩
    · left
      refine ⟨?_, Or.inl ?_⟩
      · exact (Dict.get?_none_iff _ _).2 fun h => hk (h2 k h)
      · exact (Dict.get?_none_iff _ _).2 fun h => hk (hi.2 k h)

/-- **C104** `from_bytes(bytes(s)) == s` and `s == from_bytes(bytes(s))` for classes with optional fields, nullable fields, unions and
discarded fields, if all fields of `s` itself are set, except for the discarded ones, and those that are not there are `NOT_PRESENT`.  A
comparison that returns says they are equal, and it does return if both have a length (see `C59`). -/
theorem C104_optional_equal (Γ : Classes) (hΓ : ∀ c d, Γ c = some d → OptionalSchema Γ d) (n : Nat) (c : String) (d : StructDesc)
    (vals all : Dict) (ctx : Value) (bs : Bytes) (hcls : Γ c = some d) (hh : Bears Γ d vals) (hset : KeptSet d vals)
    (hpv : ProperValues Γ vals) (ha : structToDict Γ n d vals = .ok all)
    (hc : ∀ f ∈ d.components, ∀ w, Dict.get? all f.name = some w → w ≠ .notPresent → Filled Γ (SameTags d vals) f w)
    (h : structToStream Γ (n + 1) d vals ctx = (bs, .ok ())) :
    ∃ m r, (∀ pre rest, structFromStream Γ m d ⟨pre ++ bs ++ rest, pre.length⟩ ctx [] =
        (.ok r, ⟨pre ++ bs ++ rest, pre.length + bs.length⟩)) ∧
      (∀ res, EqReturns Γ (.struct c r) (.struct c vals) res → res = true) ∧
      (∀ res, EqReturns Γ (.struct c vals) (.struct c r) res → res = true) ∧
      (Listable Γ d r → Listable Γ d vals →
        EqReturns Γ (.struct c r) (.struct c vals) true ∧ EqReturns Γ (.struct c vals) (.struct c r) true) := by
  have hd := hΓ c d hcls
  obtain ⟨m, r, all', h3, h4, ⟨-, hsame⟩, h5, hir, h6, h7⟩ := optional_reload hΓ hd hh ha hc h
  obtain ⟨hpr, hdr⟩ := optional_comparable hir h4 hd.unique h5 h6 h7
  have hi := hh.inst
  have hdv : DefinedValues Γ vals all := definedValues_kept hd.unique hi hset (fun f hf hv =>
    absurd rfl (hh.fits f hf _ hv (by simp)).ne.2.1) ha
  have key : Listable Γ d r → Listable Γ d vals → ∀ res, EqReturns Γ (.struct c r) (.struct c vals) res ↔ res = true := by
    intro l1 l2 res
    rw [C59_equal_iff hcls hcls hir hi hpr hpv l1 l2 hdr hdv]
    simp [hsame]
  have lst : ∀ {a b : Dict} {res : Bool}, EqReturns Γ (.struct c a) (.struct c b) res → Listable Γ d a ∧ Listable Γ d b := by
    intro a b res he
    obtain ⟨k, w, w', h4, h5⟩ := eqReturns_struct_inv he
    exact ⟨comparableDict_listable hcls h4, comparableDict_listable hcls h5⟩
  refine ⟨m, r, h3, fun res he => ?_, fun res he => ?_, fun l1 l2 => ?_⟩
  · obtain ⟨l1, l2⟩ := lst he
    exact (key l1 l2 res).1 he
  · obtain ⟨l1, l2⟩ := lst he
    exact (key l2 l1 res).1 (C59_symmetric hcls hcls hi hir hpv hpr he)
  · have := (key l1 l2 true).2 rfl
    exact ⟨this, C59_symmetric hcls hcls hir hi hpr hpv this⟩

/-- **C104** `from_bytes(bytes(s)) == s.to_dict()` for classes with optional fields, whether or not all fields of `s` are set. -/
theorem C104_optional_equals_dict (Γ : Classes) (hΓ : ∀ c d, Γ c = some d → OptionalSchema Γ d) (n : Nat) (c : String) (d : StructDesc)
    (vals all : Dict) (ctx : Value) (bs : Bytes) (hcls : Γ c = some d) (hh : Bears Γ d vals) (ha : structToDict Γ n d vals = .ok all)
    (hdk : DistinctKeys (.dict all))
    (hc : ∀ f ∈ d.components, ∀ w, Dict.get? all f.name = some w → w ≠ .notPresent → Filled Γ (SameTags d vals) f w)
    (h : structToStream Γ (n + 1) d vals ctx = (bs, .ok ())) :
    ∃ m r, (∀ pre rest, structFromStream Γ m d ⟨pre ++ bs ++ rest, pre.length⟩ ctx [] =
        (.ok r, ⟨pre ++ bs ++ rest, pre.length + bs.length⟩)) ∧
      (Listable Γ d r → EqReturns Γ (.struct c r) (.dict all) true ∧ EqReturns Γ (.dict all) (.struct c r) true) := by
  have hd := hΓ c d hcls
  obtain ⟨m, r, all', h3, h4, ⟨-, hsame⟩, h5, hir, h6, h7⟩ := optional_reload hΓ hd hh ha hc h
  obtain ⟨hpr, hdr⟩ := optional_comparable hir h4 hd.unique h5 h6 h7
  obtain ⟨hnd, hn, hget⟩ := structToDict_get hd.unique hh.inst ha
  have hns : ∀ p ∈ all, NoStruct p.2 := by
    intro p hp
    obtain ⟨f, hf, hfn⟩ := List.mem_map.1 (hn p.1 (List.mem_map.2 ⟨p, hp, rfl⟩))
    have hg := Dict.get?_of_mem hnd hp
    rcases hget f hf with ⟨-, -, h8⟩ | ⟨-, v, w, -, h8, h9⟩
    · rw [hfn, hg] at h8; simp at h8
    · rw [hfn, hg] at h9; cases h9
      exact (recursiveToDicts_spec h8).1
  refine ⟨m, r, h3, fun l => ?_⟩
  have := C59_dict_iff (r := true) hcls hir hpr l hdr (.dict hns) hdk
  simp only [true_iff] at this
  exact ⟨this.1.2 hsame, this.2.2 hsame⟩

/-! ### Examples -/

/-- A list of two nodes: the second one has no value, and none after it. -/
def Sample.couple : Dict :=
  [("value", .int 5), ("more", .int 1), ("next", .struct "Node" [("value", .none), ("more", .int 0)])]

/-- `to_dict()` of the list of two nodes -/
def Sample.coupleDict : Dict :=
  [("value", .int 5), ("more", .int 1), ("next", .dict [("value", .none), ("more", .int 0), ("next", .notPresent)])]

theorem Sample.couple_bears : Bears Sample.nodeClasses Sample.node Sample.couple := by
  obtain ⟨repr, hnull⟩ := Sample.node_null
  have key : ∀ vals : Dict, (∀ w, Dict.get? vals "value" = some w → Fitting Sample.nodeClasses (fun _ => True) Sample.nodeValue w) →
      (∀ w, Dict.get? vals "more" = some w → Fitting Sample.nodeClasses (fun _ => True) Sample.nodeMore w) →
      (∀ w, Dict.get? vals "next" = some w → Fitting Sample.nodeClasses (fun _ => True) Sample.nodeNext w) →
      (∀ f ∈ Sample.node.components, Dict.get? vals f.name = some .notPresent → f.base.present (structView Sample.node vals) .none none = .ok false) ∧
      (∀ f ∈ Sample.node.components, ∀ w, Dict.get? vals f.name = some w → w ≠ .notPresent → Fitting Sample.nodeClasses (SameTags Sample.node vals) f w) := by
    intro vals h1 h2 h3
    have hall : ∀ f ∈ Sample.node.components, ∀ w, Dict.get? vals f.name = some w → Fitting Sample.nodeClasses (fun _ => True) f w := by
      intro f hf
      simp only [Sample.node, List.mem_cons, List.not_mem_nil, or_false] at hf
      rcases hf with rfl | rfl | rfl
      · exact h1
      · exact h2
      · exact h3
    exact ⟨fun f hf h => absurd rfl (hall f hf _ h).ne.2.2, fun f hf w h _ => (hall f hf w h).any⟩
  have hlast : Fitting Sample.nodeClasses (fun _ => True) Sample.nodeNext (.struct "Node" [("value", .none), ("more", .int 0)]) := by
    obtain ⟨h1, h2⟩ := key [("value", .none), ("more", .int 0)] (by rintro w h; cases h; exact .null (by simp) hnull)
      (by rintro w h; cases h; exact .leaf trivial (Or.inl rfl) (Or.inl rfl)) (by rintro w h; cases h)
    exact .struct (d := Sample.node) rfl (by unfold Instance; decide) h1 h2
  obtain ⟨h1, h2⟩ := key Sample.couple
    (by rintro w h; cases h; exact .leaf trivial (Or.inl rfl) (Or.inr ⟨repr, _, hnull, by simp, by simp [scalarEq]⟩))
    (by rintro w h; cases h; exact .leaf trivial (Or.inl rfl) (Or.inl rfl)) (by rintro w h; cases h; exact hlast)
  exact ⟨by unfold Instance; decide, h1, h2⟩

theorem Sample.node_assembled : ∀ f ∈ Sample.node.components, AssembledSources Sample.nodeClasses f := by
  intro f hf
  simp only [Sample.node, List.mem_cons, List.not_mem_nil, or_false] at hf
  rcases hf with rfl | rfl | rfl <;> exact ⟨fun v h => absurd rfl h, fun fn view v h => by cases h⟩

theorem Sample.couple_filled : ∀ f ∈ Sample.node.components, ∀ w, Dict.get? Sample.coupleDict f.name = some w → w ≠ .notPresent →
    Filled Sample.nodeClasses (SameTags Sample.node Sample.couple) f w := by
  refine C104_optional_structs Sample.nodeClasses Sample.nodeClasses_schema 11 Sample.node Sample.couple _ Sample.node_schema
    Sample.couple_bears ?_ Sample.node_assembled ?_ (by decide +kernel)
  · intro c d h
    unfold Sample.nodeClasses Classes.add at h
    split at h
    · cases h; exact Sample.node_assembled
    · simp [Sample.noClasses] at h
  · intro f hf w hw _
    simp only [Sample.node, List.mem_cons, List.not_mem_nil, or_false] at hf
    rcases hf with rfl | rfl | rfl
    · exact .leaf
    · exact .leaf
    · cases hw
      refine .struct (d := Sample.node) rfl fun g hg w hw _ => ?_
      simp only [Sample.node, List.mem_cons, List.not_mem_nil, or_false] at hg
      rcases hg with rfl | rfl | rfl
      · exact .leaf
      · exact .leaf
      · cases hw

theorem Sample.couple_set : KeptSet Sample.node Sample.couple := by
  intro f hf
  simp only [Sample.node, List.mem_cons, List.not_mem_nil, or_false] at hf
  rcases hf with rfl | rfl | rfl <;> exact Or.inl ⟨rfl, _, rfl, Or.inr (by decide)⟩

-- the loaded list has the same `to_dict()`, with `None` and `NOT_PRESENT` where they were
example : ∃ m r all', (∀ pre rest, structFromStream Sample.nodeClasses m Sample.node ⟨pre ++ [5, 0, 1, 255, 255, 0] ++ rest, pre.length⟩ .none [] =
        (.ok r, ⟨pre ++ [5, 0, 1, 255, 255, 0] ++ rest, pre.length + 6⟩)) ∧
      structToDict Sample.nodeClasses m Sample.node r = .ok all' ∧ Identical (.dict all') (.dict Sample.coupleDict) ∧
      Same (.dict all') (.dict Sample.coupleDict) :=
  C104_optional_to_dict Sample.nodeClasses Sample.nodeClasses_schema 11 Sample.node Sample.couple _ .none _ Sample.node_schema
    Sample.couple_bears (by decide +kernel) Sample.couple_filled (by decide +kernel)

theorem Sample.couple_values : ProperValues Sample.nodeClasses Sample.couple := by
  intro k v n w h1 h2
  have hall : recursiveToDicts Sample.nodeClasses 11 v = .ok v ∧ (v = .int 5 ∨ v = .int 1) ∨ recursiveToDicts Sample.nodeClasses 11 v =
      .ok (.dict [("value", .none), ("more", .int 0), ("next", .notPresent)]) := by
    have := Dict.get?_some_mem h1
    simp only [Sample.couple, List.mem_cons, Prod.mk.injEq, List.not_mem_nil, or_false] at this
    rcases this with ⟨-, rfl⟩ | ⟨-, rfl⟩ | ⟨-, rfl⟩
    · exact Or.inl ⟨rfl, Or.inl rfl⟩
    · exact Or.inl ⟨rfl, Or.inr rfl⟩
    · exact Or.inr (by decide +kernel)
  rcases hall with ⟨h3, h4⟩ | h3
  · rw [recursiveToDicts_det h2 h3]
    rcases h4 with rfl | rfl <;> exact .other (by simp) (by simp)
  · rw [recursiveToDicts_det h2 h3]
    refine .dict (by decide) fun p hp => ?_
    simp only [List.mem_cons, List.not_mem_nil, or_false] at hp
    rcases hp with rfl | rfl | rfl <;> exact .other (by simp) (by simp)

-- and it equals the list that was saved
example : ∃ m r, (∀ pre rest, structFromStream Sample.nodeClasses m Sample.node ⟨pre ++ [5, 0, 1, 255, 255, 0] ++ rest, pre.length⟩ .none [] =
        (.ok r, ⟨pre ++ [5, 0, 1, 255, 255, 0] ++ rest, pre.length + 6⟩)) ∧
      ∀ res, EqReturns Sample.nodeClasses (.struct "Node" r) (.struct "Node" Sample.couple) res → res = true := by
  obtain ⟨m, r, h1, h2, -⟩ := C104_optional_equal Sample.nodeClasses Sample.nodeClasses_schema 11 "Node" Sample.node Sample.couple _ .none
    [5, 0, 1, 255, 255, 0] rfl
    Sample.couple_bears Sample.couple_set Sample.couple_values (by decide +kernel) Sample.couple_filled (by decide +kernel)
  exact ⟨m, r, h1, h2⟩

/-- **C104** Fields that are not there must be `NOT_PRESENT`: if a value is set for such a field, it is not dumped, and the loaded struct
differs from the original - although the two `to_dict()` are equal. -/
theorem C104_absent_refuted :
    ∃ (Γ : Classes) (d : StructDesc) (vals r all : Dict) (bs : Bytes) (n : Nat), Γ d.name = some d ∧ Instance d vals ∧ AllSet d vals ∧
      (∀ f ∈ d.components, f.base.discard = false) ∧
      structToStream Γ n d vals .none = (bs, .ok ()) ∧ structFromStream Γ n d ⟨bs, 0⟩ .none [] = (.ok r, ⟨bs, bs.length⟩) ∧
      structToDict Γ n d vals = .ok all ∧ structToDict Γ n d r = .ok all ∧
      EqReturns Γ (.struct d.name r) (.struct d.name vals) false := by
  refine ⟨Sample.nodeClasses, Sample.node,
    [("value", .int 5), ("more", .int 0), ("next", .struct "Node" [("value", .none), ("more", .int 0), ("next", .notPresent)])],
    [("value", .int 5), ("more", .int 0), ("next", .notPresent)],
    [("value", .int 5), ("more", .int 0), ("next", .notPresent)], [5, 0, 0], 14, rfl, by unfold Instance; decide, fun f hf => ?_, by decide,
    by decide +kernel, by decide +kernel, by decide +kernel, by decide +kernel, 14, by decide +kernel⟩
  simp only [Sample.node, List.mem_cons, List.not_mem_nil, or_false] at hf
  rcases hf with rfl | rfl | rfl <;> exact ⟨_, rfl⟩

-- the comparison does return
example : pyEq Sample.nodeClasses 14 (.struct "Node" [("value", .int 5), ("more", .int 1),
      ("next", .struct "Node" [("value", .none), ("more", .int 0), ("next", .notPresent)])])
    (.struct "Node" Sample.couple) = .ok true := by decide +kernel

theorem Sample.parcel_filled (all : Dict) (data : Bytes) : ∀ f ∈ Sample.parcel.components, ∀ w, Dict.get? all f.name = some w → w ≠ .notPresent →
    Filled Sample.noClasses (SameTags Sample.parcel [("data", .bytes data)]) f w := by
  intro f hf w _ _
  simp only [Sample.parcel, List.mem_cons, List.not_mem_nil, or_false] at hf
  rcases hf with rfl | rfl | rfl | rfl | rfl <;> exact .leaf

-- a parcel: magic number and padding are in neither dictionary, the computed size is in both
example : ∃ m r all', (∀ pre rest, structFromStream Sample.noClasses m Sample.parcel ⟨pre ++ [80, 75, 1, 3, 0, 7, 8, 9] ++ rest, pre.length⟩ .none [] =
        (.ok r, ⟨pre ++ [80, 75, 1, 3, 0, 7, 8, 9] ++ rest, pre.length + 8⟩)) ∧
      structToDict Sample.noClasses m Sample.parcel r = .ok all' ∧
      Identical (.dict all') (.dict [("data", .bytes [7, 8, 9]), ("version", .int 1), ("n", .int 3)]) ∧
      Same (.dict all') (.dict [("data", .bytes [7, 8, 9]), ("version", .int 1), ("n", .int 3)]) :=
  C104_optional_to_dict Sample.noClasses (fun c d h => by simp [Sample.noClasses] at h) 9 Sample.parcel [("data", .bytes [7, 8, 9])] _ .none _
    Sample.parcel_schema (Sample.parcel_bears _) (by decide +kernel) (Sample.parcel_filled _ _) (by decide +kernel)

theorem Sample.pointCell_filled : ∀ f ∈ Sample.cell.components, ∀ w, Dict.get? Sample.pointCell f.name = some w → w ≠ .notPresent →
    Filled Sample.cellClasses (SameTags Sample.cell Sample.pointCell) f w := by
  intro f hf w hw _
  simp only [Sample.cell, List.mem_cons, List.not_mem_nil, or_false] at hf
  rcases hf with rfl | rfl
  · exact .leaf
  · cases hw
    have hk : ∀ all, SameTags Sample.cell Sample.pointCell all → Sample.byKind all = .ok 2 := by
      intro all h
      have := h "kind" (.int 2) ⟨_, _, .head _, rfl, ⟨fun _ _ _ => rfl, rfl⟩, rfl, traceable_of_none rfl⟩ rfl
      simp [Sample.byKind, this]
    refine .union ?_ ?_
    · intro v ctx all i g h1 h2 h3
      rw [hk all h1] at h2
      cases h2
      simp [Sample.cellChoices] at h3
    · intro v ctx all i cls h1 h2 h3
      rw [hk all h1] at h2
      cases h2
      simp [Sample.cellChoices] at h3
      subst h3
      refine .dict (d := Sample.point) rfl (by decide) ?_
      intro f hf w hw _
      simp only [Sample.point, List.mem_cons, List.not_mem_nil, or_false] at hf
      rcases hf with rfl | rfl <;> exact .leaf

-- a tagged union, equal to its own `to_dict()`
example : ∃ m r, (∀ pre rest, structFromStream Sample.cellClasses m Sample.cell ⟨pre ++ [2, 3, 0, 254, 255] ++ rest, pre.length⟩ .none [] =
        (.ok r, ⟨pre ++ [2, 3, 0, 254, 255] ++ rest, pre.length + 5⟩)) ∧
      (Listable Sample.cellClasses Sample.cell r → EqReturns Sample.cellClasses (.struct "Cell" r) (.dict Sample.pointCell) true ∧
        EqReturns Sample.cellClasses (.dict Sample.pointCell) (.struct "Cell" r) true) :=
  C104_optional_equals_dict Sample.cellClasses Sample.cellClasses_schema 9 "Cell" Sample.cell Sample.pointCell _ .none _ rfl
    Sample.pointCell_bears (by decide +kernel) (by
      refine .dict (by decide) fun p hp => ?_
      simp only [Sample.pointCell, List.mem_cons, List.not_mem_nil, or_false] at hp
      rcases hp with rfl | rfl
      · exact .other (by simp) (by simp)
      · refine .dict (by decide) fun p hp => ?_
        simp only [List.mem_cons, List.not_mem_nil, or_false] at hp
        rcases hp with rfl | rfl <;> exact .other (by simp) (by simp))
    Sample.pointCell_filled (by decide +kernel)

end Verif
