import Verif.Props.Annotate
import Verif.Proofs.Placed

/-!
# C77: annotated subclasses
-/

namespace Verif

open Spec

theorem setEndian_unplaced (f : Field) (e : Endian) : unplaced (f.setEndian e) = (unplaced f).setEndian e := by
  cases f with
  | leaf b k => cases k <;> rfl
  | array => rfl
  | nested => rfl
  | union => rfl

/-- Binding a field does the same wherever it is. -/
theorem bind_unplaced (defaults : List (String × Endian)) (f : Field) (name : String) (i i' : Nat) (o o' : Option Int) :
    (bindToContainer defaults f name i o).map unplaced = (bindToContainer defaults f name i' o').map unplaced := by
  simp only [bindToContainer]
  cases maybeAssignName f name with
  | error e => rfl
  | ok f =>
    have h : ∀ i o, unplaced (f.withBase { f.base with index := i, offset := o }) = unplaced f := by
      intro i o; cases f <;> rfl
    have h2 : ∀ i o, overridingDefault (f.withBase { f.base with index := i, offset := o }).base defaults "endian" =
        overridingDefault f.base defaults "endian" := by
      intro i o; cases f <;> rfl
    simp only [h2]
    cases overridingDefault f.base defaults "endian" with
    | none => simp [Except.map, h]
    | some e => simp [Except.map, setEndian_unplaced, h]

theorem any_unplaced {comps comps' : List Field} (h : comps'.map unplaced = comps.map unplaced) (name : String) :
    comps'.any (fun g => g.name = name) = comps.any (fun g => g.name = name) := by
  have : ∀ l : List Field, l.any (fun g => g.name = name) = (l.map unplaced).any (fun g => g.name = name) := by
    intro l
    simp [List.any_map, Function.comp_def, unplaced_name]
  rw [this, this comps, h]

/-- The two loops make the same fields, but for their places. -/
theorem collect_unplaced {Γ : Classes} {n : Nat} {defaults : List (String × Endian)} {hints : List Hint} {fs : List (String × Field)}
    {methods : List (String × ClassItem)} (hs : SameFields Γ n hints fs) (hm : OnlyStructValidators methods) :
    ∀ (comps comps' : List Field) (i : Nat) (o o' : Option Int) (k : Nat), comps'.map unplaced = comps.map unplaced →
    (collectAnnotated Γ n defaults hints comps' i o').map (fun r => (r.1.map unplaced, r.2.1 + k)) =
      (collectAssignedFields defaults (assignments fs ++ methods) comps o k).map (fun r => (r.1.map unplaced, r.2 + i)) := by
  induction hs with
  | nil =>
    intro comps comps' i o o' k h
    show _ = (collectAssignedFields defaults methods comps o k).map _
    rw [collectAssigned_noFields hm.noAssignments]
    simp [collectAnnotated, Except.map, h, Nat.add_comm]
  | ignored ho _ ih =>
    intro comps comps' i o o' k h
    simp only [collectAnnotated, derivedFields_other ho]
    exact ih comps comps' i o o' k h
  | @field hh hs fs pre post a f ha ho hsf _ ih =>
    intro comps comps' i o o' k h
    show _ = (collectAssignedFields defaults ((hh.name, .field f) :: (assignments fs ++ methods)) comps o k).map _
    simp only [collectAnnotated, ha, derivedFields_one ho hsf, collectAssignedFields, any_unplaced h]
    split
    · rfl
    · have hb := bind_unplaced defaults f hh.name i comps.length o' o
      cases h1 : bindToContainer defaults f hh.name i o' with
      | error e =>
        rw [h1] at hb
        cases h2 : bindToContainer defaults f hh.name comps.length o with
        | error e' => rw [h2] at hb; simp only [Except.map, Except.error.injEq] at hb; subst hb; rfl
        | ok g => rw [h2] at hb; cases hb
      | ok g =>
        rw [h1] at hb
        cases h2 : bindToContainer defaults f hh.name comps.length o with
        | error e' => rw [h2] at hb; cases hb
        | ok g' =>
          rw [h2] at hb
          simp only [Except.map, Except.ok.injEq] at hb
          have := ih (comps ++ [g']) (comps' ++ [g]) (i + 1) (nextOffset o g'.base.size) (nextOffset o' g.base.size) (k + 1) (by simp [h, hb])
          cases h3 : collectAnnotated Γ n defaults hs (comps' ++ [g]) (i + 1) (nextOffset o' g.base.size) with
          | error e =>
            rw [h3] at this
            cases h4 : collectAssignedFields defaults (assignments fs ++ methods) (comps ++ [g']) (nextOffset o g'.base.size) (k + 1) with
            | error e' => rw [h4] at this; simp only [h3, h4]; simpa [Except.map] using this
            | ok r => rw [h4] at this; cases this
          | ok r =>
            rw [h3] at this
            cases h4 : collectAssignedFields defaults (assignments fs ++ methods) (comps ++ [g']) (nextOffset o g'.base.size) (k + 1) with
            | error e' => rw [h4] at this; cases this
            | ok r' =>
              rw [h4] at this
              simp only [h3, h4]
              simp only [Except.map, Except.ok.injEq, Prod.mk.injEq] at this ⊢
              exact ⟨this.1, by omega⟩

/-- The base class of the assigning class keeps its validators. -/
theorem initialValidators_keeps {fs : List (String × Field)} {methods : List (String × ClassItem)} (hm : NoAssignments methods)
    {fv : List (String × List (View → Value → Except Err Unit))} {p : String × List (View → Value → Except Err Unit)} (hp : p ∈ fv)
    (hn : ∀ q ∈ fs, q.1 ≠ p.1) : p ∈ initialValidators fv (assignments fs ++ methods) := by
  unfold initialValidators
  rw [List.foldl_append]
  have := initialValidators_noFields hm
  unfold initialValidators at this
  rw [this]
  induction fs generalizing fv with
  | nil => exact hp
  | cons q fs ih =>
    simp only [assignments, List.map_cons, List.foldl_cons]
    refine ih ?_ (fun x hx => hn x (List.mem_cons_of_mem _ hx))
    have := hn q List.mem_cons_self
    simp [hp, this.symm]

/-- Fields that were added have other names than those that were there. -/
theorem collectAssigned_new {defaults : List (String × Endian)} {fs : List (String × Field)} {methods : List (String × ClassItem)}
    {comps out : List Field} {o : Option Int} {k m : Nat}
    (h : collectAssignedFields defaults (assignments fs ++ methods) comps o k = .ok (out, m)) :
    ∀ q ∈ fs, ∀ g ∈ comps, g.name ≠ q.1 := by
  induction fs generalizing comps o k with
  | nil => simp
  | cons p fs ih =>
    have h' : collectAssignedFields defaults ((p.1, .field p.2) :: (assignments fs ++ methods)) comps o k = .ok (out, m) := h
    simp only [collectAssignedFields] at h'
    split at h'
    · cases h'
    · rename_i hno
      split at h'
      · cases h'
      · intro q hq g hg
        rcases List.mem_cons.1 hq with rfl | hq
        · intro he
          exact hno (List.any_eq_true.2 ⟨g, hg, by simpa using he⟩)
        · exact ih h' q hq g (List.mem_append_left _ hg)

/-- **C77** (partial: no validator methods for single fields) A class with a base class, made with annotations, has exactly the fields — names,
order, types, options, byte orders — that it has when it assigns the fields the annotations stand for; and it is rejected with the same error if
that class is.  Only the places (index and offset) that its own fields claim to have are different, see C25. -/
theorem C77_subclass_layout_partial (Γ : Classes) (n : Nat) (name base : String) (metaOpts : Option (List (String × Endian))) (hints : List Hint)
    (fs : List (String × Field)) (methods : List (String × ClassItem)) (d0 : StructDesc) (hs : SameFields Γ n hints fs) (hne : fs ≠ [])
    (hm : OnlyStructValidators methods)
    (h0 : fromClass Γ n { name := name, bases := [base], body := methods, metaOpts := metaOpts } = .ok d0) :
    (∀ d, fromClass Γ n { name := name, bases := [base], body := assignments fs ++ methods, metaOpts := metaOpts } = .ok d →
      ∃ d', pep526Dataclass Γ n d0 hints = .ok d' ∧ d'.name = d.name ∧ d'.components.map unplaced = d.components.map unplaced ∧
        d'.structValidators = d.structValidators ∧ d'.numOwnFields = d.numOwnFields ∧ d'.argumentDefaults = d.argumentDefaults ∧
        d'.metaOpts = d.metaOpts ∧
        (∀ b, Γ base = some b → (∀ p ∈ b.fieldValidators, p.1 ∈ names b) → ∀ p ∈ d'.fieldValidators, p ∈ d.fieldValidators)) ∧
    (∀ e, fromClass Γ n { name := name, bases := [base], body := assignments fs ++ methods, metaOpts := metaOpts } = .error e →
      pep526Dataclass Γ n d0 hints = .error e) := by
  simp only [fromClass] at h0 ⊢
  cases hb : Γ base with
  | none => rw [hb] at h0; cases h0
  | some b =>
    simp only [hb] at h0 ⊢
    cases hz : structGetSize Γ n b [] with
    | error e => simp only [hz] at h0; cases h0
    | ok size =>
      simp only [hz, fromClassWith] at h0 ⊢
      rw [collectAssigned_noFields hm.noAssignments, initialValidators_noFields hm.noAssignments] at h0
      simp only [bindValidators_struct hm] at h0
      cases h0
      have key := collect_unplaced (defaults := (metaOpts.or b.metaOpts).getD []) hs hm b.components b.components 0 size (some 0) 0 rfl
      simp only [pep526Dataclass, Nat.not_lt_zero, gt_iff_lt, if_false, bindValidators_skip, bindValidators_struct hm]
      cases hc : collectAssignedFields ((metaOpts.or b.metaOpts).getD []) (assignments fs ++ methods) b.components size 0 with
      | error e =>
        rw [hc] at key
        cases hd : collectAnnotated Γ n ((metaOpts.or b.metaOpts).getD []) hints b.components 0 (some 0) with
        | error e' =>
          rw [hd] at key
          simp only [Except.map, Except.error.injEq] at key
          subst key
          simp
        | ok r => rw [hd] at key; cases key
      | ok r =>
        obtain ⟨out, m⟩ := r
        have hl := collectAssigned_length hc
        rw [hc] at key
        cases hd : collectAnnotated Γ n ((metaOpts.or b.metaOpts).getD []) hints b.components 0 (some 0) with
        | error e' => rw [hd] at key; cases key
        | ok r =>
          obtain ⟨out', m', o'⟩ := r
          rw [hd] at key
          simp only [Except.map, Except.ok.injEq, Prod.mk.injEq, Nat.add_zero] at key
          obtain ⟨key, rfl⟩ := key
          have hpos : m' ≠ 0 := by
            obtain ⟨new, -, h2, -⟩ := collect_ok hc
            cases fs with
            | nil => exact absurd rfl hne
            | cons p fs =>
              have : (ownFields (assignments (p :: fs) ++ methods)).length = (ownFields (assignments fs ++ methods)).length + 1 := rfl
              omega
          refine ⟨?_, by simp⟩
          intro d hd'
          cases hd'
          simp only [hpos, if_false]
          refine ⟨_, rfl, rfl, key, rfl, rfl, rfl, rfl, ?_⟩
          rintro b' ⟨⟩ hbv p hp
          refine initialValidators_keeps hm.noAssignments hp fun q hq => ?_
          obtain ⟨f, hf, hfn⟩ := List.mem_map.1 (hbv p hp)
          rw [← hfn]
          exact (collectAssigned_new hc q hq f hf).symm

theorem Valid_fewer {d d' : StructDesc} (h : d'.components = d.components) (hs : d'.structValidators = d.structValidators)
    (hf : ∀ p ∈ d'.fieldValidators, p ∈ d.fieldValidators) {vals : Dict} (hv : Valid d vals) : Valid d' vals := by
  refine ⟨fun p hp => ?_, ?_⟩
  · obtain ⟨f, v, h1, h2, h3, h4⟩ := hv.1 p (hf p hp)
    refine ⟨f, v, ?_, ?_, h3, ?_⟩
    · unfold StructDesc.find? at h1 ⊢; rw [h]; exact h1
    · rw [structGetItem_components h]; exact h2
    · rw [structView_components h]; exact h4
  · rw [hs, structView_components h]
    exact hv.2

/-- **C77** (partial: as above) They write the same bytes and read the same values: whatever the assigning class dumps or loads successfully, the
annotated class dumps or loads with the same result.  Where only the annotated class succeeds, the instance does not meet the validators of the
assigning class. -/
theorem C77_subclass_same_bytes_partial (Γ : Classes) (n : Nat) (name base : String) (metaOpts : Option (List (String × Endian)))
    (hints : List Hint) (fs : List (String × Field)) (methods : List (String × ClassItem)) (b d0 d d' : StructDesc)
    (hs : SameFields Γ n hints fs) (hne : fs ≠ []) (hm : OnlyStructValidators methods) (hb : Γ base = some b)
    (hbv : ∀ p ∈ b.fieldValidators, p.1 ∈ names b)
    (h0 : fromClass Γ n { name := name, bases := [base], body := methods, metaOpts := metaOpts } = .ok d0)
    (hd : fromClass Γ n { name := name, bases := [base], body := assignments fs ++ methods, metaOpts := metaOpts } = .ok d)
    (hd' : pep526Dataclass Γ n d0 hints = .ok d') :
    (∀ m vals ctx bs, structToStream Γ (m + 1) d vals ctx = (bs, .ok ()) → structToStream Γ (m + 1) d' vals ctx = (bs, .ok ())) ∧
    (∀ m vals ctx bs, structToStream Γ (m + 1) d' vals ctx = (bs, .ok ()) →
      structToStream Γ (m + 1) d vals ctx = (bs, .ok ()) ∨ ¬ Valid d vals) ∧
    (∀ m s ctx kw vals s', structFromStream Γ (m + 1) d s ctx kw = (.ok vals, s') →
      structFromStream Γ (m + 1) d' s ctx kw = (.ok vals, s')) ∧
    (∀ m s ctx kw vals s', structFromStream Γ (m + 1) d' s ctx kw = (.ok vals, s') →
      structFromStream Γ (m + 1) d s ctx kw = (.ok vals, s') ∨
        ∃ results, Loads Γ m ctx d.components kw s results s' ∧ ¬ Valid d results) := by
  obtain ⟨d2, h1, -, hc, hsv, -, -, -, hfv⟩ := (C77_subclass_layout_partial Γ n name base metaOpts hints fs methods d0 hs hne hm h0).1 d hd
  rw [hd'] at h1
  cases h1
  replace hfv := hfv b hb hbv
  -- with the places of all fields forgotten, the two classes have the same components
  have hc : (unplacedClass d').components = (unplacedClass d).components := hc
  have hdrop : ∀ r, dropDiscarded (unplacedClass d') r = dropDiscarded (unplacedClass d) r := by intro r; unfold dropDiscarded; rw [hc]
  have hnames : names (unplacedClass d') = names (unplacedClass d) := by unfold names; rw [hc]
  have hvalid : ∀ {vals}, Valid (unplacedClass d) vals → Valid (unplacedClass d') vals := fun hv => Valid_fewer hc hsv hfv hv
  refine ⟨?_, ?_, ?_, ?_⟩
  · intro m vals ctx bs h
    rw [← structToStream_unplaced] at h ⊢
    obtain ⟨hv, all, ha, ps, hp, rfl⟩ := structToStream_ok_iff.1 h
    exact structToStream_ok_iff.2 ⟨hvalid hv, all, by rw [structToDict_components hc]; exact ha, ps, by rw [hc]; exact hp, rfl⟩
  · intro m vals ctx bs h
    rw [← structToStream_unplaced] at h ⊢
    obtain ⟨hv, all, ha, ps, hp, rfl⟩ := structToStream_ok_iff.1 h
    rw [structToDict_components hc] at ha
    rw [hc] at hp
    by_cases hval : Valid d vals
    · exact .inl (structToStream_ok_iff.2 ⟨Valid_unplaced.2 hval, all, ha, ps, hp, rfl⟩)
    · exact .inr hval
  · intro m s ctx kw vals s' h
    rw [← structFromStream_unplaced] at h ⊢
    obtain ⟨r, hl, hk, hv, rfl⟩ := structFromStream_ok_iff.1 h
    exact structFromStream_ok_iff.2 ⟨r, by rw [hc]; exact hl, by rw [hnames]; exact hk, hvalid hv, (hdrop r).symm⟩
  · intro m s ctx kw vals s' h
    rw [← structFromStream_unplaced] at h ⊢
    obtain ⟨r, hl, hk, hv, rfl⟩ := structFromStream_ok_iff.1 h
    rw [hc] at hl
    rw [hnames] at hk
    by_cases hval : Valid d r
    · exact .inl (structFromStream_ok_iff.2 ⟨r, hl, hk, Valid_unplaced.2 hval, hdrop r⟩)
    · exact .inr ⟨r, Loads_unplaced.1 hl, hval⟩

/-- `class Base: x = UInt16(); y = Array(UInt8(), count=2)`. -/
def Sample.assignedBase : StructDesc :=
  { name := "Base", components := [.leaf { name := "x", typeName := "UInt16", size := .fixed 2 } (.integer false .big), Sample.array "y" (Sample.u8 "") (.fixed 2)]
    fieldValidators := [("x", [fun _ v => if v = .int 0 then .error (.validation "x") else .ok ()]), ("y", [])], numOwnFields := 2 }

def Sample.baseOnly : Classes := Sample.noClasses.add Sample.assignedBase

-- the fields of `Sample.hints` added to `Base`, in both ways
example : ∃ d0 d d', fromClass Sample.baseOnly 3 { name := "S", bases := ["Base"], body := [] } = .ok d0 ∧
    fromClass Sample.baseOnly 3 { name := "S", bases := ["Base"], body := assignments Sample.hintedFields } = .ok d ∧
    pep526Dataclass Sample.baseOnly 3 d0 Sample.hints = .ok d' ∧ SameFields Sample.baseOnly 3 Sample.hints Sample.hintedFields ∧
    (∀ p ∈ Sample.assignedBase.fieldValidators, p.1 ∈ names Sample.assignedBase) ∧
    structToStream Sample.baseOnly 6 d [("x", .int 258), ("y", .list [.int 3, .int 4]), ("a", .int 1)] .none = ([1, 2, 3, 4, 1, 7], .ok ()) ∧
    structToStream Sample.baseOnly 6 d' [("x", .int 258), ("y", .list [.int 3, .int 4]), ("a", .int 1)] .none = ([1, 2, 3, 4, 1, 7], .ok ()) ∧
    -- the validators of the base are run
    (∃ e, structToStream Sample.baseOnly 6 d' [("x", .int 0), ("y", .list [.int 3, .int 4]), ("a", .int 1)] .none = ([], .error e)) ∧
    -- the places are different
    d.components.map (fun f => (f.base.index, f.base.offset)) ≠ d'.components.map (fun f => (f.base.index, f.base.offset)) :=
  ⟨_, _, _, rfl, rfl, rfl,
    .field (pre := [.other]) (post := []) rfl (by simp) (.fieldClass rfl)
      (.ignored (by simp) (.field (pre := []) (post := []) rfl (by simp) (.optional rfl) .nil)),
    by decide, by decide, by decide, ⟨_, rfl⟩, by decide⟩

end Verif
