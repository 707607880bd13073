import Verif.Spec.Annotate
import Verif.Props.Class
import Verif.Props.StructLoad

/-!
# C77: annotated classes and assigned classes
-/

namespace Verif

open Spec

/-! ### Auxiliary -/

theorem derivedFields_good {Γ : Classes} {n : Nat} {name : String} {fallback : Value} {as : List Annotation}
    (h : ∀ a ∈ as, a ≠ .badUnion) : derivedFields Γ n name fallback as = makeFields Γ n name fallback as := by
  rw [derivedFields, if_neg]
  rw [List.any_eq_true]
  rintro ⟨a, ha, hb⟩
  cases a <;> simp [Annotation.isBadUnion] at hb
  exact h _ ha rfl

theorem makeFields_other {Γ : Classes} {n : Nat} {name : String} {fallback : Value} {as : List Annotation}
    (h : ∀ a ∈ as, a = .other) : makeFields Γ n name fallback as = .ok [] := by
  induction as with
  | nil => rfl
  | cons a as ih =>
    rw [h a (by simp)]
    simp only [makeFields, Annotation.makeField, ih fun x hx => h x (by simp [hx])]
    rfl

theorem derivedFields_other {Γ : Classes} {n : Nat} {name : String} {fallback : Value} {as : List Annotation}
    (h : ∀ a ∈ as, a = .other) : derivedFields Γ n name fallback as = .ok [] := by
  rw [derivedFields_good (fun a ha => by simp [h a ha]), makeFields_other h]

theorem makeFields_skip {Γ : Classes} {n : Nat} {name : String} {fallback : Value} {pre as : List Annotation}
    (h : ∀ a ∈ pre, a = .other) : makeFields Γ n name fallback (pre ++ as) = makeFields Γ n name fallback as := by
  induction pre with
  | nil => rfl
  | cons a pre ih =>
    rw [h a (by simp)]
    simp only [List.cons_append, makeFields, Annotation.makeField, ih fun x hx => h x (by simp [hx])]
    cases makeFields Γ n name fallback as <;> rfl

theorem StandsFor_makeField {Γ : Classes} {n : Nat} {name : String} {fallback : Value} {a : Annotation} {f : Field}
    (h : StandsFor Γ n name fallback a f) : a.makeField Γ n name fallback = .ok (some f) := by
  cases h with
  | fieldClass h => simp [Annotation.makeField, h, Except.map]
  | optional h => simp [Annotation.makeField, h, Except.map]
  | fieldInstance => rfl
  | structClass h => simp [Annotation.makeField, h, Except.map]

theorem StandsFor_good {Γ : Classes} {n : Nat} {name : String} {fallback : Value} {a : Annotation} {f : Field}
    (h : StandsFor Γ n name fallback a f) : a ≠ .badUnion := by
  cases h <;> simp

theorem makeFields_one {Γ : Classes} {n : Nat} {name : String} {fallback : Value} {pre post : List Annotation} {a : Annotation} {f : Field}
    (ho : ∀ x ∈ pre ++ post, x = .other) (h : StandsFor Γ n name fallback a f) :
    makeFields Γ n name fallback (pre ++ a :: post) = .ok [f] := by
  rw [makeFields_skip fun x hx => ho x (by simp [hx])]
  simp only [makeFields, StandsFor_makeField h, makeFields_other (as := post) fun x hx => ho x (by simp [hx])]
  rfl

theorem derivedFields_one {Γ : Classes} {n : Nat} {name : String} {fallback : Value} {pre post : List Annotation} {a : Annotation} {f : Field}
    (ho : ∀ x ∈ pre ++ post, x = .other) (h : StandsFor Γ n name fallback a f) :
    derivedFields Γ n name fallback (pre ++ a :: post) = .ok [f] := by
  rw [derivedFields_good, makeFields_one ho h]
  intro x hx
  simp only [List.mem_append, List.mem_cons] at hx ho
  rcases hx with hx | rfl | hx
  · simp [ho x (.inl hx)]
  · exact StandsFor_good h
  · simp [ho x (.inr hx)]

/-- The two loops do the same. -/
theorem collect_same {Γ : Classes} {n : Nat} {defaults : List (String × Endian)} {hints : List Hint} {fs : List (String × Field)}
    {methods : List (String × ClassItem)} (hs : SameFields Γ n hints fs) (hm : OnlyStructValidators methods) :
    ∀ (comps : List Field) (offset : Option Int) (k : Nat),
    (collectAnnotated Γ n defaults hints comps comps.length offset).map (fun r => (r.1, r.2.1)) =
      (collectAssignedFields defaults (assignments fs ++ methods) comps offset k).map (fun r => (r.1, r.1.length)) := by
  have skip : ∀ (methods : List (String × ClassItem)), OnlyStructValidators methods → ∀ comps offset k,
      collectAssignedFields defaults methods comps offset k = .ok (comps, k) := by
    intro methods hm
    induction methods with
    | nil => intro comps offset k; rfl
    | cons p ms ih =>
      intro comps offset k
      obtain ⟨fn, hp⟩ := hm p (by simp)
      obtain ⟨nm, it⟩ := p
      cases hp
      simp only [collectAssignedFields]
      exact ih (fun q hq => hm q (by simp [hq])) comps offset k
  induction hs with
  | nil =>
    intro comps offset k
    show _ = (collectAssignedFields defaults methods comps offset k).map _
    rw [skip methods hm]
    simp [collectAnnotated, Except.map]
  | ignored ho _ ih =>
    intro comps offset k
    simp only [collectAnnotated, derivedFields_other ho]
    exact ih comps offset k
  | @field h hs fs pre post a f ha ho hsf _ ih =>
    intro comps offset k
    show _ = (collectAssignedFields defaults ((h.name, .field f) :: (assignments fs ++ methods)) comps offset k).map _
    simp only [collectAnnotated, ha, derivedFields_one ho hsf, collectAssignedFields]
    split
    · rfl
    · cases bindToContainer defaults f h.name comps.length offset with
      | error e => rfl
      | ok g =>
        have := ih (comps ++ [g]) (nextOffset offset g.base.size) (k + 1)
        simpa using this

theorem collectAssigned_length {defaults : List (String × Endian)} {body : List (String × ClassItem)} {comps out : List Field}
    {offset : Option Int} {k m : Nat} (h : collectAssignedFields defaults body comps offset k = .ok (out, m)) :
    out.length + k = comps.length + m := by
  induction body generalizing comps offset k with
  | nil => simp only [collectAssignedFields] at h; cases h; rfl
  | cons p body ih =>
    obtain ⟨nm, it⟩ := p
    cases it with
    | field f =>
      simp only [collectAssignedFields] at h
      split at h
      · cases h
      · split at h
        · cases h
        · have := ih h
          simp at this
          omega
    | validator a b => simp only [collectAssignedFields] at h; exact ih h
    | structValidator a => simp only [collectAssignedFields] at h; exact ih h

theorem bindValidators_skip {fs : List (String × Field)} {methods : List (String × ClassItem)}
    {fv : List (String × List (View → Value → Except Err Unit))} {sv : List (View → Except Err Unit)} :
    bindValidators (assignments fs ++ methods) fv sv = bindValidators methods fv sv := by
  induction fs with
  | nil => rfl
  | cons p fs ih => exact ih

theorem bindValidators_struct {methods : List (String × ClassItem)} (hm : OnlyStructValidators methods)
    (fv : List (String × List (View → Value → Except Err Unit))) (sv : List (View → Except Err Unit)) :
    bindValidators methods fv sv = .ok (fv, sv ++ ownStructValidators methods) := by
  induction methods generalizing sv with
  | nil => simp [bindValidators, ownStructValidators]
  | cons p ms ih =>
    obtain ⟨fn, hp⟩ := hm p (by simp)
    obtain ⟨nm, it⟩ := p
    cases hp
    simp only [bindValidators, ownStructValidators]
    rw [ih (fun q hq => hm q (by simp [hq]))]
    simp

theorem initialValidators_noFields {methods : List (String × ClassItem)} (hm : NoAssignments methods)
    (fv : List (String × List (View → Value → Except Err Unit))) : initialValidators fv methods = fv := by
  unfold initialValidators
  induction methods generalizing fv with
  | nil => rfl
  | cons p ms ih =>
    obtain ⟨nm, it⟩ := p
    rw [List.foldl_cons]
    cases it with
    | field f => exact absurd rfl (hm (nm, .field f) (by simp) f)
    | validator a b => exact ih (fun q hq => hm q (by simp [hq])) fv
    | structValidator a => exact ih (fun q hq => hm q (by simp [hq])) fv

theorem collectAssigned_noFields {defaults : List (String × Endian)} {methods : List (String × ClassItem)} (hm : NoAssignments methods)
    (comps : List Field) (offset : Option Int) (k : Nat) : collectAssignedFields defaults methods comps offset k = .ok (comps, k) := by
  induction methods with
  | nil => rfl
  | cons p ms ih =>
    obtain ⟨nm, it⟩ := p
    cases it with
    | field f => exact absurd rfl (hm (nm, .field f) (by simp) f)
    | validator a b => simp only [collectAssignedFields]; exact ih (fun q hq => hm q (by simp [hq]))
    | structValidator a => simp only [collectAssignedFields]; exact ih (fun q hq => hm q (by simp [hq]))

theorem Spec.OnlyStructValidators.noAssignments {methods : List (String × ClassItem)} (hm : OnlyStructValidators methods) :
    NoAssignments methods := by
  intro p hp f hf
  obtain ⟨fn, h⟩ := hm p hp
  rw [h] at hf
  cases hf

/-! ### The layout -/

/-- **C77** (partial: no base class, no validator methods for single fields) Applying `dataclass` to a class with annotations gives a class with
exactly the fields — names, order, types, options, byte orders, offsets — that a class has that assigns the fields the annotations stand for; and
it is rejected with the same error if that class is. -/
theorem C77_same_layout_partial (Γ : Classes) (n : Nat) (name : String) (metaOpts : Option (List (String × Endian))) (hints : List Hint)
    (fs : List (String × Field)) (methods : List (String × ClassItem)) (d0 : StructDesc) (hs : SameFields Γ n hints fs) (hne : fs ≠ [])
    (hm : OnlyStructValidators methods) (h0 : fromClass Γ n { name := name, body := methods, metaOpts := metaOpts } = .ok d0) :
    (∀ d, fromClass Γ n { name := name, body := assignments fs ++ methods, metaOpts := metaOpts } = .ok d →
      ∃ d', pep526Dataclass Γ n d0 hints = .ok d' ∧ d'.name = d.name ∧ d'.components = d.components ∧
        d'.structValidators = d.structValidators ∧ d'.numOwnFields = d.numOwnFields ∧ d'.argumentDefaults = d.argumentDefaults ∧
        d'.metaOpts = d.metaOpts ∧ d'.fieldValidators = []) ∧
    (∀ e, fromClass Γ n { name := name, body := assignments fs ++ methods, metaOpts := metaOpts } = .error e →
      pep526Dataclass Γ n d0 hints = .error e) := by
  simp only [fromClass, fromClassWith] at h0 ⊢
  rw [collectAssigned_noFields hm.noAssignments, initialValidators_noFields hm.noAssignments, bindValidators_struct hm] at h0
  simp only [List.nil_append, Option.or_none] at h0 ⊢
  cases h0
  have key := collect_same (defaults := metaOpts.getD []) hs hm [] (some 0) 0
  simp only [pep526Dataclass, Nat.not_lt_zero, gt_iff_lt, if_false, bindValidators_skip]
  rw [bindValidators_struct hm]
  simp only [List.nil_append]
  cases hc : collectAssignedFields (metaOpts.getD []) (assignments fs ++ methods) [] (some 0) 0 with
  | error e =>
    rw [hc] at key
    simp only [List.length_nil, Except.map] at key
    cases hd : collectAnnotated Γ n (metaOpts.getD []) hints [] 0 (some 0) with
    | error e' =>
      rw [hd] at key
      simp only [Except.error.injEq] at key
      subst key
      simp
    | ok r => rw [hd] at key; cases key
  | ok r =>
    obtain ⟨out, m⟩ := r
    have hl := collectAssigned_length hc
    rw [hc] at key
    simp only [List.length_nil, Except.map] at key
    cases hd : collectAnnotated Γ n (metaOpts.getD []) hints [] 0 (some 0) with
    | error e' => rw [hd] at key; cases key
    | ok r =>
      obtain ⟨out', j, p⟩ := r
      rw [hd] at key
      simp only [Except.ok.injEq, Prod.mk.injEq] at key
      obtain ⟨rfl, rfl⟩ := key
      have hpos : out'.length ≠ 0 := by
        obtain ⟨new, -, h2, -⟩ := collect_ok hc
        simp only [List.length_nil] at hl
        cases fs with
        | nil => exact absurd rfl hne
        | cons p fs =>
          have : (ownFields (assignments (p :: fs) ++ methods)).length = (ownFields (assignments fs ++ methods)).length + 1 := rfl
          omega
      simp only [List.length_nil] at hl
      refine ⟨?_, by simp⟩
      intro d hd'
      cases hd'
      simp [hpos]
      omega

/-! ### Behaviour -/

theorem structGet_components {d d' : StructDesc} (h : d'.components = d.components) (vals : Dict) (n : Nat) (name : String) :
    structGet d' vals n name = structGet d vals n name := by
  induction n generalizing name with
  | zero => rfl
  | succ n ih =>
    have hf : d'.find? name = d.find? name := by unfold StructDesc.find?; rw [h]
    have hg : structGet d' vals n = structGet d vals n := funext ih
    simp only [structGet, hf, hg]

theorem structView_components {d d' : StructDesc} (h : d'.components = d.components) (vals : Dict) :
    structView d' vals = structView d vals := by
  unfold structView structGetItem
  have : ∀ k, structGet d' vals k = structGet d vals k := fun k => funext fun x => structGet_components h vals k x
  simp only [this, h]

theorem structGetItem_components {d d' : StructDesc} (h : d'.components = d.components) (vals : Dict) (name : String) :
    structGetItem d' vals name = structGetItem d vals name := by
  unfold structGetItem
  rw [h, structGet_components h]

theorem structToDict_components {d d' : StructDesc} (h : d'.components = d.components) (Γ : Classes) (n : Nat) (vals : Dict) (keep : Bool) :
    structToDict Γ n d' vals keep = structToDict Γ n d vals keep := by
  have hw : ∀ fs acc, whateverLoop d' vals fs acc = whateverLoop d vals fs acc := by
    intro fs
    induction fs with
    | nil => intro acc; rfl
    | cons f fs ih =>
      intro acc
      simp only [whateverLoop, structView_components h, ih]
  have hc : ∀ dct ks, chainLoop d' vals dct ks = chainLoop d vals dct ks := by
    intro dct ks
    induction ks with
    | nil => rfl
    | cons k ks ih => simp only [chainLoop, ih, structGetItem_components h]
  simp only [structToDict, toDictShallow, whateverPossible, hw, hc, h]

/-- Dropping the validators of fields is the only difference. -/
theorem Valid_unvalidated {d d' : StructDesc} (h : d'.components = d.components) (hs : d'.structValidators = d.structValidators)
    (hf : d'.fieldValidators = []) {vals : Dict} (hv : Valid d vals) : Valid d' vals := by
  refine ⟨by simp [hf], ?_⟩
  rw [hs, structView_components h]
  exact hv.2

/-- **C77** (partial: as above) An annotated class and the corresponding assigning class write the same bytes and read the same values: whatever the
assigning class dumps or loads successfully, the annotated class dumps or loads with the same result.  Where only the annotated class
succeeds, the instance does not meet the validators of the assigning class. -/
theorem C77_same_bytes_partial (Γ : Classes) (n : Nat) (name : String) (metaOpts : Option (List (String × Endian))) (hints : List Hint)
    (fs : List (String × Field)) (methods : List (String × ClassItem)) (d0 d d' : StructDesc) (hs : SameFields Γ n hints fs) (hne : fs ≠ [])
    (hm : OnlyStructValidators methods) (h0 : fromClass Γ n { name := name, body := methods, metaOpts := metaOpts } = .ok d0)
    (hd : fromClass Γ n { name := name, body := assignments fs ++ methods, metaOpts := metaOpts } = .ok d)
    (hd' : pep526Dataclass Γ n d0 hints = .ok d') :
    (∀ m vals ctx bs, structToStream Γ (m + 1) d vals ctx = (bs, .ok ()) → structToStream Γ (m + 1) d' vals ctx = (bs, .ok ())) ∧
    (∀ m vals ctx bs, structToStream Γ (m + 1) d' vals ctx = (bs, .ok ()) →
      structToStream Γ (m + 1) d vals ctx = (bs, .ok ()) ∨ ¬ Valid d vals) ∧
    (∀ m s ctx kw vals s', structFromStream Γ (m + 1) d s ctx kw = (.ok vals, s') →
      structFromStream Γ (m + 1) d' s ctx kw = (.ok vals, s')) ∧
    (∀ m s ctx kw vals s', structFromStream Γ (m + 1) d' s ctx kw = (.ok vals, s') →
      structFromStream Γ (m + 1) d s ctx kw = (.ok vals, s') ∨
        ∃ results, Loads Γ m ctx d.components kw s results s' ∧ ¬ Valid d results) := by
  obtain ⟨d2, h1, -, hc, hsv, -, -, -, hfv⟩ := (C77_same_layout_partial Γ n name metaOpts hints fs methods d0 hs hne hm h0).1 d hd
  rw [hd'] at h1
  cases h1
  have hdrop : ∀ r, dropDiscarded d' r = dropDiscarded d r := by intro r; unfold dropDiscarded; rw [hc]
  have hnames : names d' = names d := by unfold names; rw [hc]
  refine ⟨?_, ?_, ?_, ?_⟩
  · intro m vals ctx bs h
    obtain ⟨hv, all, ha, ps, hp, rfl⟩ := structToStream_ok_iff.1 h
    exact structToStream_ok_iff.2 ⟨Valid_unvalidated hc hsv hfv hv, all, by rw [structToDict_components hc]; exact ha, ps, by rw [hc]; exact hp, rfl⟩
  · intro m vals ctx bs h
    obtain ⟨hv, all, ha, ps, hp, rfl⟩ := structToStream_ok_iff.1 h
    rw [structToDict_components hc] at ha
    rw [hc] at hp
    by_cases hval : Valid d vals
    · exact .inl (structToStream_ok_iff.2 ⟨hval, all, ha, ps, hp, rfl⟩)
    · exact .inr hval
  · intro m s ctx kw vals s' h
    obtain ⟨r, hl, hk, hv, rfl⟩ := structFromStream_ok_iff.1 h
    exact structFromStream_ok_iff.2 ⟨r, by rw [hc]; exact hl, by rw [hnames]; exact hk, Valid_unvalidated hc hsv hfv hv, (hdrop r).symm⟩
  · intro m s ctx kw vals s' h
    obtain ⟨r, hl, hk, hv, rfl⟩ := structFromStream_ok_iff.1 h
    rw [hc] at hl
    rw [hnames] at hk
    by_cases hval : Valid d r
    · exact .inl (structFromStream_ok_iff.2 ⟨r, hl, hk, hval, hdrop r⟩)
    · exact .inr ⟨r, hl, hval⟩

/-- `class S: a: Annotated[int, UInt8]; note: int; b: Optional[UInt8] = 7`. -/
def Sample.hints : List Hint :=
  [{ name := "a", annotations := [.other, .fieldClass (mkInteger .little "UInt8" (.fixed 1) false none) false] },
   { name := "note", annotations := [.other] },
   { name := "b", dflt := .int 7, annotations := [.fieldClass (mkInteger .little "UInt8" (.fixed 1) false none) true] }]

/-- `class S: a = UInt8(name="a"); b = UInt8(name="b", default=7, null_value=DEFAULT)`. -/
def Sample.hintedFields : List (String × Field) :=
  [("a", .leaf { name := "a", typeName := "UInt8", size := .fixed 1, explicit := ["name", "default"] } (.integer false .little)),
   ("b", .leaf { name := "b", typeName := "UInt8", size := .fixed 1, dflt := .int 7, nullValue := .dflt
                 explicit := ["name", "default", "null_value"] } (.integer false .little))]

theorem Sample.hints_sameFields : SameFields Sample.noClasses 3 Sample.hints Sample.hintedFields :=
  .field (pre := [.other]) (post := []) rfl (by simp) (.fieldClass rfl)
    (.ignored (by simp) (.field (pre := []) (post := []) rfl (by simp) (.optional rfl) .nil))

example : ∃ d0 d d', fromClass Sample.noClasses 3 { name := "S", body := [] } = .ok d0 ∧
    fromClass Sample.noClasses 3 { name := "S", body := assignments Sample.hintedFields } = .ok d ∧
    pep526Dataclass Sample.noClasses 3 d0 Sample.hints = .ok d' ∧ d'.components = d.components ∧
    structToStream Sample.noClasses 4 d' [("a", .int 1)] .none = ([1, 7], .ok ()) :=
  ⟨_, _, _, rfl, rfl, rfl, rfl, by decide⟩

/-! ### Where they differ -/

/-- **C77** refuted for validators: with annotations, the validators attached to the fields are not run by `validate_contents`.  An instance that
the assigning class refuses to dump before anything is written passes validation, and the dump breaks off in the middle. -/
theorem C77_validators_refuted :
    ∃ (fs : List (String × Field)) (hints : List Hint) (d0 d d' : StructDesc) (vals : Dict) (e : Err), SameFields Sample.noClasses 3 hints fs ∧
      fromClass Sample.noClasses 3 { name := "S", body := [] } = .ok d0 ∧
      fromClass Sample.noClasses 3 { name := "S", body := assignments fs } = .ok d ∧
      pep526Dataclass Sample.noClasses 3 d0 hints = .ok d' ∧
      validateContents d vals = .error e ∧ structToStream Sample.noClasses 4 d vals .none = ([], .error e) ∧
      validateContents d' vals = .ok () ∧ structToStream Sample.noClasses 4 d' vals .none = ([1], .error e) := by
  let a : Field := .leaf { typeName := "UInt8", size := .fixed 1 } (.integer false .little)
  let b : Field := .leaf { typeName := "UInt8", size := .fixed 1, validators := [Sample.below10] } (.integer false .little)
  exact ⟨[("a", a), ("b", b)], [{ name := "a", annotations := [.fieldInstance a] }, { name := "b", annotations := [.fieldInstance b] }],
    _, _, _, [("a", .int 1), ("b", .int 11)], .validation "x",
    .field (pre := []) (post := []) rfl (by simp) .fieldInstance (.field (pre := []) (post := []) rfl (by simp) .fieldInstance .nil),
    rfl, rfl, rfl, by decide, by decide, by decide, by decide⟩

/-- **C77** Validator methods cannot be used with annotations: a class without base whose body only has annotations cannot even be created if one of its
methods is decorated with `@validates("some_field")`, whatever it names; the error is a KeyError. -/
theorem C77_validates_method_rejected (Γ : Classes) (n : Nat) (name : String) (metaOpts : Option (List (String × Endian)))
    (pre post : List (String × ClassItem)) (meth field : String) (fields : List String) (fn : View → Value → Except Err Unit)
    (hpre : OnlyStructValidators pre) (hpost : NoAssignments post) :
    fromClass Γ n { name := name, body := pre ++ (meth, .validator (field :: fields) fn) :: post, metaOpts := metaOpts } =
      .error (.keyErr field) := by
  have hall : NoAssignments (pre ++ (meth, .validator (field :: fields) fn) :: post) := by
    intro p hp f
    rcases List.mem_append.1 hp with h | h
    · exact hpre.noAssignments p h f
    · rcases List.mem_cons.1 h with rfl | h
      · exact fun h => by cases h
      · exact hpost p h f
  simp only [fromClass, fromClassWith, collectAssigned_noFields hall, initialValidators_noFields hall]
  have : ∀ (pre : List (String × ClassItem)) sv, OnlyStructValidators pre →
      bindValidators (pre ++ (meth, .validator (field :: fields) fn) :: post) [] sv = .error (.keyErr field) := by
    intro pre
    induction pre with
    | nil => intro sv _; rfl
    | cons p ps ih =>
      intro sv hp
      obtain ⟨g, hg⟩ := hp p (by simp)
      obtain ⟨nm, it⟩ := p
      cases hg
      exact ih _ (fun q hq => hp q (by simp [hq]))
  rw [this pre [] hpre]

example : fromClass Sample.noClasses 3 { name := "S", body := [("check", .validator ["a"] fun _ _ => .ok ())] } = .error (.keyErr "a") :=
  C77_validates_method_rejected _ 3 _ _ [] [] _ _ _ _ (by intro p hp; cases hp) (by intro p hp; cases hp)

/-- **C77** An annotated class cannot be extended by an annotated class: type hints include those of the base class, so the first inherited field
counts as a redefinition. -/
theorem C77_annotated_subclass_rejected (Γ : Classes) (n : Nat) (d : StructDesc) (h : Hint) (hints : List Hint) (pre post : List Annotation)
    (a : Annotation) (f : Field) (hown : d.numOwnFields = 0) (hin : h.name ∈ names d) (ha : h.annotations = pre ++ a :: post)
    (ho : ∀ x ∈ pre ++ post, x = .other) (hf : StandsFor Γ n h.name h.dflt a f) :
    pep526Dataclass Γ n d (h :: hints) = .error (.fieldRedefined h.name) := by
  have hany : d.components.any (fun g => g.name = h.name) = true := by
    obtain ⟨g, hg, hgn⟩ := List.mem_map.1 hin
    exact List.any_eq_true.2 ⟨g, hg, by simpa using hgn⟩
  unfold pep526Dataclass
  rw [if_neg (by omega)]
  simp only [collectAnnotated, ha, derivedFields_one ho hf, hany, if_true]

example : pep526Dataclass Sample.noClasses 3 { name := "Sub", components := [Sample.u8 "a"] } Sample.hints = .error (.fieldRedefined "a") :=
  C77_annotated_subclass_rejected _ 3 _ _ _ [.other] [] _ _ rfl (by decide) rfl (by simp) (.fieldClass rfl)

/-- **C77** refuted for defaults: the default given with a field instance or a struct class is dropped.  `class S: a: UInt8() = 5` has no default for
`a`, so an empty instance cannot be dumped; nor does `Optional[T]` make a nested struct nullable. -/
theorem C77_defaults_refuted :
    (∃ d', pep526Dataclass Sample.noClasses 3 { name := "S", components := [] }
        [{ name := "a", dflt := .int 5, annotations := [.fieldInstance (.leaf { typeName := "UInt8", size := .fixed 1 } (.integer false .little))] }]
        = .ok d' ∧ structToStream Sample.noClasses 4 d' [] .none = ([], .error (.missingRequired "a"))) ∧
    (∃ Γ d' e, Γ "T" ≠ none ∧
      pep526Dataclass Γ 3 { name := "S", components := [] } [{ name := "a", annotations := [.structClass "T" true] }] = .ok d' ∧
      structToStream Γ 8 d' [("a", .none)] .none = ([], .error e)) :=
  ⟨⟨_, rfl, by decide⟩, Sample.noClasses.add { name := "T", components := [Sample.u8 "x"], fieldValidators := [("x", [])] }, _, _,
    by simp [Classes.add], rfl, rfl⟩

/-- `class S: a: UInt8; b: UInt8 | None = 7`, and the same with `Optional[UInt8]`. -/
def Sample.barHints (opt : Annotation → Annotation) : List Hint :=
  [{ name := "a", annotations := [.fieldClass (mkInteger .little "UInt8" (.fixed 1) false none) false] },
   { name := "b", dflt := .int 7, annotations := [opt (.fieldClass (mkInteger .little "UInt8" (.fixed 1) false none) true)] }]

/-- **C77** refuted for unions written with `|`: `UInt8 | None` is not taken as `Optional[UInt8]`, nor rejected.  The name is silently not a
field: nothing is written for it, and it is no argument of the constructor. -/
theorem C77_bar_refuted :
    ∃ d d', pep526Dataclass Sample.noClasses 3 { name := "S", components := [] } (Sample.barHints id) = .ok d ∧
      pep526Dataclass Sample.noClasses 3 { name := "S", components := [] } (Sample.barHints fun a => .barUnion [a, .other]) = .ok d' ∧
      names d = ["a", "b"] ∧ names d' = ["a"] ∧
      structToStream Sample.noClasses 4 d [("a", .int 1)] .none = ([1, 7], .ok ()) ∧
      structToStream Sample.noClasses 4 d' [("a", .int 1)] .none = ([1], .ok ()) ∧
      structInit d [("a", .int 1), ("b", .int 2)] = .ok [("a", .int 1), ("b", .int 2)] ∧
      structInit d' [("a", .int 1), ("b", .int 2)] = .error (.unexpectedValue ["b"]) :=
  ⟨_, _, rfl, rfl, by decide, by decide, by decide, by decide, by decide, by decide⟩

theorem derivedFields_two {Γ : Classes} {n : Nat} {name : String} {fallback : Value} {pre mid post : List Annotation} {a a' : Annotation}
    {f f' : Field} (ho : ∀ x ∈ pre ++ mid ++ post, x = .other) (h : StandsFor Γ n name fallback a f) (h' : StandsFor Γ n name fallback a' f') :
    derivedFields Γ n name fallback (pre ++ a :: (mid ++ a' :: post)) = .ok [f, f'] := by
  rw [derivedFields_good (by
    intro x hx
    simp only [List.mem_append, List.mem_cons] at hx ho
    rcases hx with hx | rfl | hx | rfl | hx
    · simp [ho x (.inl (.inl hx))]
    · exact StandsFor_good h
    · simp [ho x (.inl (.inr hx))]
    · exact StandsFor_good h'
    · simp [ho x (.inr hx)])]
  rw [makeFields_skip fun x hx => ho x (by simp [hx])]
  have h2 := makeFields_one (pre := mid) (post := post) (fun x hx => ho x (by rw [List.append_assoc]; exact List.mem_append_right _ hx)) h'
  simp only [makeFields, StandsFor_makeField h, h2]
  rfl

/-- **C77** A name with two annotations that both mean a field (`Annotated[UInt8, UInt16]`) is rejected: wherever it stands the class is not
created, and if nothing before it is wrong the error is `ConfigurationError`. -/
theorem C77_ambiguous_hint_rejected (Γ : Classes) (n : Nat) (d : StructDesc) (h : Hint) (before after : List Hint)
    (pre mid post : List Annotation) (a a' : Annotation) (f f' : Field) (ha : h.annotations = pre ++ a :: (mid ++ a' :: post))
    (ho : ∀ x ∈ pre ++ mid ++ post, x = .other) (hf : StandsFor Γ n h.name h.dflt a f) (hf' : StandsFor Γ n h.name h.dflt a' f') :
    (∀ d', pep526Dataclass Γ n d (before ++ h :: after) ≠ .ok d') ∧
      (d.numOwnFields = 0 → (∃ d', pep526Dataclass Γ n d before = .ok d') ∨ before = [] →
        pep526Dataclass Γ n d (before ++ h :: after) = .error .configuration) := by
  have hd := derivedFields_two ho hf hf'
  rw [← ha] at hd
  have key : ∀ (before : List Hint) comps index offset,
      (∃ e, collectAnnotated Γ n d.argumentDefaults (before ++ h :: after) comps index offset = .error e) ∧
      ((∃ r, collectAnnotated Γ n d.argumentDefaults before comps index offset = .ok r) →
        collectAnnotated Γ n d.argumentDefaults (before ++ h :: after) comps index offset = .error .configuration) := by
    intro before
    induction before with
    | nil =>
      intro comps index offset
      have : collectAnnotated Γ n d.argumentDefaults (h :: after) comps index offset = .error .configuration := by
        simp only [collectAnnotated, hd]
      exact ⟨⟨_, this⟩, fun _ => this⟩
    | cons g gs ih =>
      intro comps index offset
      simp only [List.cons_append, collectAnnotated]
      cases derivedFields Γ n g.name g.dflt g.annotations with
      | error e => exact ⟨⟨_, rfl⟩, fun ⟨r, hr⟩ => by cases hr⟩
      | ok fs =>
        match fs with
        | [] => exact ih comps index offset
        | [x] =>
          simp only []
          split
          · exact ⟨⟨_, rfl⟩, fun ⟨r, hr⟩ => by cases hr⟩
          · cases bindToContainer d.argumentDefaults x g.name index offset with
            | error e => exact ⟨⟨_, rfl⟩, fun ⟨r, hr⟩ => by cases hr⟩
            | ok y => exact ih _ _ _
        | _ :: _ :: _ => exact ⟨⟨_, rfl⟩, fun ⟨r, hr⟩ => by cases hr⟩
  obtain ⟨⟨e, h1⟩, h2⟩ := key before d.components 0 d.sizeBytes
  refine ⟨fun d' hc => ?_, fun hown hb => ?_⟩
  · unfold pep526Dataclass at hc
    rw [h1] at hc
    split at hc <;> cases hc
  · have h3 : ∃ r, collectAnnotated Γ n d.argumentDefaults before d.components 0 d.sizeBytes = .ok r := by
      rcases hb with ⟨d', hb⟩ | rfl
      · unfold pep526Dataclass at hb
        rw [if_neg (by omega)] at hb
        cases hc : collectAnnotated Γ n d.argumentDefaults before d.components 0 d.sizeBytes with
        | error e => rw [hc] at hb; cases hb
        | ok r => exact ⟨r, rfl⟩
      · exact ⟨_, rfl⟩
    unfold pep526Dataclass
    rw [if_neg (by omega), h2 h3]

-- two field instances for one name, after two proper fields
example : pep526Dataclass Sample.noClasses 3 { name := "S", components := [] }
    (Sample.hints ++ [{ name := "z", annotations := [.other, .fieldInstance (Sample.u8 "z"), .fieldInstance (Sample.i16 "z")] }]) =
      .error .configuration :=
  (C77_ambiguous_hint_rejected _ 3 _ _ _ [] [.other] [] [] _ _ _ _ rfl (by simp) .fieldInstance .fieldInstance).2 rfl (Or.inl ⟨_, rfl⟩)

theorem collectAssignedFields_found {defaults : List (String × Endian)} : ∀ {items : List (String × ClassItem)} {comps : List Field} {offset : Option Int}
    {found : Nat} {res : List Field × Nat}, collectAssignedFields defaults items comps offset found = .ok res →
    found ≤ res.2 ∧ ((∃ name f, (name, ClassItem.field f) ∈ items) → found < res.2)
  | [], comps, offset, found, res, h => by
    simp only [collectAssignedFields, Except.ok.injEq] at h
    subst h
    exact ⟨Nat.le_refl _, fun ⟨_, _, h⟩ => by simp at h⟩
  | (nm, .field f) :: items, comps, offset, found, res, h => by
    simp only [collectAssignedFields] at h
    split at h
    · cases h
    · cases hb : bindToContainer defaults f nm comps.length offset with
      | error e => rw [hb] at h; cases h
      | ok g =>
        rw [hb] at h
        have := (collectAssignedFields_found h).1
        exact ⟨by omega, fun _ => by omega⟩
  | (nm, .validator names fn) :: items, comps, offset, found, res, h => by
    simp only [collectAssignedFields] at h
    have := collectAssignedFields_found h
    refine ⟨this.1, fun ⟨name, f, hm⟩ => this.2 ⟨name, f, ?_⟩⟩
    simpa using hm
  | (nm, .structValidator fn) :: items, comps, offset, found, res, h => by
    simp only [collectAssignedFields] at h
    have := collectAssignedFields_found h
    refine ⟨this.1, fun ⟨name, f, hm⟩ => this.2 ⟨name, f, ?_⟩⟩
    simpa using hm

/-- **C77** A class in whose body a field is assigned cannot be made with `dataclass`, whatever its annotations are: `MixedDeclarationsError`. -/
theorem C77_mixed_rejected (Γ : Classes) (n m : Nat) (decl : ClassDecl) (d : StructDesc) (hints : List Hint) (name : String) (f : Field)
    (hf : (name, .field f) ∈ decl.body) (h : fromClass Γ n decl = .ok d) : pep526Dataclass Γ m d hints = .error .mixedDeclarations := by
  have hwith : ∀ comps fv sv mo off, fromClassWith decl comps fv sv mo off = .ok d → 0 < d.numOwnFields := by
    intro comps fv sv mo off h
    unfold fromClassWith at h
    simp only at h
    split at h
    · cases h
    · rename_i comps' found hc
      split at h
      · cases h
      · simp only [Except.ok.injEq] at h
        subst h
        exact (collectAssignedFields_found hc).2 ⟨name, f, hf⟩
  have hown : 0 < d.numOwnFields := by
    unfold fromClass at h
    split at h
    · exact hwith _ _ _ _ _ h
    · split at h
      · cases h
      · split at h
        · cases h
        · exact hwith _ _ _ _ _ h
    · cases h
  unfold pep526Dataclass
  rw [if_pos (by omega)]

/-- **C77** A name annotated with a union of several types (other than `Optional`) is rejected: wherever it stands the class is not created, and if
nothing before it is wrong the error is `InvalidTypeAnnotationError`. -/
theorem C77_union_hint_rejected (Γ : Classes) (n : Nat) (d : StructDesc) (h : Hint) (before after : List Hint) (pre post : List Annotation)
    (ha : h.annotations = pre ++ .badUnion :: post) :
    (∀ d', pep526Dataclass Γ n d (before ++ h :: after) ≠ .ok d') ∧
      (d.numOwnFields = 0 → (∃ d', pep526Dataclass Γ n d before = .ok d') ∨ before = [] →
        pep526Dataclass Γ n d (before ++ h :: after) = .error .invalidTypeAnnotation) := by
  have hd : derivedFields Γ n h.name h.dflt h.annotations = .error .invalidTypeAnnotation := by
    rw [derivedFields, if_pos (by simp [ha, Annotation.isBadUnion])]
  have key : ∀ (before : List Hint) comps index offset,
      (∃ e, collectAnnotated Γ n d.argumentDefaults (before ++ h :: after) comps index offset = .error e) ∧
      ((∃ r, collectAnnotated Γ n d.argumentDefaults before comps index offset = .ok r) →
        collectAnnotated Γ n d.argumentDefaults (before ++ h :: after) comps index offset = .error .invalidTypeAnnotation) := by
    intro before
    induction before with
    | nil =>
      intro comps index offset
      have : collectAnnotated Γ n d.argumentDefaults (h :: after) comps index offset = .error .invalidTypeAnnotation := by
        simp only [collectAnnotated, hd]
      exact ⟨⟨_, this⟩, fun _ => this⟩
    | cons g gs ih =>
      intro comps index offset
      simp only [List.cons_append, collectAnnotated]
      cases derivedFields Γ n g.name g.dflt g.annotations with
      | error e => exact ⟨⟨_, rfl⟩, fun ⟨r, hr⟩ => by cases hr⟩
      | ok fs =>
        match fs with
        | [] => exact ih comps index offset
        | [x] =>
          simp only []
          split
          · exact ⟨⟨_, rfl⟩, fun ⟨r, hr⟩ => by cases hr⟩
          · cases bindToContainer d.argumentDefaults x g.name index offset with
            | error e => exact ⟨⟨_, rfl⟩, fun ⟨r, hr⟩ => by cases hr⟩
            | ok y => exact ih _ _ _
        | _ :: _ :: _ => exact ⟨⟨_, rfl⟩, fun ⟨r, hr⟩ => by cases hr⟩
  obtain ⟨⟨e, h1⟩, h2⟩ := key before d.components 0 d.sizeBytes
  refine ⟨fun d' hc => ?_, fun hown hb => ?_⟩
  · unfold pep526Dataclass at hc
    rw [h1] at hc
    split at hc <;> cases hc
  · have h3 : ∃ r, collectAnnotated Γ n d.argumentDefaults before d.components 0 d.sizeBytes = .ok r := by
      rcases hb with ⟨d', hb⟩ | rfl
      · unfold pep526Dataclass at hb
        rw [if_neg (by omega)] at hb
        cases hc : collectAnnotated Γ n d.argumentDefaults before d.components 0 d.sizeBytes with
        | error e => rw [hc] at hb; cases hb
        | ok r => exact ⟨r, rfl⟩
      · exact ⟨_, rfl⟩
    unfold pep526Dataclass
    rw [if_neg (by omega), h2 h3]

/-- **C77** A class without fields, assigned or annotated, is rejected: `NoDefinedFieldsError`. -/
theorem C77_no_fields_rejected (Γ : Classes) (n : Nat) (d : StructDesc) (hints : List Hint) (hown : d.numOwnFields = 0)
    (ho : ∀ h ∈ hints, ∀ a ∈ h.annotations, a = .other) : pep526Dataclass Γ n d hints = .error .noDefinedFields := by
  have key : ∀ comps index offset, collectAnnotated Γ n d.argumentDefaults hints comps index offset = .ok (comps, index, offset) := by
    induction hints with
    | nil => intro _ _ _; rfl
    | cons h hs ih =>
      intro comps index offset
      have hd : derivedFields Γ n h.name h.dflt h.annotations = .ok [] := by
        exact derivedFields_other fun x hx => ho h List.mem_cons_self x hx
      simp only [collectAnnotated, hd]
      exact ih (fun g hg => ho g (List.mem_cons_of_mem _ hg)) _ _ _
  unfold pep526Dataclass
  rw [if_neg (by omega), key]
  simp

-- a field assigned and another annotated
example : (fromClass Sample.noClasses 3 { name := "S", body := [("x", .field (Sample.u8 "x"))] }).bind
    (fun d => pep526Dataclass Sample.noClasses 3 d Sample.hints) = .error .mixedDeclarations := rfl

-- `Union[UInt8, UInt16]` after two proper fields
example : pep526Dataclass Sample.noClasses 3 { name := "S", components := [] }
    (Sample.hints ++ [{ name := "z", annotations := [.other, .badUnion] }]) = .error .invalidTypeAnnotation :=
  (C77_union_hint_rejected _ _ _ _ _ [] [.other] [] rfl).2 rfl (.inl ⟨_, rfl⟩)

end Verif
