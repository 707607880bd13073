import Verif.Proofs.Reload
import Verif.Props.Equality
import Verif.Props.Records

/-!
# What was saved and loaded again is equal to the original (C104)

`C26` says, field by field, how the loaded values stand for the dumped ones.  Here the same is said with the library's own
`to_dict` and `==`.
-/

namespace Verif
open Spec

/-- The dict of the values that are set in an instance of a plain class in which all fields are set is its `to_dict`. -/
theorem definedValues_to_dict {Γ : Classes} {n : Nat} {d : StructDesc} {vals all : Dict} (hd : Schema Γ d) (hi : Instance d vals)
    (hset : ∀ f ∈ d.components, ∃ v, Dict.get? vals f.name = some v ∧ v ≠ .undefined) (h : structToDict Γ n d vals = .ok all) :
    DefinedValues Γ vals all := by
  obtain ⟨-, h2, h3⟩ := structToDict_get hd.unique hi h
  intro k
  by_cases hk : k ∈ names d
  · right
    obtain ⟨f, hf, rfl⟩ := List.mem_map.1 hk
    obtain ⟨v, hv, hu⟩ := hset f hf
    have hcomp := full_value hi hf hv (Or.inr ⟨hu, (hd.field hf).1.1 _ _ _⟩)
    rcases h3 f hf with ⟨-, h4, -⟩ | ⟨-, v', w, h4, h5, h6⟩
    · rw [(hd.field hf).2.1] at h4; simp at h4
    · have : v' = v := by
        rcases h4 with h4 | ⟨e, h4, -⟩
        · rw [hcomp] at h4; cases h4; rfl
        · rw [hcomp] at h4; simp at h4
      subst this
      exact ⟨v', w, n, hv, hu, h5, h6⟩
  · left
    refine ⟨?_, Or.inl ?_⟩
    · exact (Dict.get?_none_iff _ _).2 fun h => hk (h2 k h)
    · exact (Dict.get?_none_iff _ _).2 fun h => hk (hi.2 k h)

/-- **C104** `from_bytes(bytes(s)).to_dict() == s.to_dict()`: for classes as in `C26`, and whatever follows in the stream, the loaded
struct has the same fields in its `to_dict()`, with the very same values, down to the last level - no matter which of them were set in `s`
and which were left to defaults or computed.  (If dictionaries were given for nested structs, they must have all the fields.) -/
theorem C104_to_dict (Γ : Classes) (hΓ : ∀ c d, Γ c = some d → Schema Γ d) (n : Nat) (d : StructDesc) (vals all : Dict) (ctx : Value)
    (bs : Bytes) (hp : PlainInstance Γ d vals) (ha : structToDict Γ n d vals = .ok all)
    (hc : ∀ f ∈ d.components, ∀ w, Dict.get? all f.name = some w → Complete Γ f w)
    (h : structToStream Γ (n + 1) d vals ctx = (bs, .ok ())) :
    ∃ m r all', (∀ pre rest, structFromStream Γ m d ⟨pre ++ bs ++ rest, pre.length⟩ ctx [] =
        (.ok r, ⟨pre ++ bs ++ rest, pre.length + bs.length⟩)) ∧
      structToDict Γ m d r = .ok all' ∧ Identical (.dict all') (.dict all) ∧ Same (.dict all') (.dict all) := by
  obtain ⟨m, r, h1, h2, h3⟩ := plain_reload hΓ hp ha hc h
  obtain ⟨-, hn, -⟩ := structToDict_get hp.1.unique hp.2.1 ha
  obtain ⟨m', all', h4, h5, -⟩ := loaded_to_dict (dct := all) hp.1 h1
    (fun k hk => hn k (Decidable.byContradiction fun hx => hk ((Dict.get?_none_iff _ _).2 hx))) h2
  exact ⟨max m m', r, all', fun pre rest => structFromStream_of_le (Nat.le_max_left ..) (h3 pre rest),
    (structToDict_mono Γ (Nat.le_max_right m m') d r false).of_ok h4, h5⟩

/-- **C104** the dictionaries of nested structs have all the fields whenever no dictionaries are used in place of struct instances:
`to_dict` makes complete ones. -/
theorem C104_structs (Γ : Classes) (hΓ : ∀ c d, Γ c = some d → Schema Γ d) (n : Nat) (d : StructDesc) (vals all : Dict)
    (hp : PlainInstance Γ d vals) (hs : ∀ c d, Γ c = some d → ∀ f ∈ d.components, BuiltSources Γ f)
    (hs' : ∀ f ∈ d.components, BuiltSources Γ f)
    (hb : ∀ f ∈ d.components, ∀ v, Dict.get? vals f.name = some v → Built Γ f v) (ha : structToDict Γ n d vals = .ok all) :
    ∀ f ∈ d.components, ∀ w, Dict.get? all f.name = some w → Complete Γ f w := by
  intro f hf w hw
  obtain ⟨hd, hi, ht⟩ := hp
  obtain ⟨-, -, h3⟩ := structToDict_get hd.unique hi ha
  rcases h3 f hf with ⟨-, -, h4⟩ | ⟨-, v, x, h4, h5, h6⟩
  · rw [hw] at h4; simp at h4
  · rw [hw] at h6; cases h6
    exact built_complete hΓ hs (dictValue_typed hd hi ht hf h4) (dictValue_built hd hi hb (hs' f hf) hf h4) h5

/-- What is loaded has what it needs to be compared. -/
theorem reload_comparable {Γ : Classes} {d : StructDesc} {r all : Dict} (hd : Schema Γ d) (hk : Dict.keys r = names d)
    (hn : ∀ k ∈ Dict.keys all, k ∈ names d)
    (hv : ∀ f ∈ d.components, ∃ v w, Dict.get? r f.name = some v ∧ v ≠ .undefined ∧ Dict.get? all f.name = some w ∧ ConvertsTo Γ v w) :
    Instance d r ∧ ProperValues Γ r ∧ ∃ wr, DefinedValues Γ r wr ∧ Same (.dict wr) (.dict all) := by
  have hi : Instance d r := ⟨by rw [hk]; exact hd.unique, fun k h => by rw [hk] at h; exact h⟩
  obtain ⟨m, all', h4, h5, -⟩ := loaded_to_dict (dct := all) hd hk
    (fun k hk => hn k (Decidable.byContradiction fun hx => hk ((Dict.get?_none_iff _ _).2 hx))) hv
  refine ⟨hi, fun k v n w h1 h2 => ?_, all', definedValues_to_dict hd hi (fun f hf => ?_) h4, h5.2⟩
  · obtain ⟨f, hf, rfl⟩ := List.mem_map.1 (hi.2 k (Dict.get?_some_key h1))
    obtain ⟨v', w', h3, -, -, m', x, h6, -, h7⟩ := hv f hf
    rw [h1] at h3; cases h3
    rw [recursiveToDicts_det h2 h6]; exact h7
  · obtain ⟨v, w, h1, h2, -⟩ := hv f hf
    exact ⟨v, h1, h2⟩

/-- **C104** `from_bytes(bytes(s)) == s` and `s == from_bytes(bytes(s))`, if all fields of `s` itself are set (fields of nested structs
need not be): a comparison that returns says they are equal, and it does return if both have a length (see `C59`). -/
theorem C104_equal (Γ : Classes) (hΓ : ∀ c d, Γ c = some d → Schema Γ d) (n : Nat) (c : String) (d : StructDesc) (vals all : Dict)
    (ctx : Value) (bs : Bytes) (hcls : Γ c = some d) (hp : PlainInstance Γ d vals) (hset : AllSet d vals)
    (ha : structToDict Γ n d vals = .ok all)
    (hc : ∀ f ∈ d.components, ∀ w, Dict.get? all f.name = some w → Complete Γ f w)
    (h : structToStream Γ (n + 1) d vals ctx = (bs, .ok ())) :
    ∃ m r, (∀ pre rest, structFromStream Γ m d ⟨pre ++ bs ++ rest, pre.length⟩ ctx [] =
        (.ok r, ⟨pre ++ bs ++ rest, pre.length + bs.length⟩)) ∧
      (∀ res, EqReturns Γ (.struct c r) (.struct c vals) res → res = true) ∧
      (∀ res, EqReturns Γ (.struct c vals) (.struct c r) res → res = true) ∧
      (Listable Γ d r → Listable Γ d vals →
        EqReturns Γ (.struct c r) (.struct c vals) true ∧ EqReturns Γ (.struct c vals) (.struct c r) true) := by
  obtain ⟨m, r, h1, h2, h3⟩ := plain_reload hΓ hp ha hc h
  obtain ⟨hd, hi, ht⟩ := hp
  obtain ⟨-, hn, -⟩ := structToDict_get hd.unique hi ha
  obtain ⟨hir, hpr, wr, hdr, hsame⟩ := reload_comparable hd h1 hn h2
  have hpv : ProperValues Γ vals := by
    intro k v n w h1 h2
    obtain ⟨f, hf, rfl⟩ := List.mem_map.1 (hi.2 k (Dict.get?_some_key h1))
    exact typed_distinct (toDicts_typed hΓ (ht f hf v h1) h2) (recursiveToDicts_spec h2).1
  have hdv : DefinedValues Γ vals all := definedValues_to_dict hd hi (fun f hf => by
    obtain ⟨v, hv⟩ := hset f hf
    exact ⟨v, hv, (ht f hf v hv).ne.2.2.1⟩) ha
  have key : Listable Γ d r → Listable Γ d vals → ∀ res, EqReturns Γ (.struct c r) (.struct c vals) res ↔ res = true := by
    intro l1 l2 res
    rw [C59_equal_iff hcls hcls hir hi hpr hpv l1 l2 hdr hdv]
    simp [hsame]
  have lst : ∀ {a b : Dict} {res : Bool}, EqReturns Γ (.struct c a) (.struct c b) res → Listable Γ d a ∧ Listable Γ d b := by
    intro a b res he
    obtain ⟨k, w, w', h4, h5⟩ := eqReturns_struct_inv he
    exact ⟨comparableDict_listable hcls h4, comparableDict_listable hcls h5⟩
  refine ⟨m, r, h3, fun res he => ?_, fun res he => ?_, fun l1 l2 => ?_⟩
  · obtain ⟨l1, l2⟩ := lst he
    exact (key l1 l2 res).1 he
  · obtain ⟨l1, l2⟩ := lst he
    exact (key l2 l1 res).1 (C59_symmetric hcls hcls hi hir hpv hpr he)
  · have := (key l1 l2 true).2 rfl
    exact ⟨this, C59_symmetric hcls hcls hir hi hpr hpv this⟩

/-- **C104** `from_bytes(bytes(s)) == s.to_dict()`, whether or not all fields of `s` are set. -/
theorem C104_equals_dict (Γ : Classes) (hΓ : ∀ c d, Γ c = some d → Schema Γ d) (n : Nat) (c : String) (d : StructDesc) (vals all : Dict)
    (ctx : Value) (bs : Bytes) (hcls : Γ c = some d) (hp : PlainInstance Γ d vals) (ha : structToDict Γ n d vals = .ok all)
    (hc : ∀ f ∈ d.components, ∀ w, Dict.get? all f.name = some w → Complete Γ f w)
    (h : structToStream Γ (n + 1) d vals ctx = (bs, .ok ())) :
    ∃ m r, (∀ pre rest, structFromStream Γ m d ⟨pre ++ bs ++ rest, pre.length⟩ ctx [] =
        (.ok r, ⟨pre ++ bs ++ rest, pre.length + bs.length⟩)) ∧
      (Listable Γ d r → EqReturns Γ (.struct c r) (.dict all) true ∧ EqReturns Γ (.dict all) (.struct c r) true) := by
  obtain ⟨m, r, h1, h2, h3⟩ := plain_reload hΓ hp ha hc h
  obtain ⟨hd, hi, ht⟩ := hp
  obtain ⟨hnd, hn, -⟩ := structToDict_get hd.unique hi ha
  obtain ⟨hir, hpr, wr, hdr, hsame⟩ := reload_comparable hd h1 hn h2
  have hentry : ∀ p ∈ all, NoStruct p.2 ∧ DistinctKeys p.2 := by
    intro p hp
    obtain ⟨f, hf, hfn⟩ := List.mem_map.1 (hn p.1 (List.mem_map.2 ⟨p, hp, rfl⟩))
    obtain ⟨k1, k2⟩ := structToDict_typed hΓ hd hi ht ha hf (hfn ▸ Dict.get?_of_mem hnd hp)
    exact ⟨k2, typed_distinct k1 k2⟩
  refine ⟨m, r, h3, fun l => ?_⟩
  have := C59_dict_iff (r := true) hcls hir hpr l hdr (.dict fun p hp => (hentry p hp).1) (.dict hnd fun p hp => (hentry p hp).2)
  simp only [true_iff] at this
  exact ⟨this.1.2 hsame, this.2.2 hsame⟩

/-- **C104** The condition on lengths matters: a struct of a class with an array that is counted by another field cannot be compared
with anything.  `list(self)` asks for `len(self)`, and that dumps the array on its own, without the field that has the count:
`FieldReferenceError`.  (Here the fields before the array have fixed sizes; otherwise one of them may raise its error first.) -/
theorem C104_counted_array_refuted (Γ : Classes) (c : String) (d : StructDesc) (vals : Dict) (pre post : List Field) (b : FieldBase)
    (comp : Field) (r : String) (halt : Option (Stream → List Value → Value → Dict → Except Err (Bool × List Value)))
    (hcls : Γ c = some d) (hp : PlainInstance Γ d vals) (hset : AllSet d vals)
    (hd : d.components = pre ++ .array b comp (.ref r) halt :: post) (hr : r ≠ "") (hb : b.size = .none)
    (hpre : ∀ f ∈ pre, ∃ k, f.base.size = .fixed k) :
    (∃ n, structLen Γ n d vals = .error (.fieldReference r)) ∧
    ∀ other res, other ≠ .undefined → ¬ EqReturns Γ (.struct c vals) other res := by
  obtain ⟨hs, hi, ht⟩ := hp
  have hset' : ∀ f ∈ d.components, ∃ v, Dict.get? vals f.name = some v ∧ v ≠ .undefined := fun f hf => by
    obtain ⟨v, hv⟩ := hset f hf
    exact ⟨v, hv, (ht f hf v hv).ne.2.2.1⟩
  have hcomp : ∀ f ∈ d.components, ∀ v, Dict.get? vals f.name = some v → f.base.computeValueForDump (structView d vals) .none = .ok v := by
    intro f hf v hv
    exact full_value hi hf hv (Or.inr ⟨(ht f hf v hv).ne.2.2.1, (hs.field hf).1.1 _ _ _⟩)
  have hfull : Full d vals := fun f hf => by
    obtain ⟨v, h1, h2⟩ := hset' f hf
    exact Or.inl ⟨(hs.field hf).2.1, v, h1, Or.inr ⟨h2, (hs.field hf).1.1 _ _ _⟩⟩
  obtain ⟨dct, h1, -⟩ := toDictShallow_full hs.unique hi hfull
  obtain ⟨current, hcur⟩ : ∃ current, whateverPossible d vals = .ok current := by
    unfold toDictShallow at h1
    cases hw : whateverPossible d vals with
    | error e => simp [hw] at h1
    | ok current => exact ⟨current, rfl⟩
  have hf : Field.array b comp (.ref r) halt ∈ d.components := by rw [hd]; simp
  obtain ⟨v, hv, hu⟩ := hset' _ hf
  have htv := ht _ hf v hv
  have hcv := hcomp _ hf v hv
  obtain ⟨l, rfl⟩ : ∃ l, v = .list l := by cases htv; exact ⟨_, rfl⟩
  have hget : Dict.get? current b.name = some (.list l) := by
    obtain ⟨-, -, h3⟩ := whateverPossible_get hs.unique hi hcur
    rcases h3 _ hf with ⟨x, h4, h5⟩ | ⟨e, h4, -⟩
    · rw [hcv] at h4; cases h4; exact h5
    · rw [hcv] at h4; simp at h4
  have hlen : ∀ n, fieldLen Γ (n + 1) current (.array b comp (.ref r) halt) = .error (.fieldReference r) := by
    intro n
    have hpr := (hs.field hf).1.1
    simp only [Field.base] at hpr
    have hexp : ∃ e, fieldExpectedSize Γ (n + 1) (.array b comp (.ref r) halt) current = .error e ∧ e.isBinobj = true := by
      refine ⟨.undefinedSize b.name, ?_, rfl⟩
      simp [fieldExpectedSize, containerExpectedSize, FieldBase.expectedSizeWith, Field.base, hb, FieldBase.sizingValue, hget,
        baseSizeForValue]
    obtain ⟨e, he, heb⟩ := hexp
    have hval : b.computeValueForDump current.view .none = .ok (.list l) := by
      simp [FieldBase.computeValueForDump, Dict.view, Dict.contains_eq, hget, hpr]
    have hdump : fieldToStream Γ (n + 1) (.array b comp (.ref r) halt) (.list l) .none [] = W.fail (.fieldReference r) := by
      have hval : b.validators = [] := by
        have := (hs.fields pre _ post hd).1
        cases this with
        | array _ h _ _ _ => exact h
      rw [fieldToStream_succ, toStreamWith_plain (by simp) (by simp) (by simp) (by simp [Field.base, hval])]
      simp [fieldDoDump, containerDump, arrayDump, finalElementCount, if_neg hr, Dict.get?_nil, W.fail, W.toExcept]
    simp [fieldLen, Field.base, hb, he, heb, hval, fieldToBytes, hdump, W.fail, W.toExcept, Except.map]
  have hall : ∀ n, structLen Γ (n + 1) d vals = .error (.fieldReference r) := by
    intro n
    simp only [structLen, hcur, hd]
    clear hd
    induction pre with
    | nil => simp only [List.nil_append, sumSizes, hlen n]
    | cons g pre ih =>
      obtain ⟨k, hk⟩ := hpre g (by simp)
      have : fieldLen Γ (n + 1) current g = .ok k := by simp only [fieldLen, hk]
      simp only [List.cons_append, sumSizes, this, ih fun f hf => hpre f (by simp [hf])]
  refine ⟨⟨1, hall 0⟩, fun other res ho => ?_⟩
  rintro ⟨n, hn⟩
  cases n with
  | zero => simp [pyEq] at hn
  | succ n =>
    have hc : ∀ w, comparableDict Γ n c vals ≠ .ok w := by
      intro w hw
      rcases comparableDict_listable hcls hw with ⟨k, ⟨x, hx, -⟩ | hx⟩
      · have := (structLen_mono Γ (Nat.le_succ k) d vals).of_ok hx
        rw [hall k] at this; simp at this
      · rcases structLen_mono Γ (Nat.le_succ k) d vals with h2 | h2
        · rw [hx] at h2; simp at h2
        · rw [hall k, hx] at h2; simp at h2
    simp only [pyEq, structEqWith, if_neg ho] at hn
    cases hcd : comparableDict Γ n c vals with
    | ok w => exact hc w hcd
    | error e => simp [hcd] at hn

/-! ### Examples -/

theorem Sample.inner_schema : Schema Sample.nestedClasses Sample.inner where
  unique := by unfold UniqueNames; decide
  checks r hr := unchecked_valid (by decide) (by simp [Sample.inner, Sample.upd, Sample.u8, Field.withBase, Field.base])
    rfl hr (by unfold UniqueNames; decide)
  fields := by
    refine fields_of_index (Q := fun e f => Layout e f ∧ Always f.base ∧ f.base.discard = false ∧ Sources Sample.nestedClasses f) ?_
    intro i hi
    match i, hi with
    | 0, _ =>
      exact ⟨.integer (n := 1) rfl (by decide), ⟨fun _ _ _ => rfl, rfl⟩, rfl, fun v h => absurd rfl h, fun fn view v h => by cases h⟩
    | 1, _ =>
      refine ⟨.integer (n := 1) rfl (by decide), ⟨fun _ _ _ => rfl, rfl⟩, rfl, fun v _ hv => ?_, fun fn view v h => by cases h⟩
      cases hv
      exact .leaf trivial (Or.inl rfl)

theorem Sample.outer_schema : Schema Sample.nestedClasses Sample.outer where
  unique := by unfold UniqueNames; decide
  checks r hr := unchecked_valid (by decide) (by simp [Sample.outer, Sample.upd, Sample.nested, Field.withBase, Field.base])
    rfl hr (by unfold UniqueNames; decide)
  fields := by
    refine fields_of_index (Q := fun e f => Layout e f ∧ Always f.base ∧ f.base.discard = false ∧ Sources Sample.nestedClasses f) ?_
    intro i hi
    match i, hi with
    | 0, _ => exact ⟨.nested rfl rfl, ⟨fun _ _ _ => rfl, rfl⟩, rfl, fun v h => absurd rfl h, fun fn view v h => by cases h⟩

theorem Sample.nestedClasses_schema (c : String) (d : StructDesc) (h : Sample.nestedClasses c = some d) :
    Schema Sample.nestedClasses d := by
  unfold Sample.nestedClasses Classes.add at h
  split at h
  · cases h; exact Sample.outer_schema
  · split at h
    · cases h; exact Sample.inner_schema
    · simp [Sample.noClasses] at h

/-- `Outer(inner=Inner(x=1))`; `y` is left to its default. -/
def Sample.boxed : Dict := [("inner", .struct "Inner" [("x", .int 1)])]

theorem Sample.boxed_plain : PlainInstance Sample.nestedClasses Sample.outer Sample.boxed := by
  refine ⟨Sample.outer_schema, by unfold Instance; decide, fun f hf w hw => ?_⟩
  obtain rfl := List.mem_singleton.1 hf
  cases hw
  refine .struct (d := Sample.inner) rfl (by unfold Instance; decide) fun g hg w hw => ?_
  rcases List.mem_cons.1 hg with rfl | hg
  · cases hw; exact .leaf trivial (Or.inl rfl)
  · obtain rfl := List.mem_singleton.1 hg
    cases hw

theorem Sample.boxed_complete : ∀ f ∈ Sample.outer.components, ∀ w,
    Dict.get? [("inner", .dict [("x", .int 1), ("y", .int 7)])] f.name = some w → Complete Sample.nestedClasses f w := by
  intro f hf w hw
  obtain rfl := List.mem_singleton.1 hf
  cases hw
  refine .dict (d := Sample.inner) rfl (by decide) fun g hg w hw => ?_
  rcases List.mem_cons.1 hg with rfl | hg
  · exact .leaf
  · obtain rfl := List.mem_singleton.1 hg
    exact .leaf

example : ∃ m r all', (∀ pre rest, structFromStream Sample.nestedClasses m Sample.outer ⟨pre ++ [1, 7] ++ rest, pre.length⟩ .none [] =
        (.ok r, ⟨pre ++ [1, 7] ++ rest, pre.length + 2⟩)) ∧
      structToDict Sample.nestedClasses m Sample.outer r = .ok all' ∧
      Identical (.dict all') (.dict [("inner", .dict [("x", .int 1), ("y", .int 7)])]) ∧
      Same (.dict all') (.dict [("inner", .dict [("x", .int 1), ("y", .int 7)])]) :=
  C104_to_dict Sample.nestedClasses Sample.nestedClasses_schema 8 Sample.outer Sample.boxed _ .none [1, 7] Sample.boxed_plain (by decide)
    Sample.boxed_complete (by decide)

example : ∃ m r, (∀ pre rest, structFromStream Sample.nestedClasses m Sample.outer ⟨pre ++ [1, 7] ++ rest, pre.length⟩ .none [] =
        (.ok r, ⟨pre ++ [1, 7] ++ rest, pre.length + 2⟩)) ∧
      ∀ res, EqReturns Sample.nestedClasses (.struct "Outer" r) (.struct "Outer" Sample.boxed) res → res = true := by
  obtain ⟨m, r, h1, h2, -⟩ := C104_equal Sample.nestedClasses Sample.nestedClasses_schema 8 "Outer" Sample.outer Sample.boxed _ .none [1, 7]
    rfl Sample.boxed_plain (fun f hf => by obtain rfl := List.mem_singleton.1 hf; exact ⟨_, rfl⟩) (by decide)
    Sample.boxed_complete (by decide)
  exact ⟨m, r, h1, h2⟩

-- and the comparison does return
example : pyEq Sample.nestedClasses 8 (.struct "Outer" [("inner", .struct "Inner" [("x", .int 1), ("y", .int 7)])])
    (.struct "Outer" Sample.boxed) = .ok true := by decide

-- `Outer.from_bytes(b"\x01\x07") == Outer(inner=Inner(x=1)).to_dict()`
example : ∃ m r, (∀ pre rest, structFromStream Sample.nestedClasses m Sample.outer ⟨pre ++ [1, 7] ++ rest, pre.length⟩ .none [] =
        (.ok r, ⟨pre ++ [1, 7] ++ rest, pre.length + 2⟩)) ∧
      (Listable Sample.nestedClasses Sample.outer r →
        EqReturns Sample.nestedClasses (.struct "Outer" r) (.dict [("inner", .dict [("x", .int 1), ("y", .int 7)])]) true ∧
        EqReturns Sample.nestedClasses (.dict [("inner", .dict [("x", .int 1), ("y", .int 7)])]) (.struct "Outer" r) true) :=
  C104_equals_dict Sample.nestedClasses Sample.nestedClasses_schema 8 "Outer" Sample.outer Sample.boxed _ .none [1, 7] rfl
    Sample.boxed_plain (by decide) Sample.boxed_complete (by decide)

/-- Both instances have the length 2. -/
theorem Sample.boxed_listable : Listable Sample.nestedClasses Sample.outer Sample.boxed ∧
    Listable Sample.nestedClasses Sample.outer [("inner", .struct "Inner" [("x", .int 1), ("y", .int 7)])] :=
  ⟨⟨8, Or.inl ⟨2, by decide, by decide, by decide⟩⟩, ⟨8, Or.inl ⟨2, by decide, by decide, by decide⟩⟩⟩

theorem Sample.inner_built : ∀ f ∈ Sample.inner.components, BuiltSources Sample.nestedClasses f := by
  intro f hf
  rcases List.mem_cons.1 hf with rfl | hf
  · exact ⟨fun v _ _ => .leaf, fun fn view v h => by cases h⟩
  · obtain rfl := List.mem_singleton.1 hf
    exact ⟨fun v _ _ => .leaf, fun fn view v h => by cases h⟩

theorem Sample.outer_built : ∀ f ∈ Sample.outer.components, BuiltSources Sample.nestedClasses f := by
  intro f hf
  obtain rfl := List.mem_singleton.1 hf
  exact ⟨fun v h => absurd rfl h, fun fn view v h => by cases h⟩

example : ∀ f ∈ Sample.outer.components, ∀ w,
    Dict.get? [("inner", .dict [("x", .int 1), ("y", .int 7)])] f.name = some w → Complete Sample.nestedClasses f w := by
  refine C104_structs Sample.nestedClasses Sample.nestedClasses_schema 8 Sample.outer Sample.boxed _ Sample.boxed_plain ?_
    Sample.outer_built ?_ (by decide)
  · intro c d h
    unfold Sample.nestedClasses Classes.add at h
    split at h
    · cases h; exact Sample.outer_built
    · split at h
      · cases h; exact Sample.inner_built
      · simp [Sample.noClasses] at h
  · intro f hf v hv
    obtain rfl := List.mem_singleton.1 hf
    cases hv
    refine .struct (d := Sample.inner) rfl fun g hg w hw => ?_
    rcases List.mem_cons.1 hg with rfl | hg
    · exact .leaf
    · obtain rfl := List.mem_singleton.1 hg
      exact .leaf

/-- Everything of `s` itself must be set: fields left to their defaults are set in the loaded struct, but not in `s`. -/
theorem C104_default_refuted :
    ∃ (Γ : Classes) (d : StructDesc) (vals r : Dict) (bs : Bytes) (n : Nat), Γ d.name = some d ∧ PlainInstance Γ d vals ∧
      structToStream Γ n d vals .none = (bs, .ok ()) ∧ structFromStream Γ n d ⟨bs, 0⟩ .none [] = (.ok r, ⟨bs, bs.length⟩) ∧
      EqReturns Γ (.struct d.name r) (.struct d.name vals) false := by
  refine ⟨Sample.nestedClasses, Sample.inner, [("x", .int 1)], [("x", .int 1), ("y", .int 7)], [1, 7], 5, rfl,
    ⟨Sample.inner_schema, by unfold Instance; decide, fun f hf w hw => ?_⟩, by decide, by decide, 5, by decide⟩
  rcases List.mem_cons.1 hf with rfl | hf
  · cases hw; exact .leaf trivial (Or.inl rfl)
  · obtain rfl := List.mem_singleton.1 hf
    cases hw

/-- Dictionaries for nested structs must have all the fields: `Outer(inner={"x": 1})` is loaded as `Outer(inner=Inner(x=1, y=7))`, and
neither the structs nor what `to_dict` returns are equal. -/
theorem C104_dict_refuted :
    ∃ (Γ : Classes) (d : StructDesc) (vals r all all' : Dict) (bs : Bytes) (n : Nat), Γ d.name = some d ∧ PlainInstance Γ d vals ∧
      AllSet d vals ∧ structToStream Γ n d vals .none = (bs, .ok ()) ∧
      structFromStream Γ n d ⟨bs, 0⟩ .none [] = (.ok r, ⟨bs, bs.length⟩) ∧ structToDict Γ n d vals = .ok all ∧
      structToDict Γ n d r = .ok all' ∧ EqReturns Γ (.struct d.name r) (.struct d.name vals) false ∧
      EqReturns Γ (.dict all') (.dict all) false := by
  refine ⟨Sample.nestedClasses, Sample.outer, [("inner", .dict [("x", .int 1)])],
    [("inner", .struct "Inner" [("x", .int 1), ("y", .int 7)])], [("inner", .dict [("x", .int 1)])],
    [("inner", .dict [("x", .int 1), ("y", .int 7)])], [1, 7], 8, rfl, ⟨Sample.outer_schema, by unfold Instance; decide, fun f hf w hw => ?_⟩,
    fun f hf => by obtain rfl := List.mem_singleton.1 hf; exact ⟨_, rfl⟩, by decide, by decide, by decide, by decide, ⟨8, by decide⟩,
    ⟨8, by decide⟩⟩
  obtain rfl := List.mem_singleton.1 hf
  cases hw
  refine .dict (d := Sample.inner) rfl (by unfold Instance; decide) fun g hg w hw => ?_
  rcases List.mem_cons.1 hg with rfl | hg
  · cases hw; exact .leaf trivial (Or.inl rfl)
  · obtain rfl := List.mem_singleton.1 hg
    cases hw

/-- ```
class Reading(Struct):
    level = Float64(endian="big")
``` -/
def Sample.reading : StructDesc :=
  { name := "Reading"
    components := [.leaf { name := "level", typeName := "Float64", size := .fixed 8 } (.float binary64 .big)]
    fieldValidators := [("level", [])], numOwnFields := 1 }

/-- Values must match their fields: NaN comes back as NaN, which is not equal to itself. -/
theorem C104_nan_refuted :
    ∃ (Γ : Classes) (d : StructDesc) (vals r : Dict) (bs : Bytes) (n : Nat), Γ d.name = some d ∧ Instance d vals ∧ AllSet d vals ∧
      structToStream Γ n d vals .none = (bs, .ok ()) ∧ structFromStream Γ n d ⟨bs, 0⟩ .none [] = (.ok r, ⟨bs, bs.length⟩) ∧
      r = vals ∧ EqReturns Γ (.struct d.name r) (.struct d.name vals) false := by
  refine ⟨Classes.add Sample.noClasses Sample.reading, Sample.reading, [("level", .float 0x7FF8000000000000)],
    [("level", .float 0x7FF8000000000000)], [0x7F, 0xF8, 0, 0, 0, 0, 0, 0], 5, rfl, by unfold Instance; decide,
    fun f hf => by obtain rfl := List.mem_singleton.1 hf; exact ⟨_, rfl⟩, by decide +kernel, by decide +kernel, rfl, 5, by decide +kernel⟩

/-- ```
class Padded(Struct):
    x = UInt8()
    pad = UInt8(discard=True, default=0)
``` -/
def Sample.cushioned : StructDesc :=
  { name := "Padded"
    components := [Sample.u8 "x", Sample.upd (Sample.u8 "pad") ({ · with discard := true, dflt := .int 0 })]
    fieldValidators := [("x", []), ("pad", [])], numOwnFields := 2 }

/-- Fields must be kept after loading: a discarded field that is set in `s` is missing in the loaded struct. -/
theorem C104_discard_refuted :
    ∃ (Γ : Classes) (d : StructDesc) (vals r : Dict) (bs : Bytes) (n : Nat), Γ d.name = some d ∧ Instance d vals ∧ AllSet d vals ∧
      structToStream Γ n d vals .none = (bs, .ok ()) ∧ structFromStream Γ n d ⟨bs, 0⟩ .none [] = (.ok r, ⟨bs, bs.length⟩) ∧
      EqReturns Γ (.struct d.name r) (.struct d.name vals) false := by
  refine ⟨Classes.add Sample.noClasses Sample.cushioned, Sample.cushioned, [("x", .int 1), ("pad", .int 0)],
    [("x", .int 1)], [1, 0], 5, rfl, by unfold Instance; decide, fun f hf => ?_, by decide, by decide, 5, by decide⟩
  rcases List.mem_cons.1 hf with rfl | hf
  · exact ⟨_, rfl⟩
  · obtain rfl := List.mem_singleton.1 hf; exact ⟨_, rfl⟩

-- the tree of `C26` cannot be compared
example (other : Value) (res : Bool) (ho : other ≠ .undefined) :
    ¬ EqReturns Sample.treeClasses (.struct "Tree" Sample.bigTree) other res := by
  refine (C104_counted_array_refuted Sample.treeClasses "Tree" Sample.tree Sample.bigTree
    [Sample.upd (Sample.u16 "label") ({ · with dflt := .int 7 }), Sample.u8 "n"] [] _ _ "n" none rfl Sample.bigTree_plain
    (fun f hf => ?_) rfl (by decide) rfl (fun f hf => ?_)).2 other res ho
  · simp only [Sample.tree, List.mem_cons, List.not_mem_nil, or_false] at hf
    rcases hf with rfl | rfl | rfl <;> exact ⟨_, rfl⟩
  · simp only [List.mem_cons, List.not_mem_nil, or_false] at hf
    rcases hf with rfl | rfl <;> exact ⟨_, rfl⟩

end Verif
