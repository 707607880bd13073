import Verif.Proofs.Optional
import Verif.Props.RoundTrip
import Verif.Props.IntCodec

/-!
# C26 for classes with optional fields
-/

namespace Verif
open Spec

/-- **C26** for classes with optional fields: as for plain classes, but a field may be left out depending on the values of earlier
plain fields, and a field without children may be `None`.  Every instance whose values match the fields, *if it can be dumped at all*,
comes back (a class may also have unions whose choice depends on the values of earlier plain fields, plain fields that are computed from
others, and discarded fields such as magic numbers and padding): every field that is not discarded is in the loaded struct with the value
`to_dict` gives, which is `NOT_PRESENT` exactly for the fields that are left out; discarded fields are in neither; and exactly the dumped bytes
are consumed. -/
theorem C26_optional_round_trip (Γ : Classes) (hΓ : ∀ c d, Γ c = some d → OptionalSchema Γ d) (n : Nat) (d : StructDesc) (vals : Dict)
    (ctx : Value) (bs : Bytes) (hd : OptionalSchema Γ d) (hh : Bears Γ d vals)
    (h : structToStream Γ (n + 1) d vals ctx = (bs, .ok ())) :
    ∃ all m r, structToDict Γ n d vals = .ok all ∧
      (∀ f ∈ d.components, f.base.discard = false → ∃ v w, Dict.get? all f.name = some w ∧ Dict.get? r f.name = some v ∧ Stands v w ∧
        (w = .notPresent ↔ f.base.present (structView d vals) .none none = .ok false)) ∧
      (∀ f ∈ d.components, f.base.discard = true → Dict.get? all f.name = none ∧ Dict.get? r f.name = none) ∧
      ∀ pre rest, structFromStream Γ m d ⟨pre ++ bs ++ rest, pre.length⟩ ctx [] =
        (.ok r, ⟨pre ++ bs ++ rest, pre.length + bs.length⟩) := by
  obtain ⟨hval, all, h1, ps, h2, -⟩ := structToStream_ok_iff.1 h
  obtain ⟨m, r, h3, h4⟩ := C26_round_trip_partial Γ n d vals all ctx bs hd.unique h1 (optionalSchema_proper hΓ hd hh h1 hval h2) h
  refine ⟨all, m, r, h1, fun f hf hk => ?_, fun f hf hk => ⟨?_, ?_⟩, h4⟩
  · obtain ⟨w, h5, -, h6⟩ := toDict_cases hΓ hd hh h1 hf hk
    obtain ⟨v, h7, h8⟩ := h3 f hf hk w h5
    refine ⟨v, w, h5, h7, h8, ?_⟩
    rcases h6 with ⟨h6, h9⟩ | ⟨h6, -, h9⟩
    · simp [h6, h9]
    · simp [h6, h9]
  · rcases (structToDict_get hd.unique hh.inst h1).2.2 f hf with ⟨-, -, h5⟩ | ⟨h5, -⟩
    · exact h5
    · rw [hk] at h5; simp at h5
  · have h5 := h4 [] []
    cases m with
    | zero => simp [structFromStream] at h5
    | succ m =>
      obtain ⟨results, -, -, -, rfl⟩ := structFromStream_ok_iff.1 h5
      rw [dropDiscarded_get hd.unique results hf, hk]; simp

/-- The checks of a class without checks. -/
theorem unchecked_impartial {d : StructDesc} (h1 : ∀ p ∈ d.fieldValidators, p.2 = [] ∧ p.1 ∈ names d)
    (h2 : ∀ f ∈ d.components, f.base.validators = []) (h3 : d.structValidators = []) (hu : UniqueNames d) : Impartial d :=
  fun _ _ _ _ _ hr _ => unchecked_accepts h1 h2 h3 hu hr

/-! ### Which fields can be `None` -/

/-- An integer field whose null value is a number in its range: `None` looks like this number. -/
theorem C26_null_integer (b : FieldBase) (k : Nat) (signed : Bool) (e : Endian) (i : Int) (hsize : b.size = .fixed k) (hk : 0 < k)
    (hi : InRange k signed i) (hn : b.nullValue = .int i) : ∃ repr, NullReads b (.integer signed e) repr (.int i) := by
  obtain ⟨bs, h1, h2⟩ := (C11_write_int_range i k hk e signed).1 hi
  refine ⟨bs, fun values => ?_, by rw [hn]; constructor, fun pre rest ctx loaded => ?_⟩
  · simp [leafNullRepr, FieldBase.nullReprWith, hn, leafDump, hsize, h1, unserializableOnRange, W.ofExcept, W.ok, W.toExcept]
  · simp only [leafLoad, hsize]
    rw [C10_write_read i k hk signed e bs pre rest h1, h2]
    rfl

/-- An integer field with `null_value=DEFAULT`: `None` is written as zeros, and looks like 0. -/
theorem C26_null_zeros (b : FieldBase) (k : Nat) (signed : Bool) (e : Endian) (hsize : b.size = .fixed k) (hk : 0 < k)
    (hn : b.nullValue = .dflt) : NullReads b (.integer signed e) (List.replicate k 0) (.int 0) := by
  have hi : InRange k signed 0 := by
    have : (0 : Int) < 256 ^ k := Int.pow_pos (by decide)
    unfold InRange
    split
    · constructor <;> omega
    · constructor <;> omega
  obtain ⟨bs, h1, h2⟩ := (C11_write_int_range 0 k hk e signed).1 hi
  have hz : bs = List.replicate k 0 := by
    have h3 := ((intToBytes_eq 0 k hk e signed).1 hi).symm.trans h1
    cases h3
    have hle : natToLE k 0 = List.replicate k 0 := by
      clear hk hsize hi h1 h2
      induction k with
      | zero => rfl
      | succ k ih => simp [natToLE, ih, List.replicate_succ]
    simp only [Int.zero_emod, Int.toNat_zero, hle]
    cases e <;> simp [Endian.arrange]
  subst hz
  refine ⟨fun values => ?_, by rw [hn]; constructor, fun pre rest ctx loaded => ?_⟩
  · simp [leafNullRepr, FieldBase.nullReprWith, hn, leafExpectedSize, FieldBase.expectedSizeWith, hsize]
  · simp only [leafLoad, hsize]
    rw [C10_write_read 0 k hk signed e _ pre rest h1, h2]
    rfl

/-! ### Examples -/

def Sample.nodeValue : Field := Sample.upd (Sample.i16 "value") ({ · with nullValue := .int (-1) })

def Sample.nodeMore : Field := Sample.u8 "more"

def Sample.nodeNext : Field :=
  Sample.upd (Sample.nested "next" "Node") ({ · with present := fun v _ _ => (v.get "more").map fun x => scalarEq x (.int 1) })

/-- ```
class Node(Struct):
    value = Int16(endian="little", null_value=-1)
    more = UInt8()
    next = Nested("Node", present=lambda f, *_: f["more"] == 1)
``` -/
def Sample.node : StructDesc :=
  { name := "Node"
    components := [Sample.nodeValue, Sample.nodeMore, Sample.nodeNext]
    fieldValidators := [("value", []), ("more", []), ("next", [])], numOwnFields := 3 }

def Sample.nodeClasses : Classes := Classes.add Sample.noClasses Sample.node

/-- A list of three nodes: the second one has no value. -/
def Sample.chain : Dict :=
  [("value", .int 5), ("more", .int 1), ("next", .struct "Node" [("value", .none), ("more", .int 1),
    ("next", .dict [("value", .int 7), ("more", .int 0)])])]

theorem Sample.node_null : ∃ repr, NullReads { name := "value", typeName := "Int16", size := .fixed 2, explicit := ["endian"], nullValue := .int (-1) }
    (.integer true .little) repr (.int (-1)) :=
  C26_null_integer _ 2 true .little (-1) rfl (by decide) (by unfold InRange; decide) rfl

theorem Sample.node_schema : OptionalSchema Sample.nodeClasses Sample.node where
  unique := by unfold UniqueNames; decide
  checks := unchecked_impartial (by decide) (by simp [Sample.node, Sample.nodeValue, Sample.nodeMore, Sample.nodeNext, Sample.upd, Sample.i16, Sample.u8, Sample.nested, Field.withBase, Field.base])
    rfl (by unfold UniqueNames; decide)
  fields := by
    intro pre f post hpre
    have hcases : (pre = [] ∧ f = Sample.nodeValue) ∨ (pre = Sample.node.components.take 1 ∧ f = Sample.nodeMore) ∨
        (pre = Sample.node.components.take 2 ∧ f = Sample.nodeNext) := by
      match pre, hpre with
      | [], h => left; injection h with h _; exact ⟨rfl, h.symm⟩
      | [_], h => right; left; injection h with h1 h; injection h with h2 _; subst h1; exact ⟨rfl, h2.symm⟩
      | [_, _], h =>
        right; right; injection h with h1 h; injection h with h2 h; injection h with h3 _; subst h1 h2; exact ⟨rfl, h3.symm⟩
      | _ :: _ :: _ :: l, h =>
        injection h with _ h; injection h with _ h; injection h with _ h
        simp at h
    rcases hcases with ⟨rfl, rfl⟩ | ⟨rfl, rfl⟩ | ⟨rfl, rfl⟩
    · exact
        { layout := .integer (n := 2) rfl (by decide)
          grounded := .leaf
          optional := ⟨[], by simp, fun _ _ _ _ _ _ _ => rfl⟩
          omitted := rfl
          null := Or.inr (by obtain ⟨repr, h⟩ := Sample.node_null; exact ⟨_, _, repr, _, rfl, h⟩)
          kept := Or.inl rfl
          defaults := fun v h => absurd rfl h
          computed := fun fn view v h => by cases h }
    · exact
        { layout := .integer (n := 1) rfl (by decide)
          grounded := .leaf
          optional := ⟨[], by simp, fun _ _ _ _ _ _ _ => rfl⟩
          omitted := rfl
          null := Or.inl rfl
          kept := Or.inl rfl
          defaults := fun v h => absurd rfl h
          computed := fun fn view v h => by cases h }
    · refine
        { layout := .nested rfl rfl
          grounded := .nested
          optional := ⟨["more"], ?_, ?_⟩
          omitted := rfl
          null := Or.inl rfl
          kept := Or.inl rfl
          defaults := fun v h => absurd rfl h
          computed := fun fn view v h => by cases h }
      · intro r hr
        simp at hr; subst hr
        exact ⟨_, _, .tail _ (.head _), rfl, ⟨fun _ _ _ => rfl, rfl⟩, rfl, traceable_of_none rfl⟩
      · intro v₁ v₂ _ _ _ _ h
        show (v₁.get "more").map _ = (v₂.get "more").map _
        rw [h "more" (by simp)]

theorem Sample.nodeClasses_schema (c : String) (d : StructDesc) (h : Sample.nodeClasses c = some d) : OptionalSchema Sample.nodeClasses d := by
  unfold Sample.nodeClasses Classes.add at h
  split at h
  · cases h; exact Sample.node_schema
  · simp [Sample.noClasses] at h

theorem Sample.chain_bears : Bears Sample.nodeClasses Sample.node Sample.chain := by
  have hint : ∀ i : Int, i ≠ -1 → Fitting Sample.nodeClasses (fun _ => True) Sample.nodeValue (.int i) := by
    intro i hi
    obtain ⟨repr, h⟩ := Sample.node_null
    exact .leaf trivial (Or.inl rfl) (Or.inr ⟨repr, _, h, by simpa using hi, by simpa [scalarEq, Sample.upd, Sample.i16, Field.withBase, Field.base] using hi⟩)
  have hnone : Fitting Sample.nodeClasses (fun _ => True) Sample.nodeValue .none := by
    obtain ⟨repr, h⟩ := Sample.node_null
    exact .null (by simp) h
  have hmore : ∀ i : Int, Fitting Sample.nodeClasses (fun _ => True) Sample.nodeMore (.int i) := fun i => .leaf trivial (Or.inl rfl) (Or.inl rfl)
  have key : ∀ vals : Dict, (∀ w, Dict.get? vals "value" = some w → Fitting Sample.nodeClasses (fun _ => True) Sample.nodeValue w) →
      (∀ w, Dict.get? vals "more" = some w → Fitting Sample.nodeClasses (fun _ => True) Sample.nodeMore w) →
      (∀ w, Dict.get? vals "next" = some w → Fitting Sample.nodeClasses (fun _ => True) Sample.nodeNext w) →
      (∀ f ∈ Sample.node.components, Dict.get? vals f.name = some .notPresent → f.base.present (structView Sample.node vals) .none none = .ok false) ∧
      (∀ f ∈ Sample.node.components, ∀ w, Dict.get? vals f.name = some w → w ≠ .notPresent → Fitting Sample.nodeClasses (SameTags Sample.node vals) f w) := by
    intro vals h1 h2 h3
    have hall : ∀ f ∈ Sample.node.components, ∀ w, Dict.get? vals f.name = some w → Fitting Sample.nodeClasses (fun _ => True) f w := by
      intro f hf
      simp only [Sample.node, List.mem_cons, List.not_mem_nil, or_false] at hf
      rcases hf with rfl | rfl | rfl
      · exact h1
      · exact h2
      · exact h3
    exact ⟨fun f hf h => absurd rfl (hall f hf _ h).ne.2.2, fun f hf w h _ => (hall f hf w h).any⟩
  have hlast : Fitting Sample.nodeClasses (fun _ => True) Sample.nodeNext (.dict [("value", .int 7), ("more", .int 0)]) := by
    obtain ⟨h1, h2⟩ := key [("value", .int 7), ("more", .int 0)] (by rintro w h; cases h; exact hint 7 (by decide))
      (by rintro w h; cases h; exact hmore 0) (by rintro w h; cases h)
    refine .dict (d := Sample.node) rfl (by unfold Instance; decide) h1 ?_ (by decide) h2
    intro f hf w hw _
    simp only [Sample.node, List.mem_cons, List.not_mem_nil, or_false] at hf
    rcases hf with rfl | rfl | rfl
    · intro h; cases h
    · intro h; cases h
    · cases hw
  have hmid : Fitting Sample.nodeClasses (fun _ => True) Sample.nodeNext (.struct "Node" [("value", .none), ("more", .int 1),
      ("next", .dict [("value", .int 7), ("more", .int 0)])]) := by
    obtain ⟨h1, h2⟩ := key [("value", .none), ("more", .int 1), ("next", .dict [("value", .int 7), ("more", .int 0)])]
      (by rintro w h; cases h; exact hnone) (by rintro w h; cases h; exact hmore 1) (by rintro w h; cases h; exact hlast)
    exact .struct (d := Sample.node) rfl (by unfold Instance; decide) h1 h2
  obtain ⟨h1, h2⟩ := key Sample.chain (by rintro w h; cases h; exact hint 5 (by decide)) (by rintro w h; cases h; exact hmore 1)
    (by rintro w h; cases h; exact hmid)
  exact ⟨by unfold Instance; decide, h1, h2⟩

example : ∃ all m r, structToDict Sample.nodeClasses 11 Sample.node Sample.chain = .ok all ∧
      (∀ f ∈ Sample.node.components, f.base.discard = false → ∃ v w, Dict.get? all f.name = some w ∧ Dict.get? r f.name = some v ∧ Stands v w ∧
        (w = .notPresent ↔ f.base.present (structView Sample.node Sample.chain) .none none = .ok false)) ∧
      (∀ f ∈ Sample.node.components, f.base.discard = true → Dict.get? all f.name = none ∧ Dict.get? r f.name = none) ∧
      ∀ pre rest, structFromStream Sample.nodeClasses m Sample.node ⟨pre ++ [5, 0, 1, 255, 255, 1, 7, 0, 0] ++ rest, pre.length⟩ .none [] =
        (.ok r, ⟨pre ++ [5, 0, 1, 255, 255, 1, 7, 0, 0] ++ rest, pre.length + 9⟩) :=
  C26_optional_round_trip Sample.nodeClasses Sample.nodeClasses_schema 11 Sample.node Sample.chain .none _ Sample.node_schema
    Sample.chain_bears (by decide +kernel)

/-! ### A tagged union -/

theorem optional_fields_of_index {Γ : Classes} {all fs : List Field} (h : ∀ i (hi : i < fs.length), OptionalField Γ all (fs.take i) fs[i])
    (pre : List Field) (f : Field) (post : List Field) (hd : fs = pre ++ f :: post) : OptionalField Γ all pre f := by
  subst hd
  have := h pre.length (by simp)
  simpa using this

/-- A field without children, default or computed value that is always there and never `None`. -/
theorem optional_field_plain {Γ : Classes} {all pre : List Field} {b : FieldBase} {k : Leaf} (hl : Layout (pre.map Field.name) (.leaf b k))
    (ha : Always b) (hn : b.notPresentValue = .notPresent) (hk : b.discard = false) (hd : b.dflt = .undefined) (hc : b.computeFn = none) :
    OptionalField Γ all pre (.leaf b k) where
  layout := hl
  grounded := .leaf
  optional := ⟨[], by simp, fun v₁ v₂ c₁ c₂ s₁ s₂ _ => by
    show b.present v₁ c₁ s₁ = b.present v₂ c₂ s₂
    rw [ha.1, ha.1]⟩
  omitted := hn
  null := Or.inl ha.2
  kept := Or.inl hk
  defaults := fun v h => absurd hd h
  computed := fun fn view v h => by
    have h' : b.computeFn = some fn := h
    rw [hc] at h'
    cases h'

/-- `lambda …, fields: choices[fields["kind"]]` -/
def Sample.byKind (fields : Dict) : Except Err Nat :=
  match Dict.get? fields "kind" with
  | some (.int i) => .ok i.toNat
  | _ => .error (.keyErr "kind")

/-- The choices of `Cell.value`. -/
def Sample.cellChoices : List (Field ⊕ String) := [.inl (Sample.strz ""), .inl (Sample.u16 ""), .inr "Point"]

def Sample.cellValue : Field :=
  .union { name := "value", index := 1, offset := some 1 } Sample.cellChoices (fun _ _ loaded => Sample.byKind loaded) (fun _ _ all => Sample.byKind all)

/-- ```
class Cell(Struct):
    kind = UInt8()
    value = Union(StringZ(encoding="utf-8"), UInt16(endian="big"), Point,
                  load_decider=lambda stream, classes, context, loaded: classes[loaded["kind"]],
                  dump_decider=lambda data, classes, context, fields: classes[fields["kind"]])
``` -/
def Sample.cell : StructDesc :=
  { name := "Cell", components := [Sample.u8 "kind", Sample.cellValue], fieldValidators := [("kind", []), ("value", [])], numOwnFields := 2 }

def Sample.cellClasses : Classes := Classes.add Sample.pointClasses Sample.cell

theorem Sample.byKind_decided : DecidedBy ["kind"] (fun _ _ loaded => Sample.byKind loaded) (fun _ _ all => Sample.byKind all) := by
  intro s v ctx ctx' loaded all h
  simp only [Sample.byKind, h "kind" (by simp)]

theorem Sample.cell_schema : OptionalSchema Sample.cellClasses Sample.cell where
  unique := by unfold UniqueNames; decide
  checks := unchecked_impartial (by decide) (by simp [Sample.cell, Sample.cellValue, Sample.u8, Field.base]) rfl (by unfold UniqueNames; decide)
  fields := by
    refine optional_fields_of_index fun i hi => ?_
    match i, hi with
    | 0, _ => exact optional_field_plain (.integer (n := 1) rfl (by decide)) ⟨fun _ _ _ => rfl, rfl⟩ rfl rfl rfl rfl
    | 1, _ =>
      have hch : ∀ g, .inl g ∈ Sample.cellChoices → g = Sample.strz "" ∨ g = Sample.u16 "" := by
        intro g hg
        simpa [Sample.cellChoices] using hg
      exact
        { layout := .union rfl rfl Sample.byKind_decided (fun g hg => by rcases hch g hg with rfl | rfl <;> exact ⟨fun _ _ _ => rfl, rfl⟩)
            (fun g hg => by
              rcases hch g hg with rfl | rfl
              · exact .stringz .utf8 rfl rfl (by decide)
              · exact .integer (n := 2) rfl (by decide))
          grounded := .union (refs := ["kind"])
            (fun r hr => by simp at hr; subst hr; exact ⟨_, _, .head _, rfl, ⟨fun _ _ _ => rfl, rfl⟩, rfl, traceable_of_none rfl⟩) Sample.byKind_decided
            (fun g hg => by rcases hch g hg with rfl | rfl <;> exact .leaf)
          optional := ⟨[], by simp, fun _ _ _ _ _ _ _ => rfl⟩
          omitted := rfl
          null := Or.inl rfl
          kept := Or.inl rfl
          defaults := fun v h => absurd rfl h
          computed := fun fn view v h => by cases h }

theorem Sample.point_optional (Γ : Classes) : OptionalSchema Γ Sample.point where
  unique := by unfold UniqueNames; decide
  checks := unchecked_impartial (by decide) (by simp [Sample.point, Sample.upd, Sample.i16, Field.withBase, Field.base])
    rfl (by unfold UniqueNames; decide)
  fields := by
    refine optional_fields_of_index fun i hi => ?_
    match i, hi with
    | 0, _ => exact optional_field_plain (.integer (n := 2) rfl (by decide)) ⟨fun _ _ _ => rfl, rfl⟩ rfl rfl rfl rfl
    | 1, _ => exact optional_field_plain (.integer (n := 2) rfl (by decide)) ⟨fun _ _ _ => rfl, rfl⟩ rfl rfl rfl rfl

theorem Sample.cellClasses_schema (c : String) (d : StructDesc) (h : Sample.cellClasses c = some d) : OptionalSchema Sample.cellClasses d := by
  unfold Sample.cellClasses Sample.pointClasses Classes.add at h
  split at h
  · cases h; exact Sample.cell_schema
  · split at h
    · cases h; exact Sample.point_optional _
    · simp [Sample.noClasses] at h

/-- A cell of kind 2 with a point. -/
def Sample.pointCell : Dict := [("kind", .int 2), ("value", .dict [("x", .int 3), ("y", .int (-2))])]

theorem Sample.pointCell_bears : Bears Sample.cellClasses Sample.cell Sample.pointCell where
  inst := by unfold Instance; decide
  absent := by
    intro f hf h
    simp only [Sample.cell, List.mem_cons, List.not_mem_nil, or_false] at hf
    rcases hf with rfl | rfl <;> cases h
  fits := by
    intro f hf w hw _
    simp only [Sample.cell, List.mem_cons, List.not_mem_nil, or_false] at hf
    rcases hf with rfl | rfl
    · cases hw; exact .leaf trivial (Or.inl rfl) (Or.inl rfl)
    · cases hw
      have hk : ∀ all, SameTags Sample.cell Sample.pointCell all → Sample.byKind all = .ok 2 := by
        intro all h
        have := h "kind" (.int 2) ⟨_, _, .head _, rfl, ⟨fun _ _ _ => rfl, rfl⟩, rfl, traceable_of_none rfl⟩ rfl
        simp [Sample.byKind, this]
      refine .union (by simp) (by simp) (by simp) (by simp) ?_ ?_
      · intro v ctx all i g h1 h2 h3
        rw [hk all h1] at h2
        cases h2
        simp [Sample.cellChoices] at h3
      · intro v ctx all i cls h1 h2 h3
        rw [hk all h1] at h2
        cases h2
        simp [Sample.cellChoices] at h3
        subst h3
        refine .dict (d := Sample.point) rfl (by unfold Instance; decide) ?_ ?_ (by decide) ?_
        · intro f hf h
          simp only [Sample.point, List.mem_cons, List.not_mem_nil, or_false] at hf
          rcases hf with rfl | rfl <;> cases h
        · intro f hf w _ _ h
          simp only [Sample.point, List.mem_cons, List.not_mem_nil, or_false] at hf
          rcases hf with rfl | rfl <;> cases h
        · intro f hf w hw _
          simp only [Sample.point, List.mem_cons, List.not_mem_nil, or_false] at hf
          rcases hf with rfl | rfl <;> cases hw <;> exact .leaf trivial (Or.inl rfl) (Or.inl rfl)

example : ∃ all m r, structToDict Sample.cellClasses 9 Sample.cell Sample.pointCell = .ok all ∧
      (∀ f ∈ Sample.cell.components, f.base.discard = false → ∃ v w, Dict.get? all f.name = some w ∧ Dict.get? r f.name = some v ∧ Stands v w ∧
        (w = .notPresent ↔ f.base.present (structView Sample.cell Sample.pointCell) .none none = .ok false)) ∧
      (∀ f ∈ Sample.cell.components, f.base.discard = true → Dict.get? all f.name = none ∧ Dict.get? r f.name = none) ∧
      ∀ pre rest, structFromStream Sample.cellClasses m Sample.cell ⟨pre ++ [2, 3, 0, 254, 255] ++ rest, pre.length⟩ .none [] =
        (.ok r, ⟨pre ++ [2, 3, 0, 254, 255] ++ rest, pre.length + 5⟩) :=
  C26_optional_round_trip Sample.cellClasses Sample.cellClasses_schema 9 Sample.cell Sample.pointCell .none _ Sample.cell_schema
    Sample.pointCell_bears (by decide +kernel)

/-! ### Magic numbers, padding, computed sizes and checks -/

/-- `len(all_fields["data"])` -/
def Sample.dataSize (v : View) : Except Err Value :=
  (v.get "data").bind fun x => match x with
    | .bytes b => .ok (.int b.length)
    | _ => .error .typeErr

/-- `f["n"] % 2` -/
def Sample.oddSize (v : View) : Except Err Bool :=
  (v.get "n").bind fun x => match x with
    | .int i => .ok (decide (i % 2 = 1))
    | _ => .error .typeErr

/-- `if struct["version"] == 0: raise ValidationError` -/
def Sample.parcelChecked (v : View) : Except Err Unit :=
  (v.get "version").bind fun x => if scalarEq x (.int 0) then .error (.validation "version") else .ok ()

def Sample.parcelMagic : Field :=
  .leaf { name := "magic", size := .fixed 2, const := .bytes [80, 75], dflt := .bytes [80, 75], discard := true } .bytes

def Sample.parcelVersion : Field := Sample.upd (Sample.u8 "version") ({ · with dflt := .int 1 })

def Sample.parcelSize : Field := Sample.upd (Sample.u8 "n") ({ · with computeFn := some Sample.dataSize })

def Sample.parcelPad : Field :=
  .leaf { name := "pad", size := .fixed 1, const := .bytes [0], dflt := .bytes [0], discard := true,
          present := fun v _ _ => Sample.oddSize v } .bytes

/-- ```
class Parcel(Struct):
    magic = Bytes(const=b"PK", discard=True)
    version = UInt8(default=1)
    n = UInt8()
    pad = Bytes(const=b"\0", discard=True, present=lambda f, *_: f["n"] % 2)
    data = Bytes(size=n)

    @n.computes
    def _n(self, all_fields): return len(all_fields["data"])

    @validates_struct
    def _check(self, struct): …  # raises for version 0
``` -/
def Sample.parcel : StructDesc :=
  { name := "Parcel"
    components := [Sample.parcelMagic, Sample.parcelVersion, Sample.parcelSize, Sample.parcelPad, Sample.bytesRef "data" "n"]
    fieldValidators := [("magic", []), ("version", []), ("n", []), ("pad", []), ("data", [])]
    structValidators := [Sample.parcelChecked], numOwnFields := 5 }

theorem Sample.dataSize_int {view : View} {v : Value} (h : Sample.dataSize view = .ok v) : ∃ i, v = .int i := by
  unfold Sample.dataSize at h
  cases hg : view.get "data" with
  | error e => rw [hg] at h; simp [Except.bind] at h
  | ok x =>
    rw [hg] at h
    cases x <;> simp [Except.bind] at h
    exact ⟨_, h.symm⟩

theorem Sample.parcelSize_traceable :
    Traceable Sample.parcel.components { name := "n", typeName := "UInt8", size := .fixed 1, computeFn := some Sample.dataSize } := by
  intro fn hfn
  simp only [Option.some.injEq] at hfn
  subst hfn
  refine ⟨["data"], ?_, fun v₁ v₂ h => ?_⟩
  · intro r hr
    simp only [List.mem_singleton] at hr
    subst hr
    exact ⟨_, _, .tail _ (.tail _ (.tail _ (.tail _ (.head _)))), rfl, ⟨fun _ _ _ => rfl, rfl⟩, rfl, rfl⟩
  · simp only [Sample.dataSize, h "data" (by simp)]

theorem Sample.parcel_impartial : Impartial Sample.parcel := by
  intro r r' _ _ hs hr hv
  have hu : UniqueNames Sample.parcel := by unfold UniqueNames; decide
  obtain ⟨x, h1, h2⟩ := hs "version" ⟨_, _, .tail _ (.head _), rfl, ⟨fun _ _ _ => rfl, rfl⟩, rfl, traceable_of_none rfl⟩
  have h := unchecked_accepts (d := { Sample.parcel with structValidators := [] }) (by decide)
    (by simp [Sample.parcel, Sample.parcelMagic, Sample.parcelVersion, Sample.parcelSize, Sample.parcelPad, Sample.upd, Sample.u8, Sample.bytesRef,
      Field.withBase, Field.base]) rfl hu (r := r') hr
  refine ⟨h.1, fun m hm => ?_⟩
  simp only [Sample.parcel, List.mem_singleton] at hm
  subst hm
  have h3 := hv.2 Sample.parcelChecked (by simp [Sample.parcel])
  simpa only [Sample.parcelChecked, structView, h1, h2] using h3

theorem Sample.parcel_schema : OptionalSchema Sample.noClasses Sample.parcel where
  unique := by unfold UniqueNames; decide
  checks := Sample.parcel_impartial
  fields := by
    refine optional_fields_of_index fun i hi => ?_
    match i, hi with
    | 0, _ =>
      exact
        { layout := .bytes (Or.inl ⟨2, rfl⟩), grounded := .leaf, optional := ⟨[], by simp, fun _ _ _ _ _ _ _ => rfl⟩, omitted := rfl
          null := Or.inl rfl, kept := Or.inr ⟨⟨_, _, rfl⟩, rfl⟩
          defaults := fun v _ h => by cases h; exact .leaf trivial (Or.inr ⟨by constructor, rfl⟩) (Or.inl rfl)
          computed := fun fn view v h => by cases h }
    | 1, _ =>
      exact
        { layout := .integer (n := 1) rfl (by decide), grounded := .leaf, optional := ⟨[], by simp, fun _ _ _ _ _ _ _ => rfl⟩, omitted := rfl
          null := Or.inl rfl, kept := Or.inl rfl
          defaults := fun v _ h => by cases h; exact .leaf trivial (Or.inl rfl) (Or.inl rfl)
          computed := fun fn view v h => by cases h }
    | 2, _ =>
      exact
        { layout := .integer (n := 1) rfl (by decide), grounded := .leaf, optional := ⟨[], by simp, fun _ _ _ _ _ _ _ => rfl⟩, omitted := rfl
          null := Or.inl rfl, kept := Or.inl rfl
          defaults := fun v h => absurd rfl h
          computed := fun fn view v h hv => by
            cases h
            obtain ⟨i, rfl⟩ := Sample.dataSize_int hv
            exact .leaf trivial (Or.inl rfl) (Or.inl rfl) }
    | 3, _ =>
      refine
        { layout := .bytes (Or.inl ⟨1, rfl⟩), grounded := .leaf, optional := ⟨["n"], ?_, ?_⟩, omitted := rfl
          null := Or.inl rfl, kept := Or.inr ⟨⟨_, _, rfl⟩, rfl⟩
          defaults := fun v _ h => by cases h; exact .leaf trivial (Or.inr ⟨by constructor, rfl⟩) (Or.inl rfl)
          computed := fun fn view v h => by cases h }
      · intro r hr
        simp only [List.mem_singleton] at hr
        subst hr
        exact ⟨_, _, .tail _ (.tail _ (.head _)), rfl, ⟨fun _ _ _ => rfl, rfl⟩, rfl, Sample.parcelSize_traceable⟩
      · intro v₁ v₂ _ _ _ _ h
        show Sample.oddSize v₁ = Sample.oddSize v₂
        simp only [Sample.oddSize, h "n" (by simp)]
    | 4, _ => exact optional_field_plain (.bytes (Or.inr ⟨"n", by decide, rfl⟩)) ⟨fun _ _ _ => rfl, rfl⟩ rfl rfl rfl rfl

/-- A parcel is given by its data alone. -/
theorem Sample.parcel_bears (data : Bytes) : Bears Sample.noClasses Sample.parcel [("data", .bytes data)] where
  inst := ⟨by simp [Dict.keys], by simp [Dict.keys, names, Sample.parcel, Sample.bytesRef, Field.name, Field.base]⟩
  absent := by
    intro f hf h
    simp only [Sample.parcel, List.mem_cons, List.not_mem_nil, or_false] at hf
    rcases hf with rfl | rfl | rfl | rfl | rfl <;> cases h
  fits := by
    intro f hf w hw _
    simp only [Sample.parcel, List.mem_cons, List.not_mem_nil, or_false] at hf
    rcases hf with rfl | rfl | rfl | rfl | rfl <;> cases hw
    exact .leaf trivial (Or.inl rfl) (Or.inl rfl)

example : ∃ all m r, structToDict Sample.noClasses 9 Sample.parcel [("data", .bytes [7, 8, 9])] = .ok all ∧
      (∀ f ∈ Sample.parcel.components, f.base.discard = false → ∃ v w, Dict.get? all f.name = some w ∧ Dict.get? r f.name = some v ∧ Stands v w ∧
        (w = .notPresent ↔ f.base.present (structView Sample.parcel [("data", .bytes [7, 8, 9])]) .none none = .ok false)) ∧
      (∀ f ∈ Sample.parcel.components, f.base.discard = true → Dict.get? all f.name = none ∧ Dict.get? r f.name = none) ∧
      ∀ pre rest, structFromStream Sample.noClasses m Sample.parcel ⟨pre ++ [80, 75, 1, 3, 0, 7, 8, 9] ++ rest, pre.length⟩ .none [] =
        (.ok r, ⟨pre ++ [80, 75, 1, 3, 0, 7, 8, 9] ++ rest, pre.length + 8⟩) :=
  C26_optional_round_trip Sample.noClasses (by intro c d h; simp [Sample.noClasses] at h) 9 Sample.parcel _ .none _ Sample.parcel_schema
    (Sample.parcel_bears _) (by decide +kernel)

end Verif
