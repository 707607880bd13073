import Verif.Proofs.Schema
import Verif.Spec.Samples

/-!
# C26: loading undoes dumping
-/

namespace Verif
open Spec

/-- **C26** (partial: for values that the fields can represent without loss, `ProperStruct`; which these are is spelled out field type by
field type in `Spec/RoundTrip.lean`, and the refutations below show that the others do not survive.)

Loading the bytes of a dumped struct gives back its values and consumes exactly those bytes, whatever comes before and after. -/
theorem C26_round_trip_partial (Γ : Classes) (n : Nat) (d : StructDesc) (vals all : Dict) (ctx : Value) (bs : Bytes)
    (hu : UniqueNames d) (ha : structToDict Γ n d vals = .ok all) (hp : ProperStruct Γ ctx d all)
    (h : structToStream Γ (n + 1) d vals ctx = (bs, .ok ())) :
    ∃ m r, (∀ f ∈ d.components, f.base.discard = false → ∀ w, Dict.get? all f.name = some w →
        ∃ v, Dict.get? r f.name = some v ∧ Stands v w) ∧
      ∀ pre rest, structFromStream Γ m d ⟨pre ++ bs ++ rest, pre.length⟩ ctx [] =
        (.ok r, ⟨pre ++ bs ++ rest, pre.length + bs.length⟩) := by
  obtain ⟨-, all', h1, ps, h2, rfl⟩ := structToStream_ok_iff.1 h
  rw [ha] at h1; cases h1
  obtain ⟨m, r, -, h3, h4⟩ := struct_restores hu hp.accepts hp.omitted (P := fun _ _ _ _ => True)
    (fun pre f post w hpre hd => proper_restores (hp.proper pre f post w hpre hd)) h2
  exact ⟨m, r, h3, h4⟩

/-- **C26** for plain struct classes: integers of fixed and variable length, bytes, strings, UUIDs, floats, timestamps, arrays, and
structs in structs to any depth, with sizes and counts that are numbers or earlier fields.  Every instance whose values match the
fields, *if it can be dumped at all*, comes back: every field is in the loaded struct with the value `to_dict` gives, and exactly
the dumped bytes are consumed. -/
theorem C26_plain_round_trip (Γ : Classes) (hΓ : ∀ c d, Γ c = some d → Schema Γ d) (n : Nat) (d : StructDesc) (vals : Dict)
    (ctx : Value) (bs : Bytes) (hd : Schema Γ d) (hi : Instance d vals)
    (ht : ∀ f ∈ d.components, ∀ w, Dict.get? vals f.name = some w → Typed Γ f w)
    (h : structToStream Γ (n + 1) d vals ctx = (bs, .ok ())) :
    ∃ all m r, structToDict Γ n d vals = .ok all ∧
      (∀ f ∈ d.components, ∃ v w, Dict.get? all f.name = some w ∧ Dict.get? r f.name = some v ∧ Stands v w) ∧
      ∀ pre rest, structFromStream Γ m d ⟨pre ++ bs ++ rest, pre.length⟩ ctx [] =
        (.ok r, ⟨pre ++ bs ++ rest, pre.length + bs.length⟩) := by
  obtain ⟨-, all, h1, ps, h2, -⟩ := structToStream_ok_iff.1 h
  obtain ⟨m, r, h3, h4⟩ := C26_round_trip_partial Γ n d vals all ctx bs hd.unique h1 (schema_proper hΓ hd hi ht h1 h2) h
  refine ⟨all, m, r, h1, fun f hf => ?_, h4⟩
  obtain ⟨w, h5, -⟩ := plain_dumped hΓ hd hi ht h1 hf
  obtain ⟨v, h6, h7⟩ := h3 f hf (hd.field hf).2.1 w h5
  exact ⟨v, w, h5, h6, h7⟩

/-- **C26** for values that are not structs or lists, the loaded value is the dumped one. -/
theorem C26_scalars (v w : Value) (h : Stands v w) (hl : ∀ l, w ≠ .list l) (hd : ∀ d, w ≠ .dict d) : v = w := h.scalar hl hd

/-- A class whose validator table has an entry without validator methods for each of some fields, none of which has validators of its
own, and no struct validators, accepts everything. -/
theorem unchecked_valid {d : StructDesc} (h1 : ∀ p ∈ d.fieldValidators, p.2 = [] ∧ p.1 ∈ names d)
    (h2 : ∀ f ∈ d.components, f.base.validators = []) (h3 : d.structValidators = []) {r : Dict} (hr : Dict.keys r = names d)
    (hu : UniqueNames d) : Valid d r := by
  refine ⟨fun p hp => ?_, by simp [h3]⟩
  obtain ⟨h4, h5⟩ := h1 p hp
  obtain ⟨f, hf, hn⟩ := List.mem_map.1 h5
  have h6 : p.1 ∈ Dict.keys r := by rw [hr]; exact h5
  cases hg : Dict.get? r p.1 with
  | none => exact absurd h6 ((Dict.get?_none_iff _ _).1 hg)
  | some v =>
    refine ⟨f, v, hn ▸ find?_of_mem hu hf, structGetItem_some h5 hg, by simp [h2 f hf], by simp [h4]⟩

/-- A class without checks of its own accepts instances in which all fields have values. -/
theorem unchecked_accepts {d : StructDesc} (h1 : ∀ p ∈ d.fieldValidators, p.2 = [] ∧ p.1 ∈ names d)
    (h2 : ∀ f ∈ d.components, f.base.validators = []) (h3 : d.structValidators = []) (hu : UniqueNames d) {r : Dict}
    (hr : ∀ f ∈ d.components, ∃ v, structGetItem d r f.name = .ok v) : Valid d r := by
  refine ⟨fun p hp => ?_, by simp [h3]⟩
  obtain ⟨h4, h5⟩ := h1 p hp
  obtain ⟨f, hf, hn⟩ := List.mem_map.1 h5
  obtain ⟨v, hv⟩ := hr f hf
  exact ⟨f, v, hn ▸ find?_of_mem hu hf, hn ▸ hv, by simp [h2 f hf], by simp [h4]⟩

/-- To show something of every field of a concrete class together with the fields before it. -/
theorem fields_of_index {fs : List Field} {Q : List String → Field → Prop}
    (h : ∀ i (hi : i < fs.length), Q ((fs.take i).map Field.name) fs[i]) (pre : List Field) (f : Field) (post : List Field)
    (hd : fs = pre ++ f :: post) : Q (pre.map Field.name) f := by
  subst hd
  have := h pre.length (by simp)
  simpa using this

/-! ### Examples -/

/-- ```
class Tree(Struct):
    label = UInt16(endian="big", default=7)
    n = UInt8()
    children = Array(Nested(Tree), count=n)
``` -/
def Sample.tree : StructDesc :=
  { name := "Tree"
    components := [Sample.upd (Sample.u16 "label") ({ · with dflt := .int 7 }), Sample.u8 "n",
      Sample.array "children" (Sample.nested "" "Tree") (.ref "n")]
    fieldValidators := [("label", []), ("n", []), ("children", [])], numOwnFields := 3 }

def Sample.treeClasses : Classes := Classes.add Sample.noClasses Sample.tree

/-- A leaf of a tree. -/
def Sample.leafTree (k : Int) : Value := .struct "Tree" [("label", .int k), ("n", .int 0), ("children", .list [])]

/-- A tree of depth 3; one node is a dictionary, and one does not set `label`. -/
def Sample.bigTree : Dict :=
  [("label", .int 1), ("n", .int 2), ("children", .list [Sample.leafTree 300,
    .dict [("n", .int 1), ("children", .list [Sample.leafTree 5])]])]

theorem Sample.tree_schema : Schema Sample.treeClasses Sample.tree where
  unique := by unfold UniqueNames; decide
  checks r hr := unchecked_valid (by decide) (by simp [Sample.tree, Sample.upd, Sample.u16, Sample.u8, Sample.array, Field.withBase, Field.base])
    rfl hr (by unfold UniqueNames; decide)
  fields := by
    refine fields_of_index (Q := fun e f => Layout e f ∧ Always f.base ∧ f.base.discard = false ∧ Sources Sample.treeClasses f) ?_
    have hnone : ∀ f : Field, f.base.dflt = .undefined → f.base.computeFn = none → Sources Sample.treeClasses f :=
      fun f h1 h2 => ⟨fun v h => absurd h1 h, fun fn view v h => by rw [h2] at h; simp at h⟩
    intro i hi
    match i, hi with
    | 0, _ =>
      refine ⟨.integer (n := 2) rfl (by decide), ⟨fun _ _ _ => rfl, rfl⟩, rfl, ?_, ?_⟩
      · intro v _ hv
        cases hv
        exact .leaf trivial (Or.inl rfl)
      · intro fn view v h; cases h
    | 1, _ => exact ⟨.integer (n := 1) rfl (by decide), ⟨fun _ _ _ => rfl, rfl⟩, rfl, hnone _ rfl rfl⟩
    | 2, _ =>
      exact ⟨.array rfl rfl (Or.inr ⟨"n", by decide, rfl⟩) ⟨fun _ _ _ => rfl, rfl⟩ (.nested rfl rfl), ⟨fun _ _ _ => rfl, rfl⟩, rfl,
        hnone _ rfl rfl⟩

theorem Sample.treeClasses_schema (c : String) (d : StructDesc) (h : Sample.treeClasses c = some d) : Schema Sample.treeClasses d := by
  unfold Sample.treeClasses Classes.add at h
  split at h
  · cases h; exact Sample.tree_schema
  · simp [Sample.noClasses] at h

theorem Sample.typed_tree {vals : Dict}
    (h1 : ∀ w, Dict.get? vals "label" = some w → ∃ i, w = .int i) (h2 : ∀ w, Dict.get? vals "n" = some w → ∃ i, w = .int i)
    (h3 : ∀ w, Dict.get? vals "children" = some w → ∃ l, w = .list l ∧ ∀ x ∈ l, Typed Sample.treeClasses (Sample.nested "" "Tree") x) :
    ∀ f ∈ Sample.tree.components, ∀ w, Dict.get? vals f.name = some w → Typed Sample.treeClasses f w := by
  intro f hf w hw
  simp only [Sample.tree, List.mem_cons, List.not_mem_nil, or_false] at hf
  rcases hf with rfl | rfl | rfl
  · obtain ⟨i, rfl⟩ := h1 w hw; exact .leaf trivial (Or.inl rfl)
  · obtain ⟨i, rfl⟩ := h2 w hw; exact .leaf trivial (Or.inl rfl)
  · obtain ⟨l, rfl, hl⟩ := h3 w hw; exact .array hl

theorem Sample.bigTree_typed :
    ∀ f ∈ Sample.tree.components, ∀ w, Dict.get? Sample.bigTree f.name = some w → Typed Sample.treeClasses f w := by
  have hleaf : ∀ k, Typed Sample.treeClasses (Sample.nested "" "Tree") (Sample.leafTree k) := fun k =>
    .struct (d := Sample.tree) rfl (by unfold Instance; simp [Dict.keys]; decide) (Sample.typed_tree
      (fun w h => ⟨k, by cases h; rfl⟩) (fun w h => ⟨0, by cases h; rfl⟩) (fun w h => ⟨[], by cases h; rfl, by simp⟩))
  refine Sample.typed_tree (fun w h => ⟨1, by cases h; rfl⟩) (fun w h => ⟨2, by cases h; rfl⟩)
    (fun w h => ⟨_, by cases h; rfl, ?_⟩)
  simp only [List.mem_cons, List.not_mem_nil, or_false, forall_eq_or_imp, forall_eq]
  refine ⟨hleaf _, .dict (d := Sample.tree) rfl (by unfold Instance; decide) (Sample.typed_tree
    (fun w h => by cases h) (fun w h => ⟨1, by cases h; rfl⟩) (fun w h => ⟨_, by cases h; rfl, ?_⟩))⟩
  simp only [List.mem_cons, List.not_mem_nil, or_false, forall_eq]
  exact hleaf _

theorem Sample.bigTree_dumped : structToStream Sample.treeClasses 9 Sample.tree Sample.bigTree .none =
    ([0, 1, 2, 1, 44, 0, 0, 7, 1, 0, 5, 0], .ok ()) := by decide

example : ∃ all m r, structToDict Sample.treeClasses 8 Sample.tree Sample.bigTree = .ok all ∧
      (∀ f ∈ Sample.tree.components, ∃ v w, Dict.get? all f.name = some w ∧ Dict.get? r f.name = some v ∧ Stands v w) ∧
      ∀ pre rest, structFromStream Sample.treeClasses m Sample.tree
          ⟨pre ++ [0, 1, 2, 1, 44, 0, 0, 7, 1, 0, 5, 0] ++ rest, pre.length⟩ .none [] =
        (.ok r, ⟨pre ++ [0, 1, 2, 1, 44, 0, 0, 7, 1, 0, 5, 0] ++ rest, pre.length + 12⟩) :=
  C26_plain_round_trip Sample.treeClasses Sample.treeClasses_schema 8 Sample.tree Sample.bigTree .none _ Sample.tree_schema
    (by unfold Instance; decide) Sample.bigTree_typed Sample.bigTree_dumped

/-- ```
class Message(Struct):
    flag = UInt8()
    extra = UInt16(endian="big", present=lambda f, *_: f["flag"] == 1)
    choice = Union(UInt8(), Point, load_decider=..., dump_decider=...)
```
The deciders take a number for the first choice and anything else for the second; loading decides by `flag`. -/
def Sample.message : StructDesc :=
  { name := "Message"
    components := [Sample.u8 "flag",
      Sample.upd (Sample.u16 "extra") ({ · with present := fun v _ _ => (v.get "flag").map fun x => scalarEq x (.int 1) }),
      .union { name := "choice" } [.inl (Sample.u8 ""), .inr "Point"]
        (fun _ _ loaded => .ok (if loaded.get? "flag" = some (.int 1) then 0 else 1))
        (fun v _ _ => .ok (if scalarEq v (.int 5) then 0 else 1))]
    fieldValidators := [("flag", []), ("extra", []), ("choice", [])], numOwnFields := 3 }

/-- The table with `Point` only. -/
def Sample.pointClasses : Classes := Classes.add Sample.noClasses Sample.point

theorem Sample.point_schema : Schema Sample.pointClasses Sample.point where
  unique := by unfold UniqueNames; decide
  checks r hr := unchecked_valid (by decide) (by simp [Sample.point, Sample.upd, Sample.i16, Field.withBase, Field.base])
    rfl hr (by unfold UniqueNames; decide)
  fields := by
    refine fields_of_index (Q := fun e f => Layout e f ∧ Always f.base ∧ f.base.discard = false ∧ Sources Sample.pointClasses f) ?_
    have hnone : ∀ f : Field, f.base.dflt = .undefined → f.base.computeFn = none → Sources Sample.pointClasses f :=
      fun f h1 h2 => ⟨fun v h => absurd h1 h, fun fn view v h => by rw [h2] at h; simp at h⟩
    intro i hi
    match i, hi with
    | 0, _ => exact ⟨.integer (n := 2) rfl (by decide), ⟨fun _ _ _ => rfl, rfl⟩, rfl, hnone _ rfl rfl⟩
    | 1, _ => exact ⟨.integer (n := 2) rfl (by decide), ⟨fun _ _ _ => rfl, rfl⟩, rfl, hnone _ rfl rfl⟩

theorem Sample.pointClasses_schema (c : String) (d : StructDesc) (h : Sample.pointClasses c = some d) : Schema Sample.pointClasses d := by
  unfold Sample.pointClasses Classes.add at h
  split at h
  · cases h; exact Sample.point_schema
  · simp [Sample.noClasses] at h

/-- The first field leaves out the second and the union holds a `Point`. -/
example : ∃ m r,
    (∀ f ∈ Sample.message.components, f.base.discard = false → ∀ w,
      Dict.get? [("flag", .int 0), ("choice", .dict [("x", .int 3), ("y", .int (-2))]), ("extra", .notPresent)] f.name = some w →
        ∃ v, Dict.get? r f.name = some v ∧ Stands v w) ∧
    ∀ pre rest, structFromStream Sample.pointClasses m Sample.message ⟨pre ++ [0, 3, 0, 254, 255] ++ rest, pre.length⟩ .none [] =
      (.ok r, ⟨pre ++ [0, 3, 0, 254, 255] ++ rest, pre.length + 5⟩) := by
  refine C26_round_trip_partial Sample.pointClasses 6 Sample.message
    [("flag", .int 0), ("choice", .dict [("x", .int 3), ("y", .int (-2))])] _ .none [0, 3, 0, 254, 255]
    (by unfold UniqueNames; decide) (by decide) ?_ (by decide)
  have hflag : ∀ {earlier : List String} {all loaded : Dict}, "flag" ∈ earlier → Dict.get? all "flag" = some (.int 0) →
      Consistent earlier all loaded → Dict.get? loaded "flag" = some (.int 0) := by
    intro earlier all loaded h1 h2 h3
    obtain ⟨v, h4, h5⟩ := h3.get h1 h2
    rw [h4, h5.scalar (by simp) (by simp)]
  constructor
  · exact fun r hr _ => unchecked_valid (by decide)
      (by simp [Sample.message, Sample.upd, Sample.u16, Sample.u8, Field.withBase, Field.base]) rfl hr (by unfold UniqueNames; decide)
  · refine fields_of_index (Q := fun e f => Skipped f _ .none → Omitted .none e _ f) ?_
    intro i hi
    match i, hi with
    | 0, _ =>
      rintro ⟨v, h1, h2⟩
      have := Chosen.unique h1 (.explicit (v := .int 0) rfl rfl)
      subst this
      rcases h2 with h2 | h2 <;> cases h2
    | 1, _ =>
      intro _
      refine ⟨fun loaded s hc => ?_, fun w hw => by cases hw; exact .same _⟩
      simp only [Sample.message, Sample.upd, Sample.u16, Field.withBase, Field.base, List.getElem_cons_succ, List.getElem_cons_zero,
        Dict.view, hflag (by decide) rfl hc, Except.map]
      decide
    | 2, _ =>
      rintro ⟨v, h1, h2⟩
      have := Chosen.unique h1 (.explicit (v := .dict [("x", .int 3), ("y", .int (-2))]) rfl rfl)
      subst this
      rcases h2 with h2 | h2 <;> cases h2
  · refine fun pre f post w hd => fields_of_index (Q := fun e f => ∀ w, Dumped f _ .none w → Proper Sample.pointClasses .none e _ f w)
      ?_ pre f post hd w
    intro i hi
    match i, hi with
    | 0, _ =>
      intro w hw
      have := Chosen.unique hw.1 (.explicit (v := .int 0) rfl rfl)
      subst this
      exact .leaf (fun _ _ _ => rfl) (.integer (n := 1) _ rfl (by decide)) (Or.inl rfl) (Or.inl rfl)
    | 1, _ =>
      intro w hw
      have := Chosen.unique hw.1 (.explicit (v := .notPresent) rfl rfl)
      exact absurd this hw.2.1
    | 2, _ =>
      intro w hw
      have := Chosen.unique hw.1 (.explicit (v := .dict [("x", .int 3), ("y", .int (-2))]) rfl rfl)
      subst this
      refine .unionStruct (i := 1) (cls := "Point") (fun _ _ _ => rfl) ⟨rfl, rfl, by simp⟩ (by simp) (by simp) rfl rfl ?_ ?_
      · intro n bs loaded pre rest hc _
        simp [hflag (by decide) rfl hc]
      · refine layout_proper (n := 5) (bs := [3, 0, 254, 255]) Sample.pointClasses_schema (.nested rfl rfl) ⟨fun _ _ _ => rfl, rfl⟩
          (.dict (d := Sample.point) rfl (by unfold Instance; decide) ?_) (.dict ?_) ?_ (by decide)
        · intro f hf w hw
          simp only [Sample.point, List.mem_cons, List.not_mem_nil, or_false] at hf
          rcases hf with rfl | rfl
          · cases hw; exact .leaf trivial (Or.inl rfl)
          · cases hw; exact .leaf trivial (Or.inl rfl)
        · intro p hp
          simp only [List.mem_cons, List.not_mem_nil, or_false] at hp
          rcases hp with rfl | rfl <;> constructor
        · intro r hr h
          simp only [Sample.message, List.take, List.map, List.mem_cons, List.not_mem_nil, or_false] at hr
          rcases hr with rfl | rfl <;> cases h

/-! ### Values that do not survive -/

/-- **C26** fails for a null-terminated string with a NUL in it. -/
theorem C26_nul_refuted :
    ∃ (d : StructDesc) (vals r : Dict) (bs : Bytes), UniqueNames d ∧ Instance d vals ∧
      structToStream Sample.noClasses 4 d vals .none = (bs, .ok ()) ∧
      (structFromStream Sample.noClasses 4 d ⟨bs, 0⟩ .none []).1 = .ok r ∧ Dict.get? r "s" ≠ Dict.get? vals "s" :=
  ⟨{ name := "Z", components := [Sample.strz "s"], fieldValidators := [("s", [])], numOwnFields := 1 },
    [("s", .str [65, 0, 66])], [("s", .str [65])], [65, 0, 66, 0], by unfold UniqueNames; decide, by unfold Instance; decide,
    by decide, by decide, by decide⟩

/-- **C26** fails for a padded string: the padding is loaded as part of it. -/
theorem C26_padding_refuted :
    ∃ (d : StructDesc) (vals r : Dict) (bs : Bytes), UniqueNames d ∧ Instance d vals ∧
      structToStream Sample.noClasses 4 d vals .none = (bs, .ok ()) ∧
      (structFromStream Sample.noClasses 4 d ⟨bs, 0⟩ .none []).1 = .ok r ∧ Dict.get? r "s" ≠ Dict.get? vals "s" :=
  ⟨{ name := "P", components := [Sample.str "s" 4 (some 32)], fieldValidators := [("s", [])], numOwnFields := 1 },
    [("s", .str [65, 66])], [("s", .str [65, 66, 32, 32])], [65, 66, 32, 32], by unfold UniqueNames; decide, by unfold Instance; decide,
    by decide, by decide, by decide⟩

/-- **C26** fails for a value that looks like the null value: it is loaded as `None`. -/
theorem C26_null_refuted :
    ∃ (d : StructDesc) (vals r : Dict) (bs : Bytes), UniqueNames d ∧ Instance d vals ∧
      structToStream Sample.noClasses 4 d vals .none = (bs, .ok ()) ∧
      (structFromStream Sample.noClasses 4 d ⟨bs, 0⟩ .none []).1 = .ok r ∧ Dict.get? r "a" ≠ Dict.get? vals "a" :=
  ⟨{ name := "N", components := [Sample.upd (Sample.u8 "a") ({ · with nullValue := .int 0 })], fieldValidators := [("a", [])], numOwnFields := 1 },
    [("a", .int 0)], [("a", .none)], [0], by unfold UniqueNames; decide, by unfold Instance; decide,
    by decide, by decide, by decide⟩

/-- **C26** fails for an array given as a byte string: the elements are loaded as a list. -/
theorem C26_array_of_bytes_refuted :
    ∃ (d : StructDesc) (vals r : Dict) (bs : Bytes), UniqueNames d ∧ Instance d vals ∧
      structToStream Sample.noClasses 6 d vals .none = (bs, .ok ()) ∧
      (structFromStream Sample.noClasses 6 d ⟨bs, 0⟩ .none []).1 = .ok r ∧ Dict.get? r "a" ≠ Dict.get? vals "a" :=
  ⟨{ name := "A", components := [Sample.array "a" (Sample.u8 "") (.fixed 2)], fieldValidators := [("a", [])], numOwnFields := 1 },
    [("a", .bytes [1, 2])], [("a", .list [.int 1, .int 2])], [1, 2], by unfold UniqueNames; decide, by unfold Instance; decide,
    by decide, by decide, by decide⟩

/-- **C26** fails for a constant field that was given another value: what is dumped cannot be loaded. -/
theorem C26_const_refuted :
    ∃ (d : StructDesc) (vals : Dict) (bs : Bytes) (e : Err), UniqueNames d ∧ Instance d vals ∧
      structToStream Sample.noClasses 4 d vals .none = (bs, .ok ()) ∧
      (structFromStream Sample.noClasses 4 d ⟨bs, 0⟩ .none []).1 = .error e :=
  ⟨{ name := "K", components := [Sample.upd (Sample.u8 "a") ({ · with const := .int 1, dflt := .int 1 })], fieldValidators := [("a", [])], numOwnFields := 1 },
    [("a", .int 2)], [2], .validation "a", by unfold UniqueNames; decide, by unfold Instance; decide, by decide, by decide⟩

end Verif
