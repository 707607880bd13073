import Verif.Spec.Convert
import Verif.Proofs.Rekey
import Verif.Props.Rebuild
import Verif.Props.Reorder
import Verif.Props.RoundTrip
import Verif.Proofs.Stale
import Verif.Proofs.Optional

/-!
# C115: converting to another format and back loses nothing
-/

namespace Verif
open Verif.Spec

/-- What is loaded for a value without dictionaries is that value. -/
theorem Spec.Stands.dictFree {v w : Value} (h : Stands v w) (hw : DictFree w) : v = w := by
  induction h with
  | same => rfl
  | @list a b hl _ ih =>
    have hb : ∀ y ∈ b, DictFree y := by
      cases hw with
      | scalar h _ => exact absurd rfl (h _)
      | list h => exact h
    congr 1
    apply List.ext_getElem hl
    intro i h1 h2
    exact ih i _ _ (List.getElem?_eq_getElem h1) (List.getElem?_eq_getElem h2) (hb _ (List.getElem_mem h2))
  | struct =>
    cases hw with
    | scalar _ h => exact absurd rfl (h _)

/-- Fields of plain classes look other fields up by name only. -/
theorem Spec.Layout.byName {earlier : List String} {f : Field} (h : Layout earlier f) : ByName f := by
  induction h with
  | array _ _ _ _ _ ih => exact .array ih
  | nested => exact .nested
  | @union b choices ld dd _ _ hdec _ _ ih =>
    refine .union (fun v ctx x y hxy => ?_) ih
    rw [← hdec ⟨[], 0⟩ v ctx ctx x x (fun _ _ => rfl), ← hdec ⟨[], 0⟩ v ctx ctx x y (fun r _ => hxy r)]
  | _ => exact .leaf (by intro ops h; cases h)

theorem Spec.Schema.byName {Γ : Classes} {d : StructDesc} (h : Schema Γ d) : ∀ f ∈ d.components, ByName f := by
  intro f hf
  obtain ⟨pre, post, hp⟩ := List.append_of_mem hf
  exact (h.fields pre f post hp).1.byName

/-- **C115** `T = s.to_dict()` of an instance `s` of one class; `B` is a plain class with the same field names, whose fields match the values, none
of which is a dictionary.  If `B(**T)` can be dumped, then what `B` loads from these bytes (wherever they are) has the values of `T`, and the first
class, made from its `to_dict()`, writes the bytes that `s` writes. -/
theorem C115_there_and_back (Γ : Classes) (hΓ : ∀ c d, Γ c = some d → Schema Γ d) (n : Nat) (a b : StructDesc) (vals T : Dict) (ctx : Value) (y : Bytes)
    (ha : UniqueNames a) (hby : ∀ f ∈ a.components, ByName f) (hi : Instance a vals) (hT : structToDict Γ n a vals = .ok T)
    (hdis : ∀ f ∈ a.components, f.base.discard = false) (hp : StillPresent a T)
    (hv : validateContents a vals = .ok ()) (hv' : validateContents a T = .ok ())
    (hb : Schema Γ b) (hnames : SameNames a b) (hsuit : Suits Γ b T) (hflat : ∀ k v, Dict.get? T k = some v → DictFree v)
    (hy : structToStream Γ (n + 1) b T ctx = (y, .ok ())) :
    structInit b T = .ok T ∧ ∃ m r u,
      (∀ pre rest, structFromStream Γ m b ⟨pre ++ y ++ rest, pre.length⟩ ctx [] = (.ok r, ⟨pre ++ y ++ rest, pre.length + y.length⟩)) ∧
      SameValues r T ∧ structToDict Γ n b r = .ok u ∧ SameValues u T ∧ structInit a u = .ok u ∧
      SameDump (structToStream Γ (n + 1) a u ctx) (structToStream Γ (n + 1) a vals ctx) := by
  obtain ⟨h1, h2, h3⟩ := structToDict_get ha hi hT
  have hall : ∀ f ∈ a.components, ∃ w, Dict.get? T f.name = some w ∧ NoStruct w := by
    intro f hf
    rcases h3 f hf with ⟨-, hx, -⟩ | ⟨-, v, w, -, hrec, hg⟩
    · rw [hdis f hf] at hx; simp at hx
    · exact ⟨w, hg, (recursiveToDicts_spec hrec).1⟩
  have hiaT : Instance a T := ⟨h1, h2⟩
  have hibT : Instance b T := ⟨h1, fun k hk => (hnames k).1 (h2 k hk)⟩
  have hr : Recoverable a T := by
    intro f hf hg
    obtain ⟨w, hw, -⟩ := hall f hf
    rw [hg] at hw; simp at hw
  have hset : ∀ f ∈ b.components, ∃ w, Dict.get? T f.name = some w ∧ w ≠ .undefined ∧ NoStruct w := by
    intro f hf
    have hk : f.name ∈ names a := (hnames _).2 (List.mem_map.2 ⟨f, hf, rfl⟩)
    obtain ⟨g, hg, hgn⟩ := List.mem_map.1 hk
    obtain ⟨w, hw, hns⟩ := hall g hg
    rw [hgn] at hw
    exact ⟨w, hw, (hsuit f hf w hw).set.1, hns⟩
  obtain ⟨all, m, r, h4, h5, h6⟩ := C26_plain_round_trip Γ hΓ n b T ctx y hb hibT hsuit hy
  have hallT := toDict_given hb hibT hset h4
  have hm : ∃ m', m = m' + 1 := by
    cases m with
    | zero => have := h6 [] []; simp [structFromStream] at this
    | succ m' => exact ⟨m', rfl⟩
  obtain ⟨m', rfl⟩ := hm
  obtain ⟨hir, -⟩ := loaded_stored hb.unique (h6 [] [])
  have hrT : SameValues r T := by
    intro k
    by_cases hk : k ∈ names b
    · obtain ⟨f, hf, rfl⟩ := List.mem_map.1 hk
      obtain ⟨v, w, h7, h8, h9⟩ := h5 f hf
      rw [hallT] at h7
      rw [h8, h7, h9.dictFree (hflat _ _ h7)]
    · rw [(Dict.get?_none_iff _ _).2 fun hx => hk (hir.2 k hx), (Dict.get?_none_iff _ _).2 fun hx => hk (hibT.2 k hx)]
  obtain ⟨u, h10, huT⟩ : ∃ u, structToDict Γ n b r = .ok u ∧ SameValues u T := by
    rcases C99_to_dict Γ n b r T false hb.unique hir hibT hrT with ⟨u, v, h7, h8, h9⟩ | ⟨e, e', -, h8⟩
    · rw [h4] at h8; cases h8
      exact ⟨u, h7, fun k => (h9 k).trans (hallT k)⟩
    · rw [h4] at h8; cases h8
  obtain ⟨h11, h12, -⟩ := structToDict_get hb.unique hir h10
  have hiu : Instance a u := ⟨h11, fun k hk => (hnames k).2 (h12 k hk)⟩
  refine ⟨structInit_ok_iff.2 ⟨rfl, hibT.2⟩, m' + 1, r, u, h6, hrT, h10, huT, structInit_ok_iff.2 ⟨rfl, hiu.2⟩, ?_⟩
  rw [← C93_same_bytes (ctx := ctx) ha hi hT hp hr hv hv']
  exact C99_dump Γ (n + 1) a u T ctx ha hiu hiaT hby huT

/-- **C115** Between two plain classes: if `s` can be dumped as `x`, then so can what comes back from the other format. -/
theorem C115_plain (Γ : Classes) (hΓ : ∀ c d, Γ c = some d → Schema Γ d) (n : Nat) (a b : StructDesc) (vals T : Dict) (ctx : Value) (x y : Bytes)
    (ha : Schema Γ a) (hb : Schema Γ b) (hnames : SameNames a b) (hi : Instance a vals) (hT : structToDict Γ n a vals = .ok T)
    (hsuit : Suits Γ b T) (hflat : ∀ k v, Dict.get? T k = some v → DictFree v)
    (hx : structToStream Γ (n + 1) a vals ctx = (x, .ok ())) (hy : structToStream Γ (n + 1) b T ctx = (y, .ok ())) :
    ∃ m r u, (∀ pre rest, structFromStream Γ m b ⟨pre ++ y ++ rest, pre.length⟩ ctx [] =
        (.ok r, ⟨pre ++ y ++ rest, pre.length + y.length⟩)) ∧
      structToDict Γ n b r = .ok u ∧ SameValues u T ∧ structInit a u = .ok u ∧ structToStream Γ (n + 1) a u ctx = (x, .ok ()) := by
  have hfield : ∀ f ∈ a.components, Always f.base ∧ f.base.discard = false := by
    intro f hf
    obtain ⟨pre, post, hp⟩ := List.append_of_mem hf
    obtain ⟨-, h1, h2, -⟩ := ha.fields pre f post hp
    exact ⟨h1, h2⟩
  obtain ⟨h1, h2, h3⟩ := structToDict_get ha.unique hi hT
  have hall : ∀ f ∈ a.components, ∃ w, Dict.get? T f.name = some w := by
    intro f hf
    rcases h3 f hf with ⟨-, hx, -⟩ | ⟨-, v, w, -, -, hg⟩
    · rw [(hfield f hf).2] at hx; simp at hx
    · exact ⟨w, hg⟩
  -- the values of `T` in the order of the fields
  let R : Dict := a.components.map fun f => (f.name, (Dict.get? T f.name).getD .none)
  have hkR : Dict.keys R = names a := by simp [R, Dict.keys, names, Function.comp_def]
  have hRT : SameValues R T := by
    intro k
    by_cases hk : k ∈ names a
    · obtain ⟨f, hf, rfl⟩ := List.mem_map.1 hk
      obtain ⟨w, hw⟩ := hall f hf
      rw [hw]
      refine Dict.get?_of_mem (by rw [hkR]; exact ha.unique) (List.mem_map.2 ⟨f, hf, ?_⟩)
      rw [hw]; rfl
    · rw [(Dict.get?_none_iff _ _).2 (by rw [hkR]; exact hk), (Dict.get?_none_iff _ _).2 fun hx => hk (h2 k hx)]
  have hv' : validateContents a T = .ok () := by
    rw [← C99_validate a R T ⟨by rw [hkR]; exact ha.unique, by rw [hkR]; exact fun _ h => h⟩ ⟨h1, h2⟩ hRT]
    exact validateContents_ok_iff.2 (ha.checks R hkR)
  obtain ⟨hv, -⟩ := structToStream_ok_iff.1 hx
  obtain ⟨-, m, r, u, h4, -, h5, h6, h7, h8⟩ := C115_there_and_back Γ hΓ n a b vals T ctx y ha.unique ha.byName hi hT (fun f hf => (hfield f hf).2)
    (fun f hf _ _ _ => (hfield f hf).1.1 _ _ _) (validateContents_ok_iff.2 hv) hv' hb hnames hsuit hflat hy
  refine ⟨m, r, u, h4, h5, h6, h7, ?_⟩
  rcases h8 with h8 | ⟨e, e', -, h9⟩
  · rw [h8, hx]
  · rw [hx] at h9; cases h9

/-- **C115** Between two plain classes with nested structs in them (which are dictionaries in `T`, with all fields of the struct in them): what comes
back has the very same values, but for the order of the keys in these dictionaries, and the first class writes it as the bytes that `s` was written
as. -/
theorem C115_nested (Γ : Classes) (hΓ : ∀ c d, Γ c = some d → Schema Γ d) (n : Nat) (a b : StructDesc) (vals T : Dict) (ctx : Value) (x y : Bytes)
    (ha : PlainInstance Γ a vals) (hb : Schema Γ b) (hnames : SameNames a b) (hT : structToDict Γ n a vals = .ok T) (hsuit : Suits Γ b T)
    (hca : ∀ f ∈ a.components, ∀ w, Dict.get? T f.name = some w → Complete Γ f w)
    (hcb : ∀ f ∈ b.components, ∀ w, Dict.get? T f.name = some w → Complete Γ f w)
    (hx : structToStream Γ (n + 1) a vals ctx = (x, .ok ())) (hy : structToStream Γ (n + 1) b T ctx = (y, .ok ())) :
    structInit b T = .ok T ∧ ∃ m r u,
      (∀ pre rest, structFromStream Γ m b ⟨pre ++ y ++ rest, pre.length⟩ ctx [] = (.ok r, ⟨pre ++ y ++ rest, pre.length + y.length⟩)) ∧
      structToDict Γ m b r = .ok u ∧ Identical (.dict u) (.dict T) ∧ structInit a u = .ok u ∧ structToStream Γ m a u ctx = (x, .ok ()) := by
  obtain ⟨hsa, hi, ht⟩ := ha
  obtain ⟨h1, h2, h3⟩ := structToDict_get hsa.unique hi hT
  have hiaT : Instance a T := ⟨h1, h2⟩
  have hibT : Instance b T := ⟨h1, fun k hk => (hnames k).1 (h2 k hk)⟩
  have hset : ∀ f ∈ a.components, ∃ w, Dict.get? T f.name = some w ∧ Typed Γ f w ∧ NoStruct w := by
    intro f hf
    obtain ⟨w, h4, h5, h6, -⟩ := plain_dumped hΓ hsa hi ht hT hf
    exact ⟨w, h4, h5, h6⟩
  have hsetb : ∀ f ∈ b.components, ∃ w, Dict.get? T f.name = some w ∧ w ≠ .undefined ∧ NoStruct w := by
    intro f hf
    have hk : f.name ∈ names a := (hnames _).2 (List.mem_map.2 ⟨f, hf, rfl⟩)
    obtain ⟨g, hg, hgn⟩ := List.mem_map.1 hk
    obtain ⟨w, hw, -, hns⟩ := hset g hg
    rw [hgn] at hw
    exact ⟨w, hw, (hsuit f hf w hw).set.1, hns⟩
  -- the first class writes `T` as `x` too
  have hxT : structToStream Γ (n + 1) a T ctx = (x, .ok ()) := by
    rw [← hx]
    refine C93_same_bytes hsa.unique hi hT (fun f hf _ _ _ => (hsa.field hf).1.1 _ _ _) (fun f hf hg => ?_)
      (validateContents_ok_iff.2 (structToStream_ok_iff.1 hx).1)
      (validateContents_ok_iff.2 (schema_accepts hsa hiaT fun f hf => ?_))
    · obtain ⟨w, hw, -⟩ := hset f hf
      rw [hg] at hw; cases hw
    · obtain ⟨w, hw, -⟩ := hset f hf
      exact ⟨w, hw⟩
  -- the second one reads back its own bytes
  obtain ⟨-, all, hall, -⟩ := structToStream_ok_iff.1 hy
  have hallT := toDict_given hb hibT hsetb hall
  obtain ⟨m, r, h4, h5, h6⟩ := plain_reload hΓ ⟨hb, hibT, hsuit⟩ hall (fun f hf w hw => hcb f hf w (by rw [← hallT]; exact hw)) hy
  obtain ⟨m', u, h7, ⟨h8, -⟩, h9⟩ := loaded_to_dict (dct := T) hb h4
    (fun k hk => hibT.2 k (Decidable.byContradiction fun hx => hk ((Dict.get?_none_iff _ _).2 hx)))
    (fun f hf => by
      obtain ⟨v, w, k1, k2, k3, k4⟩ := h5 f hf
      exact ⟨v, w, k1, k2, by rw [← hallT]; exact k3, k4⟩)
  have hir : Instance b r := ⟨by rw [h4]; exact hb.unique, by rw [h4]; exact fun _ h => h⟩
  obtain ⟨-, -, hget⟩ := structToDict_get hb.unique hir h7
  have hnd : (Dict.keys u).Nodup ∧ ∀ p ∈ u, DistinctKeys p.2 := by
    cases h9 with
    | other _ hx => exact absurd rfl (hx _)
    | dict h1 h2 => exact ⟨h1, h2⟩
  have hiu : Instance a u := h8.instance hiaT hnd.1
  have hnsu : ∀ k w, Dict.get? u k = some w → NoStruct w := by
    intro k w hw
    obtain ⟨f, hf, rfl⟩ := List.mem_map.1 ((hnames k).1 (hiu.2 k (Dict.get?_some_key hw)))
    rcases hget f hf with ⟨-, -, k1⟩ | ⟨-, v, w', -, k2, k3⟩
    · rw [hw] at k1; cases k1
    · rw [hw] at k3; cases k3
      exact (recursiveToDicts_spec k2).1
  have hsetu : ∀ f ∈ a.components, ∃ w, Dict.get? u f.name = some w ∧ w ≠ .undefined ∧ NoStruct w := by
    intro f hf
    obtain ⟨w, hw, hty, -⟩ := hset f hf
    rcases h8.lookup f.name with ⟨-, k1⟩ | ⟨v, w', k1, k2, k3⟩
    · rw [hw] at k1; cases k1
    · rw [hw] at k2; cases k2
      exact ⟨v, k1, k3.undefined hty.set.1, hnsu _ _ k1⟩
  obtain ⟨m2, h10⟩ := struct_again hsa hiaT hiu
    (fun f hf => by
      obtain ⟨w, hw, hty, hns⟩ := hset f hf
      exact ⟨w, hw, hty.set.1, hns⟩) hsetu h8
    (fun f hf hx => by
      obtain ⟨w, hw, hty, -⟩ := hset f hf
      rw [hx] at hw; cases hw
      exact hty.set.2 rfl)
    (fun f hf w w' hw hw' all all' he k p hp => by
      obtain ⟨pre, post, hpre⟩ := List.append_of_mem hf
      obtain ⟨hlay, -⟩ := hsa.fields pre f post hpre
      obtain ⟨w'', hw'', hty, hns⟩ := hset f hf
      rw [hw] at hw''; cases hw''
      rcases h8.lookup f.name with ⟨k1, -⟩ | ⟨v, v', k1, k2, k3⟩
      · rw [hw'] at k1; cases k1
      · rw [hw'] at k1; rw [hw] at k2; cases k1; cases k2
        exact identical_dump hΓ hty hlay hns (hca f hf w hw) k3 (hnd.2 _ (Dict.get?_some_mem hw')) (hnsu _ _ hw') he k p ctx hp) hxT
  refine ⟨structInit_ok_iff.2 ⟨rfl, hibT.2⟩, max m (max m' m2), r, u, fun pre rest => ?_, ?_, h8, structInit_ok_iff.2 ⟨rfl, hiu.2⟩, ?_⟩
  · exact structFromStream_of_le (Nat.le_max_left ..) (h6 pre rest)
  · exact (structToDict_mono Γ (Nat.le_trans (Nat.le_max_left m' m2) (Nat.le_max_right m _)) b r false).of_ok h7
  · exact structToStream_of_le (Nat.le_trans (Nat.le_max_right m' m2) (Nat.le_max_right m _)) h10

/-! ### Two formats -/

/-- ```
class Wire(Struct):
    n = UInt8()
    marks = Array(UInt16(endian="big"), count=n)
    title = StringZ(encoding="utf-8")
``` -/
def Sample.wireForm : StructDesc :=
  { name := "Wire", components := [Sample.u8 "n", Sample.array "marks" (Sample.u16 "") (.ref "n"), Sample.strz "title"]
    fieldValidators := [("n", []), ("marks", []), ("title", [])], numOwnFields := 3 }

/-- ```
class Disk(Struct):
    title = StringZ(encoding="utf-8")
    n = VariableLengthInteger(vli_format=VLQ)
    marks = Array(VariableLengthInteger(vli_format=VLQ), count=n)
``` -/
def Sample.diskForm : StructDesc :=
  { name := "Disk", components := [Sample.strz "title", Sample.vlq "n", Sample.array "marks" (Sample.vlq "") (.ref "n")]
    fieldValidators := [("title", []), ("n", []), ("marks", [])], numOwnFields := 3 }

theorem Sample.wireForm_schema (Γ : Classes) : Schema Γ Sample.wireForm where
  unique := by unfold UniqueNames; decide
  checks := fun r hr => unchecked_valid (by decide) (by simp [Sample.wireForm, Sample.u8, Sample.array, Sample.strz, Field.base]) rfl hr
    (by unfold UniqueNames; decide)
  fields := by
    refine fields_of_index (Q := fun pre f => Layout pre f ∧ Always f.base ∧ f.base.discard = false ∧ Sources Γ f) fun i hi => ?_
    match i, hi with
    | 0, _ => exact ⟨.integer (n := 1) rfl (by decide), ⟨fun _ _ _ => rfl, rfl⟩, rfl, fun _ h => absurd rfl h, fun _ _ _ h => by cases h⟩
    | 1, _ =>
      exact ⟨.array rfl rfl (Or.inr ⟨"n", by decide, rfl⟩) ⟨fun _ _ _ => rfl, rfl⟩ (.integer (n := 2) rfl (by decide)), ⟨fun _ _ _ => rfl, rfl⟩, rfl,
        fun _ h => absurd rfl h, fun _ _ _ h => by cases h⟩
    | 2, _ =>
      exact ⟨.stringz .utf8 rfl rfl (by decide), ⟨fun _ _ _ => rfl, rfl⟩, rfl, fun _ h => absurd rfl h, fun _ _ _ h => by cases h⟩

theorem Sample.diskForm_schema (Γ : Classes) : Schema Γ Sample.diskForm where
  unique := by unfold UniqueNames; decide
  checks := fun r hr => unchecked_valid (by decide) (by simp [Sample.diskForm, Sample.vlq, Sample.array, Sample.strz, Field.base]) rfl hr
    (by unfold UniqueNames; decide)
  fields := by
    refine fields_of_index (Q := fun pre f => Layout pre f ∧ Always f.base ∧ f.base.discard = false ∧ Sources Γ f) fun i hi => ?_
    match i, hi with
    | 0, _ =>
      exact ⟨.stringz .utf8 rfl rfl (by decide), ⟨fun _ _ _ => rfl, rfl⟩, rfl, fun _ h => absurd rfl h, fun _ _ _ h => by cases h⟩
    | 1, _ => exact ⟨.varint rfl, ⟨fun _ _ _ => rfl, rfl⟩, rfl, fun _ h => absurd rfl h, fun _ _ _ h => by cases h⟩
    | 2, _ =>
      exact ⟨.array rfl rfl (Or.inr ⟨"n", by decide, rfl⟩) ⟨fun _ _ _ => rfl, rfl⟩ (.varint rfl), ⟨fun _ _ _ => rfl, rfl⟩, rfl,
        fun _ h => absurd rfl h, fun _ _ _ h => by cases h⟩

theorem Sample.forms_same : SameNames Sample.wireForm Sample.diskForm := by
  intro k
  simp only [names, Sample.wireForm, Sample.diskForm, Sample.u8, Sample.vlq, Sample.array, Sample.strz, Field.name, Field.base, List.map_cons,
    List.map_nil, List.mem_cons, List.not_mem_nil, or_false]
  constructor <;> rintro (h | h | h) <;> simp [h]

-- an instance, its bytes, and the bytes of the converted one
example : structToStream Sample.noClasses 4 Sample.wireForm
    [("title", .str [72, 233]), ("n", .int 2), ("marks", .list [.int 300, .int 5])] .none = W.ok [2, 1, 44, 0, 5, 72, 195, 169, 0] := by decide +kernel
example : structToStream Sample.noClasses 4 Sample.diskForm
    [("title", .str [72, 233]), ("n", .int 2), ("marks", .list [.int 300, .int 5])] .none = W.ok [72, 195, 169, 0, 2, 130, 44, 5] := by decide +kernel

-- the theorem: there and back
example : ∃ m r u, (∀ pre rest, structFromStream Sample.noClasses m Sample.diskForm
        ⟨pre ++ [72, 195, 169, 0, 2, 130, 44, 5] ++ rest, pre.length⟩ .none [] =
        (.ok r, ⟨pre ++ [72, 195, 169, 0, 2, 130, 44, 5] ++ rest, pre.length + 8⟩)) ∧
      structToDict Sample.noClasses 3 Sample.diskForm r = .ok u ∧
      SameValues u [("title", .str [72, 233]), ("n", .int 2), ("marks", .list [.int 300, .int 5])] ∧
      structInit Sample.wireForm u = .ok u ∧
      structToStream Sample.noClasses 4 Sample.wireForm u .none = ([2, 1, 44, 0, 5, 72, 195, 169, 0], .ok ()) := by
  refine C115_plain Sample.noClasses (by intro c d h; cases h) 3 Sample.wireForm Sample.diskForm
    [("title", .str [72, 233]), ("n", .int 2), ("marks", .list [.int 300, .int 5])]
    [("title", .str [72, 233]), ("n", .int 2), ("marks", .list [.int 300, .int 5])] .none [2, 1, 44, 0, 5, 72, 195, 169, 0]
    [72, 195, 169, 0, 2, 130, 44, 5] (Sample.wireForm_schema _) (Sample.diskForm_schema _) Sample.forms_same (by unfold Instance; decide) (by decide) ?_ ?_
    (by decide +kernel) (by decide +kernel)
  · intro f hf w hw
    simp only [Sample.diskForm, List.mem_cons, List.not_mem_nil, or_false] at hf
    rcases hf with rfl | rfl | rfl <;> cases hw
    · exact .leaf (by simp [Scalar]) (Or.inl rfl)
    · exact .leaf trivial (Or.inl rfl)
    · refine .array fun w hw => ?_
      simp only [List.mem_cons, List.not_mem_nil, or_false] at hw
      rcases hw with rfl | rfl <;> exact .leaf trivial (Or.inl rfl)
  · intro k v h
    have hm := Dict.get?_some_mem h
    simp only [List.mem_cons, List.not_mem_nil, or_false, Prod.mk.injEq] at hm
    rcases hm with ⟨-, rfl⟩ | ⟨-, rfl⟩ | ⟨-, rfl⟩
    · exact .scalar (by simp) (by simp)
    · exact .scalar (by simp) (by simp)
    · refine .list fun w hw => ?_
      simp only [List.mem_cons, List.not_mem_nil, or_false] at hw
      rcases hw with rfl | rfl <;> exact .scalar (by simp) (by simp)

/-! ### Two formats with nested structs -/

/-- ```
class PointBE(Struct):                    class PointVL(Struct):
    x = UInt16(endian="big")                  y = VariableLengthInteger(vli_format=VLQ)
    y = UInt16(endian="big")                  x = VariableLengthInteger(vli_format=VLQ)
``` -/
def Sample.pointBE : StructDesc :=
  { name := "PointBE", components := [Sample.u16 "x", Sample.u16 "y"], fieldValidators := [("x", []), ("y", [])], numOwnFields := 2 }
@[inherit_doc Sample.pointBE]
def Sample.pointVL : StructDesc :=
  { name := "PointVL", components := [Sample.vlq "y", Sample.vlq "x"], fieldValidators := [("y", []), ("x", [])], numOwnFields := 2 }

def Sample.pathClasses : Classes := fun c => if c = "PointBE" then some Sample.pointBE else if c = "PointVL" then some Sample.pointVL else none

/-- ```
class PathBE(Struct):                          class PathVL(Struct):
    n = UInt8()                                    n = VariableLengthInteger(vli_format=VLQ)
    points = Array(Nested(PointBE), count=n)       points = Array(Nested(PointVL), count=n)
``` -/
def Sample.pathBE : StructDesc :=
  { name := "PathBE", components := [Sample.u8 "n", Sample.array "points" (.nested {} "PointBE") (.ref "n")]
    fieldValidators := [("n", []), ("points", [])], numOwnFields := 2 }
@[inherit_doc Sample.pathBE]
def Sample.pathVL : StructDesc :=
  { name := "PathVL", components := [Sample.vlq "n", Sample.array "points" (.nested {} "PointVL") (.ref "n")]
    fieldValidators := [("n", []), ("points", [])], numOwnFields := 2 }

theorem Sample.pathClasses_schema (c : String) (d : StructDesc) (h : Sample.pathClasses c = some d) : Schema Sample.pathClasses d := by
  unfold Sample.pathClasses at h
  split at h
  · cases h
    exact {
      unique := by unfold UniqueNames; decide
      checks := fun r hr => unchecked_valid (by decide) (by simp [Sample.pointBE, Sample.u16, Field.base]) rfl hr (by unfold UniqueNames; decide)
      fields := by
        refine fields_of_index (Q := fun pre f => Layout pre f ∧ Always f.base ∧ f.base.discard = false ∧ Sources Sample.pathClasses f) fun i hi => ?_
        match i, hi with
        | 0, _ => exact ⟨.integer (n := 2) rfl (by decide), ⟨fun _ _ _ => rfl, rfl⟩, rfl, fun _ h => absurd rfl h, fun _ _ _ h => by cases h⟩
        | 1, _ => exact ⟨.integer (n := 2) rfl (by decide), ⟨fun _ _ _ => rfl, rfl⟩, rfl, fun _ h => absurd rfl h, fun _ _ _ h => by cases h⟩ }
  · split at h
    · cases h
      exact {
        unique := by unfold UniqueNames; decide
        checks := fun r hr => unchecked_valid (by decide) (by simp [Sample.pointVL, Sample.vlq, Field.base]) rfl hr (by unfold UniqueNames; decide)
        fields := by
          refine fields_of_index (Q := fun pre f => Layout pre f ∧ Always f.base ∧ f.base.discard = false ∧ Sources Sample.pathClasses f) fun i hi => ?_
          match i, hi with
          | 0, _ => exact ⟨.varint rfl, ⟨fun _ _ _ => rfl, rfl⟩, rfl, fun _ h => absurd rfl h, fun _ _ _ h => by cases h⟩
          | 1, _ => exact ⟨.varint rfl, ⟨fun _ _ _ => rfl, rfl⟩, rfl, fun _ h => absurd rfl h, fun _ _ _ h => by cases h⟩ }
    · cases h

theorem Sample.pathBE_schema : Schema Sample.pathClasses Sample.pathBE where
  unique := by unfold UniqueNames; decide
  checks := fun r hr => unchecked_valid (by decide) (by simp [Sample.pathBE, Sample.u8, Sample.array, Field.base]) rfl hr
    (by unfold UniqueNames; decide)
  fields := by
    refine fields_of_index (Q := fun pre f => Layout pre f ∧ Always f.base ∧ f.base.discard = false ∧ Sources Sample.pathClasses f) fun i hi => ?_
    match i, hi with
    | 0, _ => exact ⟨.integer (n := 1) rfl (by decide), ⟨fun _ _ _ => rfl, rfl⟩, rfl, fun _ h => absurd rfl h, fun _ _ _ h => by cases h⟩
    | 1, _ =>
      exact ⟨.array rfl rfl (Or.inr ⟨"n", by decide, rfl⟩) ⟨fun _ _ _ => rfl, rfl⟩ (.nested rfl rfl), ⟨fun _ _ _ => rfl, rfl⟩, rfl,
        fun _ h => absurd rfl h, fun _ _ _ h => by cases h⟩

theorem Sample.pathVL_schema : Schema Sample.pathClasses Sample.pathVL where
  unique := by unfold UniqueNames; decide
  checks := fun r hr => unchecked_valid (by decide) (by simp [Sample.pathVL, Sample.vlq, Sample.array, Field.base]) rfl hr
    (by unfold UniqueNames; decide)
  fields := by
    refine fields_of_index (Q := fun pre f => Layout pre f ∧ Always f.base ∧ f.base.discard = false ∧ Sources Sample.pathClasses f) fun i hi => ?_
    match i, hi with
    | 0, _ => exact ⟨.varint rfl, ⟨fun _ _ _ => rfl, rfl⟩, rfl, fun _ h => absurd rfl h, fun _ _ _ h => by cases h⟩
    | 1, _ =>
      exact ⟨.array rfl rfl (Or.inr ⟨"n", by decide, rfl⟩) ⟨fun _ _ _ => rfl, rfl⟩ (.nested rfl rfl), ⟨fun _ _ _ => rfl, rfl⟩, rfl,
        fun _ h => absurd rfl h, fun _ _ _ h => by cases h⟩

/-- `PathBE(n=2, points=[PointBE(x=300, y=5), {"y": 1, "x": 2}])`. -/
def Sample.path : Dict :=
  [("n", .int 2), ("points", .list [.struct "PointBE" [("x", .int 300), ("y", .int 5)], .dict [("y", .int 1), ("x", .int 2)]])]

def Sample.pathDict : Dict :=
  [("n", .int 2), ("points", .list [.dict [("x", .int 300), ("y", .int 5)], .dict [("y", .int 1), ("x", .int 2)]])]

theorem Sample.path_plain : PlainInstance Sample.pathClasses Sample.pathBE Sample.path := by
  refine ⟨Sample.pathBE_schema, by unfold Instance; decide, fun f hf w hw => ?_⟩
  simp only [Sample.pathBE, List.mem_cons, List.not_mem_nil, or_false] at hf
  rcases hf with rfl | rfl <;> cases hw
  · exact .leaf trivial (Or.inl rfl)
  · refine .array fun w hw => ?_
    simp only [List.mem_cons, List.not_mem_nil, or_false] at hw
    rcases hw with rfl | rfl
    · refine .struct (d := Sample.pointBE) rfl (by unfold Instance; decide) fun g hg w hw => ?_
      simp only [Sample.pointBE, List.mem_cons, List.not_mem_nil, or_false] at hg
      rcases hg with rfl | rfl <;> cases hw <;> exact .leaf trivial (Or.inl rfl)
    · refine .dict (d := Sample.pointBE) rfl (by unfold Instance; decide) fun g hg w hw => ?_
      simp only [Sample.pointBE, List.mem_cons, List.not_mem_nil, or_false] at hg
      rcases hg with rfl | rfl <;> cases hw <;> exact .leaf trivial (Or.inl rfl)

theorem Sample.path_suits : Suits Sample.pathClasses Sample.pathVL Sample.pathDict := by
  intro f hf w hw
  simp only [Sample.pathVL, List.mem_cons, List.not_mem_nil, or_false] at hf
  rcases hf with rfl | rfl <;> cases hw
  · exact .leaf trivial (Or.inl rfl)
  · refine .array fun w hw => ?_
    simp only [List.mem_cons, List.not_mem_nil, or_false] at hw
    rcases hw with rfl | rfl <;>
    · refine .dict (d := Sample.pointVL) rfl (by unfold Instance; decide) fun g hg w hw => ?_
      simp only [Sample.pointVL, List.mem_cons, List.not_mem_nil, or_false] at hg
      rcases hg with rfl | rfl <;> cases hw <;> exact .leaf trivial (Or.inl rfl)

-- the points come back with their keys in another order, and are written as before
example : structInit Sample.pathVL Sample.pathDict = .ok Sample.pathDict ∧ ∃ m r u,
    (∀ pre rest, structFromStream Sample.pathClasses m Sample.pathVL ⟨pre ++ [2, 5, 130, 44, 1, 2] ++ rest, pre.length⟩ .none [] =
      (.ok r, ⟨pre ++ [2, 5, 130, 44, 1, 2] ++ rest, pre.length + 6⟩)) ∧
    structToDict Sample.pathClasses m Sample.pathVL r = .ok u ∧ Identical (.dict u) (.dict Sample.pathDict) ∧
    structInit Sample.pathBE u = .ok u ∧ structToStream Sample.pathClasses m Sample.pathBE u .none = ([2, 1, 44, 0, 5, 0, 2, 0, 1], .ok ()) := by
  refine C115_nested Sample.pathClasses Sample.pathClasses_schema 11 Sample.pathBE Sample.pathVL Sample.path Sample.pathDict .none
    [2, 1, 44, 0, 5, 0, 2, 0, 1] [2, 5, 130, 44, 1, 2] Sample.path_plain Sample.pathVL_schema (fun _ => Iff.rfl) (by decide +kernel) Sample.path_suits ?_ ?_
    (by decide +kernel) (by decide +kernel)
  · intro f hf w hw
    simp only [Sample.pathBE, List.mem_cons, List.not_mem_nil, or_false] at hf
    rcases hf with rfl | rfl <;> cases hw
    · exact .leaf
    · refine .array fun w hw => ?_
      simp only [List.mem_cons, List.not_mem_nil, or_false] at hw
      rcases hw with rfl | rfl <;>
      · refine .dict (d := Sample.pointBE) rfl (by decide) fun g hg w hw => ?_
        simp only [Sample.pointBE, List.mem_cons, List.not_mem_nil, or_false] at hg
        rcases hg with rfl | rfl <;> exact .leaf
  · intro f hf w hw
    simp only [Sample.pathVL, List.mem_cons, List.not_mem_nil, or_false] at hf
    rcases hf with rfl | rfl <;> cases hw
    · exact .leaf
    · refine .array fun w hw => ?_
      simp only [List.mem_cons, List.not_mem_nil, or_false] at hw
      rcases hw with rfl | rfl <;>
      · refine .dict (d := Sample.pointVL) rfl (by decide) fun g hg w hw => ?_
        simp only [Sample.pointVL, List.mem_cons, List.not_mem_nil, or_false] at hg
        rcases hg with rfl | rfl <;> exact .leaf

/-- **C115** It is false for formats that pad: the conversion succeeds, and the padding comes back as part of the text.
```
class A(Struct):            class B(Struct):
    s = StringZ()               s = String(size=4, pad_byte=b" ")
``` -/
theorem C115_padding_refuted :
    ∃ (a b : StructDesc) (T r : Dict) (y : Bytes), SameNames a b ∧ structToStream Sample.noClasses 4 b T .none = (y, .ok ()) ∧
      structFromStream Sample.noClasses 4 b ⟨y, 0⟩ .none [] = (.ok r, ⟨y, y.length⟩) ∧
      structToStream Sample.noClasses 4 a T .none = ([104, 105, 0], .ok ()) ∧
      structToStream Sample.noClasses 4 a r .none = ([104, 105, 32, 32, 0], .ok ()) :=
  ⟨{ name := "A", components := [Sample.strz "s"], fieldValidators := [("s", [])], numOwnFields := 1 },
    { name := "B", components := [Sample.str "s" 4 (some 32)], fieldValidators := [("s", [])], numOwnFields := 1 },
    [("s", .str [104, 105])], [("s", .str [104, 105, 32, 32])], [104, 105, 32, 32], fun _ => Iff.rfl, by decide +kernel, by decide +kernel,
    by decide +kernel, by decide +kernel⟩

end Verif
