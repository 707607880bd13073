import Verif.Spec.Tagged
import Verif.Props.Convert
import Verif.Props.Inherit
import Verif.Props.Offset
import Verif.Props.OptionalRecords
import Verif.Props.Sink

/-!
# C116: choosing the class by a tag in the common base
-/

namespace Verif
open Verif.Spec

theorem Spec.OptionalSchema.loadsForward {Γ : Classes} {d : StructDesc} (hd : OptionalSchema Γ d) : ∀ f ∈ d.components, LoadsForward f := by
  intro f hf
  obtain ⟨a, b, -, hf⟩ := hd.field hf
  exact hf.layout.loadsForward

theorem partialLoadLoop_forward {load : Field → Stream → Dict → R Value} {last : Option String} {fs : List Field}
    (h : ∀ f ∈ fs, ∀ loaded, Forward fun s => load f s loaded) (acc : Dict) : Forward (partialLoadLoop load last fs acc) := by
  induction fs generalizing acc with
  | nil => intro s hs; exact ⟨rfl, Nat.le_refl _, hs⟩
  | cons f fs ih =>
    intro s hs
    have h1 := h f List.mem_cons_self acc s hs
    simp only [partialLoadLoop]
    simp only at h1
    split
    · rename_i e t ht; rw [ht] at h1
      split
      · exact ⟨h1.1, Nat.le_refl _, hs⟩
      · exact h1
    · rename_i v t ht; rw [ht] at h1
      split
      · exact h1
      · exact forward_step h1 (ih (fun g hg => h g (List.mem_cons_of_mem _ hg)) _ t)

/-- Looking at a field does not change the stream. -/
theorem getField_stream {Γ : Classes} (hΓ : ∀ c d, Γ c = some d → ∀ f ∈ d.components, LoadsForward f) {n : Nat} {d : StructDesc} {s s' : Stream}
    {ctx : Value} {pre post : List Field} {f : Field} {vals : Dict} (hu : UniqueNames d) (hF : ∀ g ∈ d.components, LoadsForward g)
    (ht : TagField d pre f post) (hs : s.pos ≤ s.data.length) (h : structFromStream Γ (n + 1) d s ctx [] = (.ok vals, s')) :
    (structGetField Γ n d s f.name ctx).2 = s := by
  have hfm : f ∈ d.components := by rw [ht.place]; simp
  have hback : ∀ t : Stream, t.data = s.data → t.seek s.tell = s := by
    intro t h; cases t; cases s; simp only at h; subst h; rfl
  unfold structGetField
  rw [find?_of_mem hu hfm]
  simp only
  cases hfo : f.base.offset with
  | none =>
    have h1 := partialLoadLoop_forward (load := fun f s loaded => fieldFromStream Γ n f s ctx loaded) (last := some f.name) (fs := d.components)
      (fun g hg loaded => (load_forward Γ hΓ n).1 g (hF g hg) ctx loaded) [] s hs
    have h2 : (structPartialLoad Γ n d s (some f.name) ctx).2.data = s.data := by
      unfold structPartialLoad
      split
      · rfl
      · cases hx : partialLoadLoop (fun f s loaded => fieldFromStream Γ n f s ctx loaded) (some f.name) d.components [] s with
        | mk r t =>
          rw [hx] at h1
          cases r <;> exact h1.1
    simp only
    cases hx : structPartialLoad Γ n d s (some f.name) ctx with
    | mk r t =>
      rw [hx] at h2
      cases r <;> exact hback t h2
  | some o =>
    obtain ⟨hr, -⟩ := ht.seekable (by simp [hfo])
    have htot := ht.offsets pre f post ht.place
    rw [hfo] at htot
    obtain ⟨results, hl, -, -, -⟩ := structFromStream_ok_iff.1 h
    rw [ht.place] at hl
    obtain ⟨m, t, h1, -⟩ := Loads.append.1 hl
    obtain ⟨ho0, h2, h3⟩ := loads_rigid h1 hs hr htot.symm
    obtain ⟨off, rfl⟩ := Int.eq_ofNat_of_zero_le ho0
    simp only [Int.toNat_natCast] at h2
    have h4 : seekInt s ((s.tell : Int) + (off : Int)) = (.ok (), t) := by
      unfold seekInt
      rw [if_neg (by omega), h2]
      congr 2
    simp only [h4]
    have h5 := (load_forward Γ hΓ n).1 f (hF f hfm) ctx [] t h3
    simp only at h5
    exact hback _ (by rw [h5.1, h2]; rfl)

/-- One struct. -/
theorem readTagged_one {Γ : Classes} (hΓ : ∀ c d, Γ c = some d → OptionalSchema Γ d) {n : Nat} {base d : StructDesc} {pf qf own : List Field}
    {f : Field} (ht : TagField base pf f qf) {table : Value → Option StructDesc} {ctx : Value} {vals : Dict} {bs : Bytes} (hd : OptionalSchema Γ d)
    (hb : Bears Γ d vals) (he : Extends base d own)
    (htable : ∀ all w, structToDict Γ n d vals = .ok all → Dict.get? all f.name = some w → DictFree w ∧ table w = some d)
    (h : structToStream Γ (n + 1) d vals ctx = (bs, .ok ())) :
    ∃ m₀ r, RestoredKept Γ n d vals r ∧ ∀ m, m₀ ≤ m → ∀ pre rest,
      readTagged Γ m base f.name table ctx ⟨pre ++ bs ++ rest, pre.length⟩ = (.ok (d, r), ⟨pre ++ bs ++ rest, pre.length + bs.length⟩) := by
  obtain ⟨all, m₀, r, h1, h2, h3, h4⟩ := C26_optional_round_trip Γ hΓ n d vals ctx bs hd hb h
  have hrest : RestoredKept Γ n d vals r := by
    refine ⟨all, h1, fun g hg hk => ?_, h3⟩
    obtain ⟨v, w, ha, hr, hs, -⟩ := h2 g hg hk
    exact ⟨v, w, ha, hr, hs⟩
  refine ⟨m₀, r, hrest, fun m hm pre rest => ?_⟩
  have hfb : f ∈ base.components := by rw [ht.place]; simp
  have hfd : f ∈ d.components := by rw [he.components]; exact List.mem_append_left _ hfb
  obtain ⟨v, w, ha, hr, hs, -⟩ := h2 f hfd ht.kept
  obtain ⟨hfree, htab⟩ := htable all w h1 ha
  have hvw := hs.dictFree hfree
  subst hvw
  have h5 := structFromStream_of_le (show m₀ ≤ m + 1 by omega) (h4 pre rest)
  have h6 := structFromStream_of_le hm (h4 pre rest)
  have hub : UniqueNames base := by
    have := hd.unique
    unfold UniqueNames names at *
    rw [he.components, List.map_append] at this
    exact (List.nodup_append.1 this).1
  obtain ⟨rb, t, -, -, h7, h8, -⟩ := C72_load_base Γ m base d own _ _ ctx r he hd.unique ht.checked ht.inner h5
  have hpos : (⟨pre ++ bs ++ rest, pre.length⟩ : Stream).pos ≤ (⟨pre ++ bs ++ rest, pre.length⟩ : Stream).data.length := by simp
  have h9 : (structGetField Γ m base ⟨pre ++ bs ++ rest, pre.length⟩ f.name ctx).1 = .ok v :=
    C24_get_field_static_partial Γ m base _ t ctx v pf qf f rb hub ht.place ht.offsets hpos ht.seekable ht.unskipped h7
      (by rw [h8 f.name (List.mem_map.2 ⟨f, hfb, rfl⟩)]; exact hr)
  have h10 : (structGetField Γ m base ⟨pre ++ bs ++ rest, pre.length⟩ f.name ctx).2 = ⟨pre ++ bs ++ rest, pre.length⟩ :=
    getField_stream (fun c d hc => (hΓ c d hc).loadsForward) hub
      (fun g hg => hd.loadsForward g (by rw [he.components]; exact List.mem_append_left _ hg)) ht hpos h7
  have h11 : structGetField Γ m base ⟨pre ++ bs ++ rest, pre.length⟩ f.name ctx = (.ok v, ⟨pre ++ bs ++ rest, pre.length⟩) := by
    exact Prod.ext h9 h10
  unfold readTagged
  rw [h11]
  simp only [htab, h6]
  rfl

/-- **C116** Structs of different classes, all derived from the class `base`, are written one after another.  A reader that looks at the field `f` of
the base with `base.get_field`, and loads the struct with the class that it finds under this value in a table, gets back all of them, each with its
class, and each load takes exactly the bytes of its struct. -/
theorem C116_dispatch (Γ : Classes) (hΓ : ∀ c d, Γ c = some d → OptionalSchema Γ d) (n : Nat) (base : StructDesc) (pf qf : List Field) (f : Field)
    (ht : TagField base pf f qf) (table : Value → Option StructDesc) (ctx : Value) (rs : List (StructDesc × Dict)) (bs : Bytes)
    (hrs : ∀ p ∈ rs, OptionalSchema Γ p.1 ∧ Bears Γ p.1 p.2 ∧ ∃ own, Extends base p.1 own)
    (htable : ∀ p ∈ rs, ∀ all w, structToDict Γ n p.1 p.2 = .ok all → Dict.get? all f.name = some w → DictFree w ∧ table w = some p.1)
    (h : writeAll Γ (n + 1) ctx rs = (bs, .ok ())) :
    ∃ m₀ out, AllRestoredKept Γ n rs out ∧ ∀ m, m₀ ≤ m → ∀ pre rest,
      readTaggedAll Γ m base f.name table ctx rs.length ⟨pre ++ bs ++ rest, pre.length⟩ =
        (.ok ((rs.map (·.1)).zip out), ⟨pre ++ bs ++ rest, pre.length + bs.length⟩) := by
  induction rs generalizing bs with
  | nil =>
    simp only [writeAll, W.ok, Prod.mk.injEq, and_true] at h
    subst h
    exact ⟨0, [], .nil, fun _ _ pre rest => by simp [readTaggedAll]⟩
  | cons p rs ih =>
    obtain ⟨d, vals⟩ := p
    unfold writeAll at h
    obtain ⟨b1, b2, h1, h2, rfl⟩ := W.seq_ok h
    obtain ⟨hd, hb, own, he⟩ := hrs _ List.mem_cons_self
    obtain ⟨m1, r, h3, h4⟩ := readTagged_one hΓ ht hd hb he (htable _ List.mem_cons_self) h1
    obtain ⟨m2, out, h5, h6⟩ := ih b2 (fun p hp => hrs p (List.mem_cons_of_mem _ hp)) (fun p hp => htable p (List.mem_cons_of_mem _ hp)) h2
    refine ⟨max m1 m2, r :: out, .cons h3 h5, fun m hm pre rest => ?_⟩
    have h7 := h4 m (by omega) pre (b2 ++ rest)
    have h8 := h6 m (by omega) (pre ++ b1) rest
    rw [show pre ++ b1 ++ (b2 ++ rest) = pre ++ (b1 ++ b2) ++ rest by simp] at h7
    rw [show pre ++ b1 ++ b2 ++ rest = pre ++ (b1 ++ b2) ++ rest by simp, List.length_append] at h8
    simp only [List.length_cons, readTaggedAll, h7, h8]
    simp [R.map, Except.map, Nat.add_assoc]

/-- **C116** A tag that is not in the table: the stream stays where it is, so that the reader can do something else. -/
theorem C116_unknown_tag (Γ : Classes) (n : Nat) (base : StructDesc) (tag : String) (table : Value → Option StructDesc) (ctx : Value) (s : Stream) (v : Value)
    (h : (structGetField Γ n base s tag ctx).1 = .ok v) (hv : table v = none) :
    (readTagged Γ n base tag table ctx s).1 = .error (.user "KeyError") ∧ (readTagged Γ n base tag table ctx s).2.pos = s.pos := by
  have hp := C23_get_field_position Γ n base s tag ctx
  cases hx : structGetField Γ n base s tag ctx with
  | mk r t =>
    rw [hx] at h hp
    simp only at h hp
    subst h
    simp only [readTagged, hx, hv, hp, and_self]

/-! ### An example -/

/-- ```
class Event(Struct):
    number = UInt16(endian="big")
    kind = UInt8()
``` -/
def Sample.eventDecl : ClassDecl := { name := "Event", body := [("number", .field (Sample.u16 "number")), ("kind", .field (Sample.u8 "kind"))] }

/-- The class itself. -/
def Sample.event : StructDesc :=
  { name := "Event"
    components := [Sample.upd (Sample.u16 "number") ({ · with offset := some 0 }), Sample.upd (Sample.u8 "kind") ({ · with index := 1, offset := some 2 })]
    fieldValidators := [("number", []), ("kind", [])], numOwnFields := 2 }

theorem Sample.event_class : fromClass Sample.noClasses 3 Sample.eventDecl = .ok Sample.event := rfl

/-- ```
class Said(Event):
    text = StringZ(encoding="utf-8")
``` -/
def Sample.said : StructDesc :=
  { name := "Said", components := Sample.event.components ++ [Sample.upd (Sample.strz "text") ({ · with index := 2, offset := some 3 })]
    fieldValidators := [("number", []), ("kind", []), ("text", [])], numOwnFields := 1 }

/-- ```
class Moved(Event):
    x = Int16(endian="little")
    y = Int16(endian="little")
``` -/
def Sample.moved : StructDesc :=
  { name := "Moved"
    components := Sample.event.components ++ [Sample.upd (Sample.i16 "x") ({ · with index := 2, offset := some 3 }),
      Sample.upd (Sample.i16 "y") ({ · with index := 3, offset := some 5 })]
    fieldValidators := [("number", []), ("kind", []), ("x", []), ("y", [])], numOwnFields := 2 }

example : fromClass (Classes.add Sample.noClasses Sample.event) 3
    { name := "Said", bases := ["Event"], body := [("text", .field (Sample.strz "text"))] } = .ok Sample.said := rfl
example : fromClass (Classes.add Sample.noClasses Sample.event) 3
    { name := "Moved", bases := ["Event"], body := [("x", .field (Sample.i16 "x")), ("y", .field (Sample.i16 "y"))] } = .ok Sample.moved := rfl

theorem Sample.event_tag : TagField Sample.event (Sample.event.components.take 1)
    (Sample.upd (Sample.u8 "kind") ({ · with index := 1, offset := some 2 })) [] where
  place := rfl
  kept := rfl
  offsets := C25_offsets_root _ _ _ _ rfl Sample.event_class
  seekable := by
    refine fun _ => ⟨fun g hg => ?_, ?_⟩
    · simp only [Sample.event, List.take, List.mem_cons, List.not_mem_nil, or_false] at hg
      subst hg
      exact ⟨2, .leaf trivial rfl (fun _ h => by cases h) (fun _ _ _ => rfl) (.inl rfl)⟩
    · exact .leaf ⟨fun h => (by cases h), fun r h => (by cases h), fun _ _ _ _ _ => rfl⟩ (fun ops h => by cases h)
  unskipped := by intro h; cases h
  checked := by decide
  inner := ⟨fun p hp m hm => by simp [Sample.event] at hp; rcases hp with rfl | rfl <;> simp at hm, fun m hm => by simp [Sample.event] at hm⟩

theorem Sample.said_schema : OptionalSchema Sample.noClasses Sample.said where
  unique := by unfold UniqueNames; decide
  checks := unchecked_impartial (by decide)
    (by simp [Sample.said, Sample.event, Sample.u8, Sample.u16, Sample.strz, Sample.upd, Field.base, Field.withBase]) rfl (by unfold UniqueNames; decide)
  fields := by
    refine optional_fields_of_index fun i hi => ?_
    match i, hi with
    | 0, _ => exact optional_field_plain (.integer (n := 2) rfl (by decide)) ⟨fun _ _ _ => rfl, rfl⟩ rfl rfl rfl rfl
    | 1, _ => exact optional_field_plain (.integer (n := 1) rfl (by decide)) ⟨fun _ _ _ => rfl, rfl⟩ rfl rfl rfl rfl
    | 2, _ => exact optional_field_plain (.stringz .utf8 rfl rfl (by decide)) ⟨fun _ _ _ => rfl, rfl⟩ rfl rfl rfl rfl

theorem Sample.moved_schema : OptionalSchema Sample.noClasses Sample.moved where
  unique := by unfold UniqueNames; decide
  checks := unchecked_impartial (by decide)
    (by simp [Sample.moved, Sample.event, Sample.u8, Sample.u16, Sample.i16, Sample.upd, Field.base, Field.withBase]) rfl (by unfold UniqueNames; decide)
  fields := by
    refine optional_fields_of_index fun i hi => ?_
    match i, hi with
    | 0, _ => exact optional_field_plain (.integer (n := 2) rfl (by decide)) ⟨fun _ _ _ => rfl, rfl⟩ rfl rfl rfl rfl
    | 1, _ => exact optional_field_plain (.integer (n := 1) rfl (by decide)) ⟨fun _ _ _ => rfl, rfl⟩ rfl rfl rfl rfl
    | 2, _ => exact optional_field_plain (.integer (n := 2) rfl (by decide)) ⟨fun _ _ _ => rfl, rfl⟩ rfl rfl rfl rfl
    | 3, _ => exact optional_field_plain (.integer (n := 2) rfl (by decide)) ⟨fun _ _ _ => rfl, rfl⟩ rfl rfl rfl rfl

/-- `{1: Said, 2: Moved}` -/
def Sample.kinds : Value → Option StructDesc := fun v => if v = .int 1 then some Sample.said else if v = .int 2 then some Sample.moved else none

/-- Two structs of two classes. -/
def Sample.events : List (StructDesc × Dict) :=
  [(Sample.moved, [("number", .int 1), ("kind", .int 2), ("x", .int 5), ("y", .int (-1))]),
    (Sample.said, [("number", .int 2), ("kind", .int 1), ("text", .str [104, 105])])]

-- the reader on these bytes
example : readTaggedAll Sample.noClasses 6 Sample.event "kind" Sample.kinds .none 2 ⟨[0, 1, 2, 5, 0, 255, 255, 0, 2, 1, 104, 105, 0], 0⟩ =
    (.ok Sample.events, ⟨[0, 1, 2, 5, 0, 255, 255, 0, 2, 1, 104, 105, 0], 13⟩) := by rfl

-- the theorem, wherever they are
example : ∃ m₀ out, AllRestoredKept Sample.noClasses 3 Sample.events out ∧ ∀ m, m₀ ≤ m → ∀ pre rest,
    readTaggedAll Sample.noClasses m Sample.event "kind" Sample.kinds .none 2
        ⟨pre ++ [0, 1, 2, 5, 0, 255, 255, 0, 2, 1, 104, 105, 0] ++ rest, pre.length⟩ =
      (.ok ([Sample.moved, Sample.said].zip out), ⟨pre ++ [0, 1, 2, 5, 0, 255, 255, 0, 2, 1, 104, 105, 0] ++ rest, pre.length + 13⟩) := by
  refine C116_dispatch Sample.noClasses (by intro c d h; cases h) 3 Sample.event _ _ _ Sample.event_tag Sample.kinds .none Sample.events
    [0, 1, 2, 5, 0, 255, 255, 0, 2, 1, 104, 105, 0] ?_ ?_ (by decide +kernel)
  · intro p hp
    simp only [Sample.events, List.mem_cons, List.not_mem_nil, or_false] at hp
    rcases hp with rfl | rfl
    · refine ⟨Sample.moved_schema, ⟨by unfold Instance; decide, ?_, ?_⟩, _, rfl, by simp [Sample.event, Sample.moved], by intro m hm; cases hm⟩
      · intro f hf h
        simp only [Sample.moved, Sample.event, List.cons_append, List.nil_append, List.mem_cons, List.not_mem_nil, or_false] at hf
        rcases hf with rfl | rfl | rfl | rfl <;> cases h
      · intro f hf w hw _
        simp only [Sample.moved, Sample.event, List.cons_append, List.nil_append, List.mem_cons, List.not_mem_nil, or_false] at hf
        rcases hf with rfl | rfl | rfl | rfl <;> cases hw <;> exact .leaf trivial (Or.inl rfl) (Or.inl rfl)
    · refine ⟨Sample.said_schema, ⟨by unfold Instance; decide, ?_, ?_⟩, _, rfl, by simp [Sample.event, Sample.said], by intro m hm; cases hm⟩
      · intro f hf h
        simp only [Sample.said, Sample.event, List.cons_append, List.nil_append, List.mem_cons, List.not_mem_nil, or_false] at hf
        rcases hf with rfl | rfl | rfl <;> cases h
      · intro f hf w hw _
        simp only [Sample.said, Sample.event, List.cons_append, List.nil_append, List.mem_cons, List.not_mem_nil, or_false] at hf
        rcases hf with rfl | rfl | rfl <;> cases hw
        · exact .leaf trivial (Or.inl rfl) (Or.inl rfl)
        · exact .leaf trivial (Or.inl rfl) (Or.inl rfl)
        · exact .leaf (by simp [Scalar]) (Or.inl rfl) (Or.inl rfl)
  · intro p hp all w h1 h2
    simp only [Sample.events, List.mem_cons, List.not_mem_nil, or_false] at hp
    rcases hp with rfl | rfl
    · cases h1; cases h2
      exact ⟨.scalar (by simp) (by simp), rfl⟩
    · cases h1; cases h2
      exact ⟨.scalar (by simp) (by simp), rfl⟩

end Verif
