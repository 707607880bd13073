import Verif.Proofs.Offset
import Verif.Props.StructLoad
import Verif.Props.Class

/-!
Property theorems: fields at known offsets (`get_field`), and loading with some values given.
-/

namespace Verif
open Spec

/-! ## C24, from the declaration of the class alone -/

theorem loads_rigid {Γ : Classes} {n : Nat} {ctx : Value} {fs : List Field} {acc m : Dict} {s t : Stream} {o : Int}
    (h : Loads Γ n ctx fs acc s m t) (hs : s.pos ≤ s.data.length) (hr : ∀ g ∈ fs, ∃ k, Rigid g k)
    (ho : total (sizes fs) = some o) : 0 ≤ o ∧ t = s.seek (s.pos + o.toNat) ∧ t.pos ≤ t.data.length := by
  induction h generalizing o with
  | nil acc s =>
    simp [sizes, total] at ho
    subst ho
    exact ⟨by omega, by simp [Stream.seek], hs⟩
  | @cons f fs acc r v s s1 s2 h1 h2 ih =>
    obtain ⟨k, hk⟩ := hr f (by simp)
    obtain ⟨h3, h4, h5, -⟩ := hk.load hs h1
    have hsz : f.base.size = .fixed (k : Int) := by cases hk <;> assumption
    simp only [sizes, List.map_cons, hsz, total] at ho
    obtain ⟨o', ho', rfl⟩ := Option.map_eq_some_iff.1 ho
    obtain ⟨h6, h7, h8⟩ := ih (by rw [h3]; exact h5) (fun g hg => hr g (by simp [hg])) ho'
    refine ⟨by omega, ?_, h8⟩
    rw [h7, h4]
    simp only [Stream.seek, h3, Stream.mk.injEq, true_and]
    omega

/-- **C24** (partial: stated for a class whose offsets are right, `C25_offsets_partial`; the fields before one that has an offset always take the same
number of bytes, and the field does not look at them; a field without an offset comes after no discarded one) `get_field` returns the value that
loading the whole struct gives the field. -/
theorem C24_get_field_static_partial (Γ : Classes) (n : Nat) (d : StructDesc) (s s' : Stream) (ctx v : Value)
    (pre post : List Field) (f : Field) (vals : Dict) (hd : UniqueNames d) (hf : d.components = pre ++ f :: post) (ho : Offsets d)
    (hs : s.pos ≤ s.data.length)
    (hoff : f.base.offset ≠ none → (∀ g ∈ pre, ∃ k, Rigid g k) ∧ ReadsOff (fun k => k ∈ pre.map Field.name) f)
    (hno : f.base.offset = none → ∀ g ∈ pre, g.base.discard = false)
    (h : structFromStream Γ (n + 1) d s ctx [] = (.ok vals, s')) (hv : Dict.get? vals f.name = some v) :
    (structGetField Γ n d s f.name ctx).1 = .ok v := by
  have hfm : f ∈ d.components := by rw [hf]; simp
  cases hfo : f.base.offset with
  | none =>
    refine C24_get_field_no_offset_partial Γ n d s s' ctx v pre post f vals hd hf ?_ hfo h hv
    intro g hg
    rcases List.mem_append.1 hg with hg | hg
    · exact hno hfo g hg
    · simp at hg; subst hg
      obtain ⟨results, hl, -, -, rfl⟩ := structFromStream_ok_iff.1 h
      rw [dropDiscarded_get hd results hfm] at hv
      cases hdis : g.base.discard with
      | true => simp [hdis] at hv
      | false => rfl
  | some o =>
    obtain ⟨hr, hro⟩ := hoff (by simp [hfo])
    have htot := ho pre f post hf
    rw [hfo] at htot
    obtain ⟨results, hl, -, -, rfl⟩ := structFromStream_ok_iff.1 h
    have hnd := hd
    unfold UniqueNames names at hnd
    rw [hf] at hl hnd
    obtain ⟨m, t, h1, h2⟩ := Loads.append.1 hl
    obtain ⟨ho0, ht, -⟩ := loads_rigid h1 hs hr htot.symm
    obtain ⟨off, rfl⟩ := Int.eq_ofNat_of_zero_le ho0
    simp only [Int.toNat_natCast] at ht
    subst ht
    have hpre : ∀ k ∈ Dict.keys m, k ∈ pre.map Field.name := by
      intro k hk
      rcases (h1.keys k).1 hk with hx | hx
      · simp [Dict.keys] at hx
      · exact hx
    cases h2 with
    | @cons _ _ _ _ w _ t1 _ h3 h4 =>
      have hag : AgreeOff (fun k => k ∈ pre.map Field.name) m [] := by
        intro k hk
        rw [(Dict.get?_none_iff m k).2 fun hx => hk (hpre k hx)]
        rfl
      rw [(hro.load Γ hag n _ ctx).1] at h3
      have hm : Dict.get? m f.name = none := by
        rw [Dict.get?_none_iff]
        intro hx
        rw [List.map_append, List.nodup_append] at hnd
        exact hnd.2.2 _ (hpre _ hx) f.name (by simp) rfl
      rw [if_pos hm] at h4
      have hw : Dict.get? results f.name = some w := by
        apply h4.mono_get
        rw [← set_of_not_mem hm, Dict.get?_set, if_pos rfl]
      rw [dropDiscarded_get hd results hfm] at hv
      have hvw : v = w := by
        cases hdis : f.base.discard with
        | true => simp [hdis] at hv
        | false => simp [hdis, hw] at hv; exact hv.symm
      subst hvw
      unfold structGetField
      rw [find?_of_mem hd hfm]
      have hsk : seekInt s ((s.tell : Int) + (off : Int)) = (.ok (), s.seek (s.pos + off)) := by
        unfold seekInt Stream.tell
        rw [if_neg (by omega), show (((s.pos : Int) + (off : Int)).toNat) = s.pos + off by omega]
      simp only [hfo]
      rw [hsk]
      simp only [h3]

/-! ## C62: overriding loaded values -/

theorem loads_override {Γ : Classes} {n : Nat} {ctx : Value} {fs : List Field} {kw a b r1 r2 : Dict} {s s1 s2 : Stream}
    (hf : ∀ f ∈ fs, ReadsOff (fun k => k ∈ Dict.keys kw) f) (hab : ∀ k, Dict.get? b k = (Dict.get? kw k).or (Dict.get? a k))
    (h1 : Loads Γ n ctx fs a s r1 s1) (h2 : Loads Γ n ctx fs b s r2 s2) :
    s1 = s2 ∧ ∀ k, Dict.get? r2 k = (Dict.get? kw k).or (Dict.get? r1 k) := by
  induction h1 generalizing b with
  | nil => cases h2; exact ⟨rfl, hab⟩
  | @cons f fs acc r v s t u h3 h4 ih =>
    cases h2 with
    | @cons _ _ _ _ w _ t' _ h5 h6 =>
      have hag : AgreeOff (fun k => k ∈ Dict.keys kw) acc b := by
        intro k hk
        rw [hab k, (Dict.get?_none_iff kw k).2 hk]
        rfl
      rw [(hf f (by simp)).load Γ hag n s ctx |>.1, h5] at h3
      simp only [Prod.mk.injEq, Except.ok.injEq] at h3
      obtain ⟨rfl, rfl⟩ := h3
      refine ih (fun g hg => hf g (by simp [hg])) ?_ h6
      intro k
      have happ : ∀ (x : Dict), Dict.get? x f.name = none → Dict.get? (x ++ [(f.name, w)]) k = if k = f.name then some w else Dict.get? x k := by
        intro x hx
        rw [← set_of_not_mem hx, Dict.get?_set]
        simp only [eq_comm]
      have hk := hab k
      have hn := hab f.name
      by_cases ha : Dict.get? acc f.name = none <;> by_cases hb : Dict.get? b f.name = none
      · rw [if_pos ha, if_pos hb, happ _ ha, happ _ hb]
        by_cases hkf : k = f.name
        · subst hkf
          rw [hb, ha] at hn
          cases hkw : Dict.get? kw f.name with
          | none => simp
          | some x => simp [hkw] at hn
        · simp only [if_neg hkf]; exact hk
      · rw [if_pos ha, if_neg hb, happ _ ha]
        by_cases hkf : k = f.name
        · subst hkf
          rw [ha] at hn
          cases hkw : Dict.get? kw f.name with
          | none => rw [hkw] at hn; exact absurd hn hb
          | some x => rw [hn, hkw]; rfl
        · simp only [if_neg hkf]; exact hk
      · exfalso
        rw [hb] at hn
        cases hkw : Dict.get? kw f.name with
        | none => rw [hkw] at hn; exact ha hn.symm
        | some x => simp [hkw] at hn
      · rw [if_neg ha, if_neg hb]; exact hk

/-- **C62** Giving values in `init_kwargs` changes nothing but these values, and the bytes consumed stay the same, if no field looks at the overridden ones:
it takes neither its size, count or presence from them, nor do its decider, halt check or user-defined class look at them. -/
theorem C62_only_overridden (Γ : Classes) (n : Nat) (d : StructDesc) (s s1 s2 : Stream) (ctx : Value) (kw v1 v2 : Dict)
    (hd : UniqueNames d) (hf : ∀ f ∈ d.components, ReadsOff (fun k => k ∈ Dict.keys kw) f)
    (h1 : structFromStream Γ (n + 1) d s ctx [] = (.ok v1, s1))
    (h2 : structFromStream Γ (n + 1) d s ctx kw = (.ok v2, s2)) :
    s1 = s2 ∧ ∀ f ∈ d.components, f.base.discard = false →
      Dict.get? v2 f.name = (Dict.get? kw f.name).or (Dict.get? v1 f.name) := by
  obtain ⟨r1, hl1, -, -, rfl⟩ := structFromStream_ok_iff.1 h1
  obtain ⟨r2, hl2, -, -, rfl⟩ := structFromStream_ok_iff.1 h2
  obtain ⟨h3, h4⟩ := loads_override hf (fun k => by simp [Dict.get?]) hl1 hl2
  refine ⟨h3, fun f hm hdis => ?_⟩
  rw [dropDiscarded_get hd r2 hm, dropDiscarded_get hd r1 hm, hdis]
  exact h4 f.name

/-- **C62** refuted beyond that: bytes whose size is that of their default are read up to the size of the value that overrides them, which moves the fields
after them, … -/
theorem C62_layout_refuted :
    let d : StructDesc :=
      { name := "Tagged", components := [.leaf { name := "x", typeName := "Bytes", dflt := .bytes [1, 2, 3] } .bytes, Sample.u8 "y"]
        fieldValidators := [("x", []), ("y", [])] }
    UniqueNames d ∧
    structFromStream Sample.noClasses 4 d ⟨[7, 8, 9, 5], 0⟩ .none [] =
      (.ok [("x", .bytes [7, 8, 9]), ("y", .int 5)], ⟨[7, 8, 9, 5], 4⟩) ∧
    structFromStream Sample.noClasses 4 d ⟨[7, 8, 9, 5], 0⟩ .none [("x", .bytes [0])] =
      (.ok [("x", .bytes [0]), ("y", .int 8)], ⟨[7, 8, 9, 5], 2⟩) := by
  refine ⟨by unfold UniqueNames; decide, by decide, by decide⟩

/-- … and a zero-terminated string cannot be loaded at all if the value that overrides it is shorter. -/
theorem C62_stringz_refuted :
    let d : StructDesc :=
      { name := "Named", components := [Sample.strz "x", Sample.u8 "y"], fieldValidators := [("x", []), ("y", [])] }
    UniqueNames d ∧
    structFromStream Sample.noClasses 4 d ⟨[0x61, 0x62, 0x63, 0, 1], 0⟩ .none [] =
      (.ok [("x", .str [0x61, 0x62, 0x63]), ("y", .int 1)], ⟨[0x61, 0x62, 0x63, 0, 1], 5⟩) ∧
    structFromStream Sample.noClasses 4 d ⟨[0x61, 0x62, 0x63, 0, 1], 0⟩ .none [("x", .str [0x61])] =
      (.error (.deser (some "x")), ⟨[0x61, 0x62, 0x63, 0, 1], 2⟩) := by
  refine ⟨by unfold UniqueNames; decide, by decide, by decide⟩

/-! ### The hypotheses can be met -/

/-- ```
class Gauge(Struct):
    samples = Array(Int16(endian="little"), count=2)
    status = UInt8(null_value=b"\xff")
    level = Int16(endian="little")
    label = StringZ(encoding="utf-8")
``` -/
def Sample.gaugeDecl : ClassDecl :=
  { name := "Gauge"
    body := [("samples", .field (.array { typeName := "Array", size := .fixed 4 } (Sample.i16 "") (.fixed 2) none)),
      ("status", .field (Sample.upd (Sample.u8 "status") ({ · with nullValue := .bytes [0xFF] }))),
      ("level", .field (Sample.i16 "level")), ("label", .field (Sample.strz "label"))] }

/-- The class itself. -/
def Sample.gauge : StructDesc :=
  { name := "Gauge"
    components := [.array { name := "samples", typeName := "Array", size := .fixed 4, offset := some 0 } (Sample.i16 "") (.fixed 2) none,
      Sample.upd (Sample.u8 "status") ({ · with nullValue := .bytes [0xFF], index := 1, offset := some 4 }),
      Sample.upd (Sample.i16 "level") ({ · with index := 2, offset := some 5 }),
      Sample.upd (Sample.strz "label") ({ · with index := 3, offset := some 7 })]
    fieldValidators := [("samples", []), ("status", []), ("level", []), ("label", [])]
    numOwnFields := 4 }

theorem Sample.gauge_class : fromClass Sample.noClasses 3 Sample.gaugeDecl = .ok Sample.gauge := rfl

theorem Sample.gauge_offsets : Offsets Sample.gauge := C25_offsets_root _ _ _ _ rfl Sample.gauge_class

-- `get_field` finds `level`, whatever the stream holds, also when `status` is `None`
example (s s' : Stream) (vals : Dict) (v : Value) (hs : s.pos ≤ s.data.length)
    (h : structFromStream Sample.noClasses 5 Sample.gauge s .none [] = (.ok vals, s')) (hv : Dict.get? vals "level" = some v) :
    (structGetField Sample.noClasses 4 Sample.gauge s "level" .none).1 = .ok v := by
  refine C24_get_field_static_partial Sample.noClasses 4 Sample.gauge s s' .none v
    (Sample.gauge.components.take 2) (Sample.gauge.components.drop 3)
    (Sample.upd (Sample.i16 "level") ({ · with index := 2, offset := some 5 })) vals
    (by unfold UniqueNames; decide) rfl Sample.gauge_offsets hs (fun _ => ⟨?_, ?_⟩) (fun h => by cases h) h hv
  · intro g hg
    simp only [Sample.gauge, List.take, List.mem_cons, List.not_mem_nil, or_false] at hg
    rcases hg with rfl | rfl
    · exact ⟨2 * 2, .array (.leaf trivial rfl (fun _ h => by cases h) (fun _ _ _ => rfl) (.inl rfl)) rfl (fun _ _ _ => rfl) (.inl rfl)⟩
    · exact ⟨1, .leaf trivial rfl (fun _ h => by cases h) (fun _ _ _ => rfl) (.inr ⟨1, rfl, .inr (.inr (.inl ⟨[0xFF], rfl, rfl⟩))⟩)⟩
  · exact .leaf ⟨fun h => (by cases h), fun r h => (by cases h), fun _ _ _ _ _ => rfl⟩ (fun ops h => by cases h)

-- … and such loads exist
example : structFromStream Sample.noClasses 5 Sample.gauge ⟨[9, 1, 0, 2, 0, 0xFF, 7, 0, 0x61, 0], 1⟩ .none [] =
    (.ok [("samples", .list [.int 1, .int 2]), ("status", .none), ("level", .int 7), ("label", .str [0x61])],
      ⟨[9, 1, 0, 2, 0, 0xFF, 7, 0, 0x61, 0], 10⟩) := by decide +kernel

-- overriding `level` and `status` leaves the rest alone
example (s s1 s2 : Stream) (v1 v2 : Dict) (h1 : structFromStream Sample.noClasses 5 Sample.gauge s .none [] = (.ok v1, s1))
    (h2 : structFromStream Sample.noClasses 5 Sample.gauge s .none [("level", .int 3), ("status", .none)] = (.ok v2, s2)) :
    s1 = s2 ∧ Dict.get? v2 "label" = Dict.get? v1 "label" := by
  have h := C62_only_overridden Sample.noClasses 4 Sample.gauge s s1 s2 .none [("level", .int 3), ("status", .none)] v1 v2
    (by unfold UniqueNames; decide) ?_ h1 h2
  · exact ⟨h.1, h.2 (Sample.upd (Sample.strz "label") ({ · with index := 3, offset := some 7 })) (by simp [Sample.gauge]) rfl⟩
  · intro f hf
    simp only [Sample.gauge, List.mem_cons, List.not_mem_nil, or_false] at hf
    rcases hf with rfl | rfl | rfl | rfl
    · exact .array ⟨fun h => (by cases h), fun r h => (by cases h), fun _ _ _ _ _ => rfl⟩
        (.leaf ⟨fun h => (by cases h), fun r h => (by cases h), fun _ _ _ _ _ => rfl⟩ (fun ops h => by cases h))
        (fun r h => by cases h) (fun h hh => by cases hh) (.inl (.inl rfl))
    · exact .leaf ⟨fun h => (by cases h), fun r h => (by cases h), fun _ _ _ _ _ => rfl⟩ (fun ops h => by cases h)
    · exact .leaf ⟨fun h => (by cases h), fun r h => (by cases h), fun _ _ _ _ _ => rfl⟩ (fun ops h => by cases h)
    · exact .leaf ⟨fun _ => (by decide), fun r h => (by cases h), fun _ _ _ _ _ => rfl⟩ (fun ops h => by cases h)

end Verif
