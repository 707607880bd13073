import Verif.Spec.PartialLoad
import Verif.Proofs.Offset
import Verif.Props.StructLoad

/-!
# `partial_load` and `get_field` in classes with discarded fields

C61, C24: `partial_load` forgets a discarded field right after reading it, a full load only at its end.  The two agree if no other field
looks at the discarded ones, as is the case for magic numbers and padding.
-/

namespace Verif
open Spec

theorem dropDiscarded_append {d : StructDesc} (hd : UniqueNames d) (acc : Dict) {f : Field} (hf : f ∈ d.components) (v : Value) :
    dropDiscarded d (acc ++ [(f.name, v)]) = dropDiscarded d acc ++ (if f.base.discard then [] else [(f.name, v)]) := by
  have key : ∀ (gs : List Field) (a : Dict), gs.foldl (fun vals g => Dict.erase vals g.name) (a ++ [(f.name, v)]) =
      gs.foldl (fun vals g => Dict.erase vals g.name) a ++ (if f.name ∈ gs.map Field.name then [] else [(f.name, v)]) := by
    intro gs
    induction gs with
    | nil => intro a; simp
    | cons g gs ih =>
      intro a
      by_cases hg : f.name = g.name
      · have : Dict.erase (a ++ [(f.name, v)]) g.name = Dict.erase a g.name := by
          simp [Dict.erase, hg]
        rw [if_pos (by simp [hg]), List.append_nil]
        simp only [List.foldl_cons, this]
      · have : Dict.erase (a ++ [(f.name, v)]) g.name = Dict.erase a g.name ++ [(f.name, v)] := by
          simp [Dict.erase, hg]
        simp only [List.foldl_cons, this, ih, List.map_cons, List.mem_cons, hg, false_or]
  unfold dropDiscarded
  rw [key]
  have hiff : f.name ∈ (d.components.filter (·.base.discard)).map Field.name ↔ f.base.discard = true := by
    constructor
    · intro h
      obtain ⟨g, hg, hn⟩ := List.mem_map.1 h
      obtain ⟨hg, hdis⟩ := List.mem_filter.1 hg
      have h1 := find?_of_mem hd hg
      rw [hn, find?_of_mem hd hf] at h1
      cases h1; exact hdis
    · intro h
      exact List.mem_map.2 ⟨f, List.mem_filter.2 ⟨hf, h⟩, rfl⟩
  simp only [hiff]

/-- Before the field itself is loaded, forgetting the discarded fields changes nothing it looks at. -/
theorem Spec.DiscardsUnread.same {d : StructDesc} (h : DiscardsUnread d) (Γ : Classes) (n : Nat) (ctx : Value) {f : Field}
    (hf : f ∈ d.components) {acc : Dict} (hk : ∀ k ∈ Dict.keys acc, k ∈ names d) (hnot : Dict.get? acc f.name = none) (s : Stream)
    (hd : UniqueNames d) : fieldFromStream Γ n f s ctx (dropDiscarded d acc) = fieldFromStream Γ n f s ctx acc := by
  refine ((h f hf).load Γ ?_ n s ctx).1
  intro k hnk
  by_cases hm : k ∈ names d
  · obtain ⟨g, hg, rfl⟩ := List.mem_map.1 hm
    rw [dropDiscarded_get hd acc hg]
    cases hdis : g.base.discard with
    | false => simp
    | true =>
      have : g.name = f.name := by
        apply Classical.byContradiction
        intro hne
        exact hnk ⟨hne, g, hg, hdis, rfl⟩
      simp [this, hnot]
  · have h1 : k ∉ Dict.keys acc := fun hx => hm (hk k hx)
    have h2 : k ∉ Dict.keys (dropDiscarded d acc) := fun hx => h1 (dropDiscarded_keys hx)
    rw [(Dict.get?_none_iff acc k).2 h1, (Dict.get?_none_iff _ k).2 h2]

theorem dropDiscarded_step {d : StructDesc} (hd : UniqueNames d) (acc : Dict) {f : Field} (hf : f ∈ d.components) (v : Value)
    (hnot : Dict.get? acc f.name = none) :
    (if f.base.discard = true then dropDiscarded d acc else Dict.set (dropDiscarded d acc) f.name v) =
      dropDiscarded d (acc ++ [(f.name, v)]) := by
  rw [dropDiscarded_append hd acc hf]
  have h0 : Dict.get? (dropDiscarded d acc) f.name = none := by
    rw [dropDiscarded_get hd acc hf]; split <;> simp [hnot]
  rw [set_of_not_mem h0]
  cases f.base.discard <;> simp

/-- The loop of `partial_load` over fields that can all be loaded, none of which is the last one wanted. -/
theorem partialLoadLoop_through {Γ : Classes} {n : Nat} {ctx : Value} {d : StructDesc} (hd : UniqueNames d) (hu : DiscardsUnread d)
    {last : Option String} {pre post : List Field} {acc m : Dict} {s t : Stream} (hk : ∀ k ∈ Dict.keys acc, k ∈ names d)
    (hn : (Dict.keys acc ++ pre.map Field.name).Nodup) (hpre : ∀ g ∈ pre, g ∈ d.components ∧ some g.name ≠ last)
    (h : Loads Γ n ctx pre acc s m t) :
    partialLoadLoop (fun f s loaded => fieldFromStream Γ n f s ctx loaded) last (pre ++ post) (dropDiscarded d acc) s =
      partialLoadLoop (fun f s loaded => fieldFromStream Γ n f s ctx loaded) last post (dropDiscarded d m) t := by
  induction pre generalizing acc s with
  | nil => cases h; rfl
  | cons g pre ih =>
    cases h with
    | @cons _ _ _ _ v _ t1 _ h1 h2 =>
      obtain ⟨hg, hne⟩ := hpre g (by simp)
      have hnot : Dict.get? acc g.name = none := by
        rw [Dict.get?_none_iff]; intro hm
        rw [List.nodup_append] at hn
        exact hn.2.2 _ hm g.name (by simp) rfl
      have hkk : Dict.keys (acc ++ [(g.name, v)]) = Dict.keys acc ++ [g.name] := by simp [Dict.keys]
      simp only [List.cons_append, partialLoadLoop, hu.same Γ n ctx hg hk hnot s hd, h1, if_neg hne]
      rw [dropDiscarded_step hd acc hg v hnot]
      rw [if_pos hnot] at h2
      refine ih ?_ ?_ (fun x hx => hpre x (by simp [hx])) h2
      · intro k hx
        rw [hkk] at hx
        simp only [List.mem_append, List.mem_cons, List.not_mem_nil, or_false] at hx
        rcases hx with hx | rfl
        · exact hk k hx
        · exact List.mem_map.2 ⟨g, hg, rfl⟩
      · rw [hkk]; simpa using hn

theorem loaded_keys_sub {Γ : Classes} {n : Nat} {ctx : Value} {d : StructDesc} {fs : List Field} {m : Dict} {s t : Stream}
    (hfs : ∀ g ∈ fs, g ∈ d.components) (h : Loads Γ n ctx fs [] s m t) : ∀ k ∈ Dict.keys m, k ∈ names d := by
  intro k hk
  rcases (h.keys k).1 hk with hx | hx
  · simp [Dict.keys] at hx
  · obtain ⟨g, hg, rfl⟩ := List.mem_map.1 hx
    exact List.mem_map.2 ⟨g, hfs g hg, rfl⟩

theorem dropDiscarded_nil (d : StructDesc) : dropDiscarded d [] = [] := by
  unfold dropDiscarded
  induction d.components.filter (·.base.discard) with
  | nil => rfl
  | cons f fs ih => simpa [Dict.erase] using ih

/-- **C61** (`last_field`, with discarded fields that no other field looks at) `partial_load` up to a field returns the values that a full load of
the same stream determines for the fields up to it, without the discarded ones, and leaves the stream right after it. -/
theorem C61_last_discarded (Γ : Classes) (n : Nat) (d : StructDesc) (s s' : Stream) (ctx : Value)
    (pre post : List Field) (f : Field) (results : Dict) (hd : UniqueNames d) (hu : DiscardsUnread d)
    (hf : d.components = pre ++ f :: post) (h : Loads Γ n ctx d.components [] s results s') :
    ∃ m t, Loads Γ n ctx (pre ++ [f]) [] s m t ∧ Loads Γ n ctx post m t results s' ∧
      m = results.take (pre.length + 1) ∧ structPartialLoad Γ n d s (some f.name) ctx = (.ok (dropDiscarded d m), t) := by
  have hnd := hd
  unfold UniqueNames names at hnd
  rw [hf] at hnd
  have h0 := h
  rw [hf] at h0
  obtain ⟨a, s1, h1, h2⟩ := Loads.append.1 h0
  have hfm : f ∈ d.components := by rw [hf]; simp
  have hpre : ∀ g ∈ pre, g ∈ d.components := fun g hg => by rw [hf]; simp [hg]
  have hnd1 : (pre.map Field.name).Nodup := by
    rw [List.map_append, List.nodup_append] at hnd; exact hnd.1
  have hne : ∀ g ∈ pre, g.name ≠ f.name := by
    intro g hg
    rw [List.map_append, List.nodup_append] at hnd
    exact hnd.2.2 _ (List.mem_map.2 ⟨g, hg, rfl⟩) f.name (by simp)
  have hlen : a.length = pre.length := by
    have := congrArg List.length (h1.keys_eq (by simpa [Dict.keys] using hnd1))
    simpa [Dict.keys] using this
  cases h2 with
  | @cons _ _ _ _ v _ t1 _ h3 h4 =>
    have hnot : Dict.get? a f.name = none := by
      rw [Dict.get?_none_iff, h1.keys]
      rintro (hx | hx)
      · simp [Dict.keys] at hx
      · obtain ⟨g, hg, hgn⟩ := List.mem_map.1 hx
        exact hne g hg hgn
    rw [if_pos hnot] at h4
    have h5 : Loads Γ n ctx (pre ++ [f]) [] s (a ++ [(f.name, v)]) t1 :=
      Loads.append.2 ⟨a, s1, h1, .cons h3 (by rw [if_pos hnot]; exact .nil _ _)⟩
    refine ⟨_, t1, h5, h4, ?_, ?_⟩
    · obtain ⟨x, hx⟩ := h4.prefix
      rw [← hx, show pre.length + 1 = (a ++ [(f.name, v)]).length by simp [hlen], List.take_left]
    · unfold structPartialLoad
      have hh : d.has f.name = true := has_iff.2 (List.mem_map.2 ⟨f, hfm, rfl⟩)
      simp only [Option.any, hh, Bool.not_true, Bool.false_eq_true, if_false]
      have hloop := partialLoadLoop_through (post := f :: post) (last := some f.name) hd hu (acc := []) (by simp [Dict.keys])
        (by simpa [Dict.keys] using hnd1) (fun g hg => ⟨hpre g hg, by simpa using hne g hg⟩) h1
      rw [dropDiscarded_nil] at hloop
      rw [hf, hloop]
      simp only [partialLoadLoop, hu.same Γ n ctx hfm (loaded_keys_sub hpre h1) hnot s1 hd, h3, if_true,
        dropDiscarded_step hd a hfm v hnot]
      rw [structInit_ok_iff.2 ⟨rfl, ?_⟩]
      intro k hk
      exact loaded_keys_sub (d := d) (by
        intro g hg
        rcases List.mem_append.1 hg with hg | hg
        · exact hpre g hg
        · rw [List.mem_singleton.1 hg]; exact hfm) h5 k (dropDiscarded_keys hk)

/-- **C61** (truncated stream, with discarded fields that no other field looks at) Without `last_field`, if the stream ends inside a field,
`partial_load` returns the fields before it, without the discarded ones, and puts the stream back to the start of that field. -/
theorem C61_truncated_discarded (Γ : Classes) (n : Nat) (d : StructDesc) (s t t' : Stream) (ctx : Value)
    (pre post : List Field) (f : Field) (m : Dict) (e : Err) (hd : UniqueNames d) (hu : DiscardsUnread d)
    (hf : d.components = pre ++ f :: post) (h : Loads Γ n ctx pre [] s m t)
    (he : fieldFromStream Γ n f t ctx m = (.error e, t')) (heof : e.isEOF = true) :
    structPartialLoad Γ n d s none ctx = (.ok (dropDiscarded d m), t'.seek t.pos) := by
  have hnd := hd
  unfold UniqueNames names at hnd
  rw [hf, List.map_append, List.nodup_append] at hnd
  have hfm : f ∈ d.components := by rw [hf]; simp
  have hpre : ∀ g ∈ pre, g ∈ d.components := fun g hg => by rw [hf]; simp [hg]
  have hnot : Dict.get? m f.name = none := by
    rw [Dict.get?_none_iff, h.keys]
    rintro (hx | hx)
    · simp [Dict.keys] at hx
    · exact hnd.2.2 _ hx f.name (by simp) rfl
  have hloop := partialLoadLoop_through (post := f :: post) (last := none) hd hu (acc := []) (by simp [Dict.keys])
    (by simpa [Dict.keys] using hnd.1) (fun g hg => ⟨hpre g hg, by simp⟩) h
  rw [dropDiscarded_nil] at hloop
  unfold structPartialLoad
  simp only [Option.any, Bool.false_eq_true, if_false]
  rw [hf, hloop]
  simp only [partialLoadLoop, hu.same Γ n ctx hfm (loaded_keys_sub hpre h) hnot t hd, he, heof, and_self, if_true, Stream.tell]
  rw [structInit_ok_iff.2 ⟨rfl, ?_⟩]
  intro k hk
  exact loaded_keys_sub hpre h k (dropDiscarded_keys hk)

/-- **C61** (complete stream, with discarded fields that no other field looks at) Without `last_field`, on a stream from which a full load succeeds,
`partial_load` returns the same struct and leaves the stream in the same place. -/
theorem C61_complete_discarded (Γ : Classes) (n : Nat) (d : StructDesc) (s s' : Stream) (ctx : Value) (vals : Dict)
    (hd : UniqueNames d) (hu : DiscardsUnread d) (h : structFromStream Γ (n + 1) d s ctx [] = (.ok vals, s')) :
    structPartialLoad Γ n d s none ctx = (.ok vals, s') := by
  obtain ⟨results, hl, -, -, rfl⟩ := structFromStream_ok_iff.1 h
  have hloop := partialLoadLoop_through (post := []) (last := none) hd hu (acc := []) (by simp [Dict.keys])
    (by unfold UniqueNames names at hd; simpa [Dict.keys] using hd) (fun g hg => ⟨hg, by simp⟩) hl
  rw [dropDiscarded_nil, List.append_nil] at hloop
  unfold structPartialLoad
  simp only [Option.any, Bool.false_eq_true, if_false]
  rw [hloop]
  simp only [partialLoadLoop]
  rw [structInit_ok_iff.2 ⟨rfl, ?_⟩]
  intro k hk
  exact loaded_keys_sub (fun _ hg => hg) hl k (dropDiscarded_keys hk)

/-- **C24** (the field has no static offset, and no field looks at the discarded ones) `get_field` returns the value a full load determines. -/
theorem C24_get_field_discarded (Γ : Classes) (n : Nat) (d : StructDesc) (s s' : Stream) (ctx v : Value)
    (f : Field) (vals : Dict) (hd : UniqueNames d) (hu : DiscardsUnread d) (hfm : f ∈ d.components) (hoff : f.base.offset = none)
    (h : structFromStream Γ (n + 1) d s ctx [] = (.ok vals, s')) (hv : Dict.get? vals f.name = some v) :
    (structGetField Γ n d s f.name ctx).1 = .ok v := by
  obtain ⟨results, hl, -, -, rfl⟩ := structFromStream_ok_iff.1 h
  obtain ⟨pre, post, hf⟩ := List.append_of_mem hfm
  obtain ⟨m, t, h1, h2, -, h4⟩ := C61_last_discarded Γ n d s s' ctx pre post f results hd hu hf hl
  rw [dropDiscarded_get hd results hfm] at hv
  cases hdis : f.base.discard with
  | true => simp [hdis] at hv
  | false =>
    rw [hdis] at hv
    simp only [Bool.false_eq_true, if_false] at hv
    have hmk : f.name ∈ Dict.keys m := (h1.keys _).2 (Or.inr (by simp))
    cases hm : Dict.get? m f.name with
    | none => exact absurd hmk ((Dict.get?_none_iff m f.name).1 hm)
    | some w =>
      have hw := h2.mono_get hm
      rw [hv] at hw; simp at hw; subst hw
      unfold structGetField
      rw [find?_of_mem hd hfm]
      simp only [hoff]
      rw [h4]
      simp only
      refine structGetItem_some (List.mem_map.2 ⟨f, hfm, rfl⟩) ?_
      rw [dropDiscarded_get hd m hfm, hdis]
      simpa using hm

/-! ### Examples -/

/-- ```
class Framed(Struct):
    magic = Bytes(const=b"\x7F\x45", discard=True)
    n = UInt8()
    payload = Bytes(size=n)
    pad = UInt8(discard=True)
    crc = UInt8()
``` -/
def Sample.framed : StructDesc :=
  { name := "Framed"
    components := [.leaf { name := "magic", size := .fixed 2, const := .bytes [0x7F, 0x45], dflt := .bytes [0x7F, 0x45], discard := true } .bytes,
      Sample.upd (Sample.u8 "n") ({ · with index := 1, offset := some 2 }),
      Sample.upd (Sample.bytesRef "payload" "n") ({ · with index := 2, offset := some 3 }),
      Sample.upd (Sample.u8 "pad") ({ · with index := 3, discard := true }),
      Sample.upd (Sample.u8 "crc") ({ · with index := 4 })]
    fieldValidators := [("magic", []), ("n", []), ("payload", []), ("pad", []), ("crc", [])] }

set_option linter.unusedSimpArgs false in
theorem Sample.framed_unread : DiscardsUnread Sample.framed := by
  intro f hf
  simp only [Sample.framed, List.mem_cons, List.not_mem_nil, or_false] at hf
  rcases hf with rfl | rfl | rfl | rfl | rfl <;>
    exact .leaf ⟨by simp [Sample.upd, Sample.u8, Sample.bytesRef, Field.withBase, Field.base], by
      intro r hr
      simp [Sample.upd, Sample.u8, Sample.bytesRef, Field.withBase, Field.base] at hr
      try
        subst hr
        rintro ⟨-, g, hg, h1, h2⟩
        simp only [Sample.framed, List.mem_cons, List.not_mem_nil, or_false] at hg
        rcases hg with rfl | rfl | rfl | rfl | rfl <;>
          simp_all [Sample.upd, Sample.u8, Sample.bytesRef, Field.withBase, Field.base, Field.name], fun _ _ _ _ _ => rfl⟩
      (by intro ops h; cases h)

-- the whole stream, and one that ends before the last field
example : structPartialLoad Sample.noClasses 3 Sample.framed ⟨[0x7F, 0x45, 2, 7, 8, 0, 9], 0⟩ none .none =
    (.ok [("n", .int 2), ("payload", .bytes [7, 8]), ("crc", .int 9)], ⟨[0x7F, 0x45, 2, 7, 8, 0, 9], 7⟩) :=
  C61_complete_discarded Sample.noClasses 3 Sample.framed _ _ .none _ (by unfold UniqueNames; decide) Sample.framed_unread (by decide)
example : structPartialLoad Sample.noClasses 3 Sample.framed ⟨[0x7F, 0x45, 2, 7, 8, 0], 0⟩ none .none =
    (.ok [("n", .int 2), ("payload", .bytes [7, 8])], ⟨[0x7F, 0x45, 2, 7, 8, 0], 6⟩) := by decide
example : (structGetField Sample.noClasses 3 Sample.framed ⟨[0x7F, 0x45, 2, 7, 8, 0, 9], 0⟩ "crc" .none).1 = .ok (.int 9) :=
  C24_get_field_discarded Sample.noClasses 3 Sample.framed _ ⟨[0x7F, 0x45, 2, 7, 8, 0, 9], 7⟩ .none _
    (Sample.upd (Sample.u8 "crc") ({ · with index := 4 })) [("n", .int 2), ("payload", .bytes [7, 8]), ("crc", .int 9)]
    (by unfold UniqueNames; decide) Sample.framed_unread (by simp [Sample.framed]) rfl (by decide) (by decide)

end Verif
