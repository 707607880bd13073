import Verif.Proofs.StructLoad
import Verif.Props.Field

/-!
# Loading structs

C20 (struct load), C22, C23 (`get_field`), C24, C37 (load), C61, C62.
-/

namespace Verif
open Spec

/-! ## C20, C37, C62: what `Struct.from_stream` returns -/

/-- **C20** (struct load) If `Struct.from_stream` succeeds, all validator methods and struct validators accepted the values (before discarding),
and every value that was read from the stream for a present field was accepted by all the validators of its field. -/
theorem C20_struct_load_validates (Γ : Classes) (n : Nat) (d : StructDesc) (s s' : Stream) (ctx : Value) (kw vals : Dict)
    (hd : UniqueNames d) (h : structFromStream Γ (n + 2) d s ctx kw = (.ok vals, s')) :
    ∃ results, Valid d results ∧
      (∀ f ∈ d.components, f.base.discard = false → Dict.get? vals f.name = Dict.get? results f.name) ∧
      ∀ f ∈ d.components, Dict.get? kw f.name = none → ∃ seen t t' v, Dict.get? results f.name = some v ∧
        fieldFromStream Γ (n + 1) f t ctx seen = (.ok v, t') ∧
        (f.base.present seen.view ctx (some t) = .ok true → Accepts f v) := by
  obtain ⟨results, hl, -, hv, rfl⟩ := structFromStream_ok_iff.1 h
  refine ⟨results, hv, fun f hf hdis => by rw [dropDiscarded_get hd results hf, hdis]; simp, ?_⟩
  intro f hf hkw
  obtain ⟨pre, post, hsplit⟩ := List.append_of_mem hf
  have hnd := hd
  unfold UniqueNames names at hnd
  rw [hsplit] at hl hnd
  obtain ⟨m, t, h1, h2⟩ := Loads.append.1 hl
  cases h2 with
  | @cons _ _ _ _ v _ t1 _ h3 h4 =>
    refine ⟨m, t, t1, v, ?_, h3, fun hp => C20_load_validates Γ n f t t1 ctx m v hp h3⟩
    have hm : Dict.get? m f.name = none := by
      rw [Dict.get?_none_iff, h1.keys]
      rintro (hx | hx)
      · exact (Dict.get?_none_iff kw f.name).1 hkw hx
      · rw [List.map_append, List.nodup_append] at hnd
        exact hnd.2.2 _ hx f.name (by simp) rfl
    rw [if_pos hm] at h4
    apply h4.mono_get
    rw [← set_of_not_mem hm, Dict.get?_set, if_pos rfl]

/-- **C37** (load) Loading reads every field, discarded or not, one after the other — the bytes of discarded fields are consumed and their
values seen by later fields and by all checks — and the resulting struct has a value for exactly the fields that are not
discarded. -/
theorem C37_discard_load (Γ : Classes) (n : Nat) (d : StructDesc) (s s' : Stream) (ctx : Value) (vals : Dict)
    (hd : UniqueNames d) (h : structFromStream Γ (n + 1) d s ctx [] = (.ok vals, s')) :
    ∃ results, Loads Γ n ctx d.components [] s results s' ∧ Dict.keys results = names d ∧ Valid d results ∧
      (∀ f ∈ d.components, f.base.discard = false → Dict.get? vals f.name = Dict.get? results f.name) ∧
      ∀ k, k ∈ Dict.keys vals ↔ ∃ f ∈ d.components, f.name = k ∧ f.base.discard = false := by
  obtain ⟨results, hl, hk, hv, rfl⟩ := structFromStream_ok_iff.1 h
  refine ⟨results, hl, ?_, hv, fun f hf hdis => by rw [dropDiscarded_get hd results hf, hdis]; simp, ?_⟩
  · unfold UniqueNames names at hd
    simpa [Dict.keys, names] using hl.keys_eq (by simpa [Dict.keys] using hd)
  · intro k
    constructor
    · intro hk'
      obtain ⟨f, hf, rfl⟩ := List.mem_map.1 (hk k (dropDiscarded_keys hk'))
      refine ⟨f, hf, rfl, ?_⟩
      rw [← Dict.contains_iff, Dict.contains_eq, dropDiscarded_get hd results hf] at hk'
      cases hdis : f.base.discard with
      | false => rfl
      | true => simp [hdis] at hk'
    · rintro ⟨f, hf, rfl, hdis⟩
      rw [← Dict.contains_iff, Dict.contains_eq, dropDiscarded_get hd results hf, hdis]
      have : f.name ∈ Dict.keys results := (hl.keys _).2 (Or.inr (List.mem_map.2 ⟨f, hf, rfl⟩))
      rw [← Dict.contains_iff, Dict.contains_eq] at this
      simpa using this

/-- **C62** Values given in `init_kwargs` take precedence over loaded ones, and the overridden fields are still read, in order. -/
theorem C62_init_kwargs (Γ : Classes) (n : Nat) (d : StructDesc) (s s' : Stream) (ctx : Value) (kw vals : Dict)
    (hd : UniqueNames d) (h : structFromStream Γ (n + 1) d s ctx kw = (.ok vals, s')) :
    (∃ results, Loads Γ n ctx d.components kw s results s') ∧
    ∀ f ∈ d.components, f.base.discard = false → ∀ v, Dict.get? kw f.name = some v → Dict.get? vals f.name = some v := by
  obtain ⟨results, hl, -, -, rfl⟩ := structFromStream_ok_iff.1 h
  refine ⟨⟨results, hl⟩, ?_⟩
  intro f hf hdis v hv
  rw [dropDiscarded_get hd results hf, hdis]
  simpa using hl.mono_get hv

/-- **C62** If no field looks at the values loaded before it, the overrides do not change how many bytes are consumed. -/
theorem C62_layout_unchanged (Γ : Classes) (n : Nat) (d : StructDesc) (s s1 s2 : Stream) (ctx : Value) (kw v1 v2 : Dict)
    (hind : ∀ f ∈ d.components, ∀ t seen, fieldFromStream Γ n f t ctx seen = fieldFromStream Γ n f t ctx [])
    (h1 : structFromStream Γ (n + 1) d s ctx [] = (.ok v1, s1))
    (h2 : structFromStream Γ (n + 1) d s ctx kw = (.ok v2, s2)) : s1 = s2 := by
  obtain ⟨r1, hl1, -, -, -⟩ := structFromStream_ok_iff.1 h1
  obtain ⟨r2, hl2, -, -, -⟩ := structFromStream_ok_iff.1 h2
  clear h1 h2
  generalize ([] : Dict) = a1 at hl1
  generalize d.components = fs at *
  induction hl1 generalizing kw with
  | nil => cases hl2; rfl
  | @cons f fs acc r w t t1 t2 h3 h4 ih =>
    cases hl2 with
    | @cons _ _ _ _ w' _ t1' _ h5 h6 =>
      rw [hind f (by simp) t acc] at h3
      rw [hind f (by simp) t kw] at h5
      rw [h3] at h5
      simp at h5
      obtain ⟨-, rfl⟩ := h5
      exact ih _ (fun g hg => hind g (by simp [hg])) h6

example : structFromStream Sample.classes 4 Sample.point ⟨[1, 0, 2, 0, 9], 0⟩ .none [("y", .int 77)] =
    (.ok [("y", .int 77), ("x", .int 1)], ⟨[1, 0, 2, 0, 9], 4⟩) := by decide
example : structFromStream Sample.classes 4
    { Sample.point with components := [Sample.upd (Sample.i16 "x") ({ · with discard := true }), Sample.i16 "y"] }
    ⟨[1, 0, 2, 0, 9], 0⟩ .none [] = (.ok [("y", .int 2)], ⟨[1, 0, 2, 0, 9], 4⟩) := by decide

/-! ## C22: `Struct.from_bytes` -/

/-- **C22** (refuted) `Struct.from_bytes(data, exact=True)` accepts one byte of trailing data. -/
theorem C22_struct_from_bytes_exact_refuted :
    ¬ ∀ (Γ : Classes) (n : Nat) (d : StructDesc) (data : Bytes) (ctx : Value) (kw vals : Dict) (s' : Stream),
      structFromStream Γ n d ⟨data, 0⟩ ctx kw = (.ok vals, s') → s'.pos < data.length →
      structFromBytes Γ n d data ctx true kw = .error .extraneous := by
  intro h
  have h1 := h Sample.classes 4 Sample.point [1, 0, 2, 0, 9] .none [] [("x", .int 1), ("y", .int 2)]
    ⟨[1, 0, 2, 0, 9], 4⟩ (by decide) (by decide)
  have h2 : structFromBytes Sample.classes 4 Sample.point [1, 0, 2, 0, 9] .none true [] =
      .ok [("x", .int 1), ("y", .int 2)] := by decide
  rw [h1] at h2; simp at h2

/-- **C22** (partial) What `exact=True` really does: after a successful load it raises `ExtraneousDataError` if two or more bytes are
left, and returns the struct if at most one is. -/
theorem C22_struct_from_bytes_exact_partial (Γ : Classes) (n : Nat) (d : StructDesc) (data : Bytes) (ctx : Value)
    (kw vals : Dict) (s' : Stream) (h : structFromStream Γ n d ⟨data, 0⟩ ctx kw = (.ok vals, s')) :
    (s'.pos + 2 ≤ data.length → structFromBytes Γ n d data ctx true kw = .error .extraneous) ∧
    (data.length ≤ s'.pos + 1 → structFromBytes Γ n d data ctx true kw = .ok vals) ∧
    structFromBytes Γ n d data ctx false kw = .ok vals := by
  unfold structFromBytes
  rw [h]
  simp only [true_and, Stream.tell]
  refine ⟨fun hlt => by rw [if_pos (by omega)], fun hle => by rw [if_neg (by omega)], by simp⟩

example : structFromBytes Sample.classes 4 Sample.point [1, 0, 2, 0, 9, 9] .none true [] = .error .extraneous := by decide

/-! ## C23: `get_field` does not move the stream -/

/-- **C23** `Struct.get_field` leaves the stream position where it was, whether it returns or raises, for every class, field name,
context and stream. -/
theorem C23_get_field_position (Γ : Classes) (n : Nat) (d : StructDesc) (s : Stream) (name : String) (ctx : Value) :
    (structGetField Γ n d s name ctx).2.pos = s.pos := by
  unfold structGetField
  split
  · rfl
  · simp only
    split
    · split <;> rfl
    · split <;> rfl

example : structGetField Sample.classes 4 Sample.point ⟨[9, 1, 0, 2, 0], 1⟩ "y" .none = (.ok (.int 2), ⟨[9, 1, 0, 2, 0], 1⟩) := by
  decide

/-! ## C61: `partial_load` -/

theorem partialLoadLoop_last {Γ : Classes} {n : Nat} {ctx : Value} {pre post : List Field} {f : Field} {acc m : Dict}
    {s t : Stream} (hn : (Dict.keys acc ++ (pre ++ f :: post).map Field.name).Nodup)
    (hdis : ∀ g ∈ pre ++ [f], g.base.discard = false) (h : Loads Γ n ctx (pre ++ [f]) acc s m t) :
    partialLoadLoop (fun f s loaded => fieldFromStream Γ n f s ctx loaded) (some f.name) (pre ++ f :: post) acc s =
      (.ok m, t) := by
  induction pre generalizing acc s with
  | nil =>
    cases h with
    | @cons _ _ _ _ v _ t1 _ h1 h2 =>
      cases h2
      have hnot : Dict.get? acc f.name = none := by
        rw [Dict.get?_none_iff]; intro hm
        rw [List.nodup_append] at hn
        exact hn.2.2 _ hm f.name (by simp) rfl
      simp only [List.nil_append, partialLoadLoop, h1, hdis f (by simp), if_true, Bool.false_eq_true, if_false]
      rw [set_of_not_mem hnot, if_pos hnot]
  | cons g pre ih =>
    cases h with
    | @cons _ _ _ _ v _ t1 _ h1 h2 =>
      have hnot : Dict.get? acc g.name = none := by
        rw [Dict.get?_none_iff]; intro hm
        rw [List.nodup_append] at hn
        exact hn.2.2 _ hm g.name (by simp) rfl
      have hne : g.name ≠ f.name := by
        rw [List.nodup_append] at hn
        have := hn.2.1
        simp only [List.cons_append, List.map_cons, List.nodup_cons] at this
        intro hx; apply this.1; rw [hx]; simp
      simp only [List.cons_append, partialLoadLoop, h1, hdis g (by simp), Bool.false_eq_true, if_false]
      rw [if_neg (by simpa using hne), set_of_not_mem hnot]
      rw [if_pos hnot] at h2
      apply ih
      · have hk : Dict.keys (acc ++ [(g.name, v)]) = Dict.keys acc ++ [g.name] := by simp [Dict.keys]
        rw [hk]; simpa using hn
      · intro x hx; exact hdis x (by simp at hx ⊢; exact Or.inr hx)
      · exact h2

/-- **C61** (`last_field`; partial: no discarded fields up to it) `partial_load` up to a field returns the values that a full load of the same
stream determines for the fields up to it, and leaves the stream right after it. -/
theorem C61_partial_load_last_partial (Γ : Classes) (n : Nat) (d : StructDesc) (s s' : Stream) (ctx : Value)
    (pre post : List Field) (f : Field) (results : Dict) (hd : UniqueNames d) (hf : d.components = pre ++ f :: post)
    (hdis : ∀ g ∈ pre ++ [f], g.base.discard = false) (h : Loads Γ n ctx d.components [] s results s') :
    ∃ m t, Loads Γ n ctx (pre ++ [f]) [] s m t ∧ Loads Γ n ctx post m t results s' ∧
      m = results.take (pre.length + 1) ∧ structPartialLoad Γ n d s (some f.name) ctx = (.ok m, t) := by
  have hnd := hd
  unfold UniqueNames names at hnd
  rw [hf] at hnd
  rw [hf, show pre ++ f :: post = (pre ++ [f]) ++ post by simp] at h
  obtain ⟨m, t, h1, h2⟩ := Loads.append.1 h
  have hkeys : Dict.keys m = (pre ++ [f]).map Field.name := by
    have hsub : ((pre ++ [f]).map Field.name).Nodup := by
      have hp : (pre ++ [f]).map Field.name <+: (pre ++ f :: post).map Field.name := by
        refine ⟨post.map Field.name, by simp⟩
      exact hnd.sublist hp.sublist
    have := h1.keys_eq (by simpa [Dict.keys] using hsub)
    simpa [Dict.keys] using this
  have hlen : m.length = pre.length + 1 := by
    have := congrArg List.length hkeys
    simpa [Dict.keys] using this
  refine ⟨m, t, h1, h2, ?_, ?_⟩
  · obtain ⟨x, hx⟩ := h2.prefix
    rw [← hx, ← hlen, List.take_left]
  · unfold structPartialLoad
    have hh : d.has f.name = true := has_iff.2 (by unfold names; rw [hf]; simp)
    simp only [Option.any, hh, Bool.not_true, Bool.false_eq_true, if_false]
    rw [hf, partialLoadLoop_last (by simpa [Dict.keys] using hnd) hdis h1]
    simp only
    rw [structInit_ok_iff.2 ⟨rfl, ?_⟩]
    intro k hk
    rw [hkeys] at hk
    unfold names; rw [hf]
    simp only [List.map_append, List.mem_append, List.map_cons, List.map_nil, List.mem_cons, List.not_mem_nil, or_false] at hk ⊢
    rcases hk with hk | hk
    · exact Or.inl hk
    · exact Or.inr (Or.inl hk)

theorem partialLoadLoop_eof {Γ : Classes} {n : Nat} {ctx : Value} {pre post : List Field} {f : Field} {acc m : Dict}
    {s t t' : Stream} {e : Err} (hn : (Dict.keys acc ++ pre.map Field.name).Nodup)
    (hdis : ∀ g ∈ pre, g.base.discard = false) (h : Loads Γ n ctx pre acc s m t)
    (he : fieldFromStream Γ n f t ctx m = (.error e, t')) (heof : e.isEOF = true) :
    partialLoadLoop (fun f s loaded => fieldFromStream Γ n f s ctx loaded) none (pre ++ f :: post) acc s =
      (.ok m, t'.seek t.pos) := by
  induction pre generalizing acc s with
  | nil => cases h; simp [partialLoadLoop, he, heof, Stream.tell]
  | cons g pre ih =>
    cases h with
    | @cons _ _ _ _ v _ t1 _ h1 h2 =>
      have hnot : Dict.get? acc g.name = none := by
        rw [Dict.get?_none_iff]; intro hm
        rw [List.nodup_append] at hn
        exact hn.2.2 _ hm g.name (by simp) rfl
      simp only [List.cons_append, partialLoadLoop, h1, hdis g (by simp), Bool.false_eq_true, if_false]
      rw [if_neg (by simp), set_of_not_mem hnot]
      rw [if_pos hnot] at h2
      apply ih
      · have hk : Dict.keys (acc ++ [(g.name, v)]) = Dict.keys acc ++ [g.name] := by simp [Dict.keys]
        rw [hk]; simpa using hn
      · intro x hx; exact hdis x (by simp [hx])
      · exact h2

theorem partialLoadLoop_all {Γ : Classes} {n : Nat} {ctx : Value} {fs : List Field} {acc m : Dict}
    {s t : Stream} (hn : (Dict.keys acc ++ fs.map Field.name).Nodup)
    (hdis : ∀ g ∈ fs, g.base.discard = false) (h : Loads Γ n ctx fs acc s m t) :
    partialLoadLoop (fun f s loaded => fieldFromStream Γ n f s ctx loaded) none fs acc s = (.ok m, t) := by
  induction fs generalizing acc s with
  | nil => cases h; rfl
  | cons g fs ih =>
    cases h with
    | @cons _ _ _ _ v _ t1 _ h1 h2 =>
      have hnot : Dict.get? acc g.name = none := by
        rw [Dict.get?_none_iff]; intro hm
        rw [List.nodup_append] at hn
        exact hn.2.2 _ hm g.name (by simp) rfl
      simp only [partialLoadLoop, h1, hdis g (by simp), Bool.false_eq_true, if_false]
      rw [if_neg (by simp), set_of_not_mem hnot]
      rw [if_pos hnot] at h2
      apply ih
      · have hk : Dict.keys (acc ++ [(g.name, v)]) = Dict.keys acc ++ [g.name] := by simp [Dict.keys]
        rw [hk]; simpa using hn
      · intro x hx; exact hdis x (by simp [hx])
      · exact h2

/-- **C61** (truncated stream; partial: no discarded fields before the end) Without `last_field`, if the stream ends inside a field, `partial_load` returns
exactly the fields before it and puts the stream back to the start of that field. -/
theorem C61_partial_load_truncated_partial (Γ : Classes) (n : Nat) (d : StructDesc) (s t t' : Stream) (ctx : Value)
    (pre post : List Field) (f : Field) (m : Dict) (e : Err) (hd : UniqueNames d) (hf : d.components = pre ++ f :: post)
    (hdis : ∀ g ∈ pre, g.base.discard = false) (h : Loads Γ n ctx pre [] s m t)
    (he : fieldFromStream Γ n f t ctx m = (.error e, t')) (heof : e.isEOF = true) :
    structPartialLoad Γ n d s none ctx = (.ok m, t'.seek t.pos) ∧ Dict.keys m = pre.map Field.name := by
  have hnd := hd
  unfold UniqueNames names at hnd
  rw [hf] at hnd
  have hsub : (pre.map Field.name).Nodup := by
    have hp : pre.map Field.name <+: (pre ++ f :: post).map Field.name := ⟨(f :: post).map Field.name, by simp⟩
    exact hnd.sublist hp.sublist
  have hkeys : Dict.keys m = pre.map Field.name := by
    have := h.keys_eq (by simpa [Dict.keys] using hsub)
    simpa [Dict.keys] using this
  refine ⟨?_, hkeys⟩
  unfold structPartialLoad
  simp only [Option.any, Bool.false_eq_true, if_false]
  rw [hf, partialLoadLoop_eof (by simpa [Dict.keys] using hsub) hdis h he heof]
  simp only
  rw [structInit_ok_iff.2 ⟨rfl, ?_⟩]
  intro k hk
  rw [hkeys] at hk
  unfold names; rw [hf, List.map_append]
  exact List.mem_append_left _ hk

/-- **C61** (complete stream) Without `last_field`, if all fields can be read, `partial_load` returns all of them. -/
theorem C61_partial_load_complete_partial (Γ : Classes) (n : Nat) (d : StructDesc) (s s' : Stream) (ctx : Value)
    (results : Dict) (hd : UniqueNames d) (hdis : ∀ g ∈ d.components, g.base.discard = false)
    (h : Loads Γ n ctx d.components [] s results s') : structPartialLoad Γ n d s none ctx = (.ok results, s') := by
  unfold structPartialLoad
  simp only [Option.any, Bool.false_eq_true, if_false]
  rw [partialLoadLoop_all (by unfold UniqueNames names at hd; simpa [Dict.keys] using hd) hdis h]
  simp only
  rw [structInit_ok_iff.2 ⟨rfl, ?_⟩]
  intro k hk
  rcases (h.keys k).1 hk with hk | hk
  · simp [Dict.keys] at hk
  · exact hk

/-- ```
class Hidden(Struct):
    n = UInt8(discard=True)
    payload = Bytes(size=n)
``` -/
def Sample.hidden : StructDesc :=
  { name := "Hidden"
    components := [Sample.upd (Sample.u8 "n") ({ · with discard := true }), Sample.upd (Sample.bytesRef "payload" "n")
      ({ · with index := 1, offset := some 1 })]
    fieldValidators := [("n", []), ("payload", [])] }

/-- **C61** (refuted) `partial_load` does not agree with a full load if a field that others refer to is discarded: it forgets the value
right after reading it. -/
theorem C61_partial_load_agrees_refuted :
    ¬ ∀ (Γ : Classes) (n : Nat) (d : StructDesc) (s s' : Stream) (ctx : Value) (vals : Dict),
      UniqueNames d → structFromStream Γ (n + 1) d s ctx [] = (.ok vals, s') →
      structPartialLoad Γ n d s none ctx = (.ok vals, s') := by
  intro h
  have h1 := h Sample.noClasses 3 Sample.hidden ⟨[2, 7, 8], 0⟩ ⟨[2, 7, 8], 3⟩ .none [("payload", .bytes [7, 8])]
    (by unfold UniqueNames; decide) (by decide)
  have h2 : structPartialLoad Sample.noClasses 3 Sample.hidden ⟨[2, 7, 8], 0⟩ none .none =
      (.error (.missingRequired "n"), ⟨[2, 7, 8], 1⟩) := by decide
  rw [h1] at h2; simp at h2

example : structPartialLoad Sample.classes 4 Sample.point ⟨[1, 0, 2], 0⟩ none .none = (.ok [("x", .int 1)], ⟨[1, 0, 2], 2⟩) := by
  decide
example : structPartialLoad Sample.classes 4 Sample.point ⟨[1, 0, 2, 0], 0⟩ (some "x") .none =
    (.ok [("x", .int 1)], ⟨[1, 0, 2, 0], 2⟩) := by decide

/-! ## C24: `get_field` and a full load -/

/-- **C24** (refuted) `get_field` does not always agree with a full load: a field right after fields of fixed size is loaded without the values
of the others, so a size given by an earlier field is not found. -/
theorem C24_get_field_agrees_refuted :
    ¬ ∀ (Γ : Classes) (n : Nat) (d : StructDesc) (s s' : Stream) (name : String) (ctx v : Value) (vals : Dict),
      UniqueNames d → structFromStream Γ (n + 1) d s ctx [] = (.ok vals, s') → Dict.get? vals name = some v →
      (structGetField Γ n d s name ctx).1 = .ok v := by
  intro h
  have h1 := h Sample.classes 3
    { Sample.packet with components := Sample.packet.components.take 2, fieldValidators := [("n", []), ("payload", [])] }
    ⟨[2, 7, 8], 0⟩ ⟨[2, 7, 8], 3⟩ "payload" .none (.bytes [7, 8]) [("n", .int 2), ("payload", .bytes [7, 8])]
    (by unfold UniqueNames; decide) (by decide) (by decide)
  revert h1; decide

/-- **C24** (partial: the field has no static offset, and nothing before it is discarded) `get_field` returns the value a full load determines. -/
theorem C24_get_field_no_offset_partial (Γ : Classes) (n : Nat) (d : StructDesc) (s s' : Stream) (ctx v : Value)
    (pre post : List Field) (f : Field) (vals : Dict) (hd : UniqueNames d) (hf : d.components = pre ++ f :: post)
    (hdis : ∀ g ∈ pre ++ [f], g.base.discard = false) (hoff : f.base.offset = none)
    (h : structFromStream Γ (n + 1) d s ctx [] = (.ok vals, s')) (hv : Dict.get? vals f.name = some v) :
    (structGetField Γ n d s f.name ctx).1 = .ok v := by
  obtain ⟨results, hl, -, -, rfl⟩ := structFromStream_ok_iff.1 h
  have hfm : f ∈ d.components := by rw [hf]; simp
  obtain ⟨m, t, h1, h2, -, h4⟩ := C61_partial_load_last_partial Γ n d s s' ctx pre post f results hd hf hdis hl
  unfold structGetField
  rw [find?_of_mem hd hfm]
  simp only [hoff]
  rw [h4]
  simp only
  have hres : Dict.get? results f.name = some v := by
    rw [dropDiscarded_get hd results hfm, hdis f (by simp)] at hv
    simpa using hv
  have hmk : f.name ∈ Dict.keys m := (h1.keys _).2 (Or.inr (by simp))
  cases hm : Dict.get? m f.name with
  | none => exact absurd hmk ((Dict.get?_none_iff m f.name).1 hm)
  | some w =>
    have := h2.mono_get hm
    rw [hres] at this; simp at this; subst this
    exact structGetItem_some (List.mem_map.2 ⟨f, hfm, rfl⟩) hm

/-- **C24** (partial: the field has a static offset that is where a full load reads it, and it does not look at other fields) `get_field` returns the
value a full load determines. -/
theorem C24_get_field_offset_partial (Γ : Classes) (n : Nat) (d : StructDesc) (s s' : Stream) (ctx v : Value)
    (pre post : List Field) (f : Field) (vals : Dict) (off : Nat) (hd : UniqueNames d)
    (hf : d.components = pre ++ f :: post) (hoff : f.base.offset = some (off : Int))
    (hpos : ∀ m t, Loads Γ n ctx pre [] s m t → t = s.seek (s.pos + off))
    (hind : ∀ t seen, fieldFromStream Γ n f t ctx seen = fieldFromStream Γ n f t ctx [])
    (h : structFromStream Γ (n + 1) d s ctx [] = (.ok vals, s')) (hv : Dict.get? vals f.name = some v) :
    (structGetField Γ n d s f.name ctx).1 = .ok v := by
  obtain ⟨results, hl, -, -, rfl⟩ := structFromStream_ok_iff.1 h
  have hfm : f ∈ d.components := by rw [hf]; simp
  have hnd := hd
  unfold UniqueNames names at hnd
  rw [hf] at hl hnd
  obtain ⟨m, t, h1, h2⟩ := Loads.append.1 hl
  have ht := hpos m t h1
  subst ht
  cases h2 with
  | @cons _ _ _ _ w _ t1 _ h3 h4 =>
    rw [hind] at h3
    have hm : Dict.get? m f.name = none := by
      rw [Dict.get?_none_iff, h1.keys]
      rintro (hx | hx)
      · simp [Dict.keys] at hx
      · rw [List.map_append, List.nodup_append] at hnd
        exact hnd.2.2 _ hx f.name (by simp) rfl
    rw [if_pos hm] at h4
    have hw : Dict.get? results f.name = some w := by
      apply h4.mono_get
      rw [← set_of_not_mem hm, Dict.get?_set, if_pos rfl]
    rw [dropDiscarded_get hd results hfm] at hv
    have hvw : v = w := by
      cases hdis : f.base.discard with
      | true => simp [hdis] at hv
      | false => simp [hdis, hw] at hv; exact hv.symm
    subst hvw
    unfold structGetField
    rw [find?_of_mem hd hfm]
    have hs : seekInt s ((s.tell : Int) + (off : Int)) = (.ok (), s.seek (s.pos + off)) := by
      unfold seekInt Stream.tell
      rw [if_neg (by omega), show (((s.pos : Int) + (off : Int)).toNat) = s.pos + off by omega]
    simp only [hoff]
    rw [hs]
    simp only [h3]

/-- **C61** Asking `partial_load` to stop at, or `get_field` for, a name that is no field of the class raises ValueError before anything is
read: the stream is exactly as it was. -/
theorem C61_unknown_field (Γ : Classes) (n : Nat) (d : StructDesc) (s : Stream) (name : String) (ctx : Value) (h : name ∉ names d) :
    structPartialLoad Γ n d s (some name) ctx = (.error .valueErr, s) ∧ structGetField Γ n d s name ctx = (.error .valueErr, s) := by
  have hh : d.has name = false := by
    cases hc : d.has name with
    | false => rfl
    | true => exact absurd (has_iff.1 hc) h
  have hf : d.find? name = none := by
    cases hc : d.find? name with
    | none => rfl
    | some f =>
      unfold StructDesc.find? at hc
      have h1 := List.mem_of_find?_eq_some hc
      have h2 := List.find?_some hc
      have h2 := of_decide_eq_true h2
      exact absurd (List.mem_map.2 ⟨f, h1, h2⟩) h
  constructor
  · unfold structPartialLoad
    simp [hh]
  · unfold structGetField
    rw [hf]

example : structPartialLoad Sample.noClasses 3 { name := "S", components := [Sample.u8 "a"] } ⟨[1, 2], 1⟩ (some "z") .none =
    (.error .valueErr, ⟨[1, 2], 1⟩) := (C61_unknown_field _ 3 _ _ _ _ (by decide)).1

end Verif
