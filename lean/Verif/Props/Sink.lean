import Verif.Proofs.Sink
import Verif.Props.Records
import Verif.Props.Locality
import Verif.Props.Optional
import Verif.Proofs.Torn

/-!
# C78: dumping to a stream that fails
-/

namespace Verif

open Spec

/-- **C78** On an `io.BytesIO` the dump that takes the stream as a parameter is the one of the other theorems: same bytes, same outcome. -/
theorem C78_bytesio (Γ : Classes) (n : Nat) (d : StructDesc) (vals : Dict) (ctx : Value) (buf : Bytes) :
    structToSink bytesIO Γ n d vals ctx buf = ((structToStream Γ n d vals ctx).2, buf ++ (structToStream Γ n d vals ctx).1) := by
  obtain ⟨p, h1, -, h3, h4⟩ := structToSink_follows bytesIO_appendOnly Γ n d vals ctx buf
  rcases hr : structToSink bytesIO Γ n d vals ctx buf with ⟨r, s⟩
  rw [hr] at h1 h3 h4
  simp only [id_eq] at h1
  cases r with
  | ok u => cases u; rw [h3 rfl, h1]
  | error e =>
    rcases h4 e rfl with h | ⟨chunk, st, h⟩
    · rw [h, h1]
    · cases h

/-- **C78** Whatever the stream does, and wherever it fails: what has been written is the beginning of what the dump writes to an `io.BytesIO`.  If
the dump returns, it is all of it, and dumping to an `io.BytesIO` succeeds too; if it raises, the exception is the one that
dumping to an `io.BytesIO` raises, after the same bytes, or comes from the stream. -/
theorem C78_failing_stream {σ : Type} (k : Sink σ) (content : σ → Bytes) (hk : AppendOnly k content) (Γ : Classes) (n : Nat) (d : StructDesc)
    (vals : Dict) (ctx : Value) (s s' : σ) (r : Except Err Unit) (h : structToSink k Γ n d vals ctx s = (r, s')) :
    ∃ p, content s' = content s ++ p ∧ p <+: (structToStream Γ n d vals ctx).1 ∧
      (r = .ok () → structToStream Γ n d vals ctx = (p, .ok ())) ∧
      ∀ e, r = .error e → structToStream Γ n d vals ctx = (p, .error e) ∨ ∃ chunk st, (k.write chunk st).1 = .error e := by
  have := structToSink_follows hk Γ n d vals ctx s
  rw [h] at this
  exact this

/-- **C78** The same for `partial_dump`. -/
theorem C78_failing_stream_partial_dump {σ : Type} (k : Sink σ) (content : σ → Bytes) (hk : AppendOnly k content) (Γ : Classes) (n : Nat)
    (d : StructDesc) (vals : Dict) (last : Option String) (ctx : Value) (s s' : σ) (r : Except Err Unit)
    (h : structPartialDumpTo k Γ n d vals last ctx s = (r, s')) :
    ∃ p, content s' = content s ++ p ∧ p <+: (structPartialDump Γ n d vals last ctx).1 ∧
      (r = .ok () → structPartialDump Γ n d vals last ctx = (p, .ok ())) ∧
      ∀ e, r = .error e → structPartialDump Γ n d vals last ctx = (p, .error e) ∨ ∃ chunk st, (k.write chunk st).1 = .error e := by
  have : Follows k content (structPartialDump Γ n d vals last ctx) s (structPartialDumpTo k Γ n d vals last ctx s) :=
    partialDumpTo_follows (fun f v s => fieldToSink_follows hk Γ n f v ctx [] s) vals last d.components s
  rw [h] at this
  exact this

theorem dumpFieldsTo_whole {σ : Type} {k : Sink σ} {content : σ → Bytes} (hk : AtomicWrites k content) {Γ : Classes} {n : Nat} {ctx : Value}
    {all : Dict} (fs : List Field) (s : σ) :
    ∃ pre post ps, fs = pre ++ post ∧ Parts Γ n ctx all pre ps ∧
      content (dumpFieldsTo (fun f v => fieldToSink k Γ n f v ctx all) all ctx fs s).2 = content s ++ ps.flatten ∧
      ((dumpFieldsTo (fun f v => fieldToSink k Γ n f v ctx all) all ctx fs s).1 = .ok () → post = []) := by
  induction fs generalizing s with
  | nil => exact ⟨[], [], [], rfl, .nil, by simp [dumpFieldsTo], fun _ => rfl⟩
  | cons f fs ih =>
    simp only [dumpFieldsTo]
    cases hv : f.base.computeValueForDump all.view ctx with
    | error e => exact ⟨[], f :: fs, [], rfl, .nil, by simp, fun h => by cases h⟩
    | ok v =>
      simp only
      split
      · rename_i hnp
        subst hnp
        obtain ⟨pre, post, ps, h1, h2, h3, h4⟩ := ih s
        refine ⟨f :: pre, post, [] :: ps, by rw [h1]; rfl, .cons (part_iff.2 ⟨_, hv, ?_⟩) h2, by simpa using h3, h4⟩
        exact .inl ⟨rfl, rfl⟩
      · rename_i hnp
        simp only [fieldToSink]
        cases hw : (fieldToStream Γ n f v ctx all).toExcept with
        | error e => exact ⟨[], f :: fs, [], rfl, .nil, by simp, fun h => by cases h⟩
        | ok chunk =>
          simp only
          obtain ⟨k1, k2⟩ := hk chunk s
          rcases hr : k.write chunk s with ⟨r, s1⟩
          rw [hr] at k1 k2
          cases r with
          | error e => exact ⟨[], f :: fs, [], rfl, .nil, by simpa using k2 e rfl, fun h => by cases h⟩
          | ok u =>
            obtain ⟨pre, post, ps, h1, h2, h3, h4⟩ := ih s1
            refine ⟨f :: pre, post, chunk :: ps, by rw [h1]; rfl, .cons (part_iff.2 ⟨_, hv, ?_⟩) h2, ?_, h4⟩
            · exact .inr ⟨hnp, W.toExcept_ok hw⟩
            · rw [h3, k1 rfl]; simp

/-- **C78** If a `write` that raises writes nothing, only whole fields are ever in the stream: the contributions of the fields up to some field. -/
theorem C78_whole_fields {σ : Type} (k : Sink σ) (content : σ → Bytes) (hk : AtomicWrites k content) (Γ : Classes) (n : Nat) (d : StructDesc)
    (vals : Dict) (ctx : Value) (s s' : σ) (r : Except Err Unit) (h : structToSink k Γ (n + 1) d vals ctx s = (r, s')) :
    (content s' = content s ∧ ∃ e, r = .error e) ∨
      ∃ all pre post ps, structToDict Γ n d vals = .ok all ∧ d.components = pre ++ post ∧ Parts Γ n ctx all pre ps ∧
        content s' = content s ++ ps.flatten ∧ (r = .ok () → post = []) := by
  simp only [structToSink] at h
  split at h
  · cases h; exact .inl ⟨rfl, _, rfl⟩
  · split at h
    · cases h; exact .inl ⟨rfl, _, rfl⟩
    · rename_i all ha
      obtain ⟨pre, post, ps, h1, h2, h3, h4⟩ := dumpFieldsTo_whole hk (Γ := Γ) (n := n) (ctx := ctx) (all := all) d.components s
      rw [h] at h3 h4
      exact .inr ⟨all, pre, post, ps, ha, h1, h2, h3, h4⟩

theorem recorder_appendOnly : AppendOnly recorder List.flatten := fun chunk s => ⟨chunk, List.prefix_refl _, by simp [recorder], fun _ => rfl⟩

theorem dumpFieldsTo_calls {Γ : Classes} {n : Nat} {ctx : Value} {all : Dict} (fs : List Field) (s : List Bytes) :
    (dumpFieldsTo (fun f v => fieldToSink recorder Γ n f v ctx all) all ctx fs s).2.length ≤ s.length + fs.length := by
  induction fs generalizing s with
  | nil => simp [dumpFieldsTo]
  | cons f fs ih =>
    simp only [dumpFieldsTo]
    cases hv : f.base.computeValueForDump all.view ctx with
    | error e => simp
    | ok v =>
      simp only
      split
      · have := ih s; simp only [List.length_cons]; omega
      · simp only [fieldToSink]
        cases hw : (fieldToStream Γ n f v ctx all).toExcept with
        | error e => simp
        | ok chunk =>
          have := ih (s ++ [chunk])
          simp only [recorder, List.length_append, List.length_cons, List.length_nil] at this ⊢
          omega

/-- **C78** `write` is called at most once per field, and what it is called with makes up the dump. -/
theorem C78_calls (Γ : Classes) (n : Nat) (d : StructDesc) (vals : Dict) (ctx : Value) :
    (structToSink recorder Γ n d vals ctx []).2.length ≤ d.components.length ∧
      (structToSink recorder Γ n d vals ctx []).2.flatten = (structToStream Γ n d vals ctx).1 ∧
      (structToSink recorder Γ n d vals ctx []).1 = (structToStream Γ n d vals ctx).2 := by
  refine ⟨?_, ?_⟩
  · cases n with
    | zero => simp [structToSink]
    | succ n =>
      simp only [structToSink]
      split
      · simp
      · split
        · simp
        · have := dumpFieldsTo_calls (Γ := Γ) (n := n) (ctx := ctx) (all := ‹Dict›) d.components []
          simpa using this
  · obtain ⟨p, h1, -, h3, h4⟩ := structToSink_follows recorder_appendOnly Γ n d vals ctx []
    rcases hr : structToSink recorder Γ n d vals ctx [] with ⟨r, s⟩
    rw [hr] at h1 h3 h4
    simp only [List.flatten_nil, List.nil_append] at h1
    cases r with
    | ok u => cases u; rw [h3 rfl]; exact ⟨h1, rfl⟩
    | error e =>
      rcases h4 e rfl with h | ⟨chunk, st, h⟩
      · rw [h]; exact ⟨h1, rfl⟩
      · cases h

/-! ### After the crash -/

/-- No field of the class reads to the end of the stream: no negative sizes, also not from the fields that sizes are taken from (unsigned
integers, say). -/
def Spec.Limited (Γ : Classes) (d : StructDesc) : Prop := (∀ f ∈ d.components, SelfLimited f) ∧ SizeFieldsNonNeg Γ d

/-- If the bytes `bs` can be loaded, and nothing looks ahead or reads to the end of the stream, no proper prefix of them can. -/
theorem torn_fails {Γ : Classes} (hΓF : ∀ c d, Γ c = some d → ∀ f ∈ d.components, LoadsForward f)
    (hΓB : ∀ c d, Γ c = some d → ∀ f ∈ d.components, LooksBehind Γ f) (hΓL : ∀ c d, Γ c = some d → Limited Γ d) {d : StructDesc}
    (hF : ∀ f ∈ d.components, LoadsForward f) (hB : ∀ f ∈ d.components, LooksBehind Γ f) (hl : Limited Γ d) {ctx : Value} {bs : Bytes} {m' : Nat}
    {r' : Dict} {pre : Bytes} (h3 : structFromStream Γ m' d ⟨pre ++ bs ++ [], pre.length⟩ ctx [] = (.ok r', ⟨pre ++ bs ++ [], pre.length + bs.length⟩))
    (p : Bytes) (hpre : p <+: bs) (hne : p ≠ bs) (m : Nat) : ∃ e, (structFromStream Γ m d ⟨pre ++ p, pre.length⟩ ctx []).1 = .error e := by
  cases hr : (structFromStream Γ m d ⟨pre ++ p, pre.length⟩ ctx []).1 with
  | error e => exact ⟨e, rfl⟩
  | ok r =>
    exfalso
    have hfwd := (C63_position Γ m hΓF).2 d ctx [] hF ⟨pre ++ p, pre.length⟩ (by simp)
    have hloc := (C63_local_to_end_partial Γ m hΓF hΓB hΓL).2 d ctx hF hB hl.1 hl.2
    obtain ⟨q, rfl⟩ := hpre
    rcases hs : structFromStream Γ m d ⟨pre ++ p, pre.length⟩ ctx [] with ⟨r0, t⟩
    simp only [hs] at hr hfwd
    subst hr
    obtain ⟨f1, f2, f3⟩ := hfwd
    obtain ⟨u, hu⟩ : ∃ u, t.pos = pre.length + u := ⟨t.pos - pre.length, by omega⟩
    have hul : u ≤ p.length := by simp at f3; omega
    have hsplit : pre ++ p = pre ++ p.take u ++ p.drop u := by simp
    have ht : t = ⟨pre ++ p.take u ++ p.drop u, pre.length + (p.take u).length⟩ := by
      rw [← hsplit]
      cases t
      simp only at f1 hu
      simp [f1, hu, Nat.min_eq_left hul]
    rw [ht, hsplit] at hs
    have h4 := hloc pre (p.take u) (p.drop u) r hs (.inr rfl) (p.drop u ++ q)
    have hdata : pre ++ p.take u ++ (p.drop u ++ q) = pre ++ (p ++ q) ++ [] := by
      rw [← List.append_assoc, ← hsplit]; simp
    rw [hdata] at h4
    have h6 := structFromStream_of_le (Nat.le_max_left m m') h4
    have h7 := structFromStream_of_le (Nat.le_max_right m m') h3
    rw [h6] at h7
    simp only [Prod.mk.injEq, Stream.mk.injEq, List.length_take, List.length_append] at h7
    have : q.length = 0 := by omega
    exact hne (by simp [List.length_eq_zero_iff.1 this])

/-- **C78** (partial: classes without negative sizes) A torn dump is never mistaken for a struct: of the bytes of a dumped instance, no proper
prefix can be loaded.  For classes with optional and nullable fields, and unions decided by earlier fields. -/
theorem C78_torn_dump_partial (Γ : Classes) (hΓ : ∀ c d, Γ c = some d → OptionalSchema Γ d) (hΓL : ∀ c d, Γ c = some d → Limited Γ d) (n : Nat)
    (d : StructDesc) (vals : Dict) (ctx : Value) (bs : Bytes) (hd : OptionalSchema Γ d) (hp : Bears Γ d vals) (hl : Limited Γ d)
    (h : structToStream Γ (n + 1) d vals ctx = (bs, .ok ())) (pre p : Bytes) (hpre : p <+: bs) (hne : p ≠ bs) (m : Nat) :
    ∃ e, (structFromStream Γ m d ⟨pre ++ p, pre.length⟩ ctx []).1 = .error e := by
  have hF : ∀ d, OptionalSchema Γ d → ∀ f ∈ d.components, LoadsForward f := by
    intro d hd f hf
    obtain ⟨a, b, -, hf⟩ := hd.field hf
    exact hf.layout.loadsForward
  have hB : ∀ d, OptionalSchema Γ d → ∀ f ∈ d.components, LooksBehind Γ f := by
    intro d hd f hf
    obtain ⟨a, b, -, hf⟩ := hd.field hf
    exact hf.looksBehind
  obtain ⟨-, m', r', -, -, -, h3⟩ := C26_optional_round_trip Γ hΓ n d vals ctx bs hd hp h
  exact torn_fails (fun c d hc => hF d (hΓ c d hc)) (fun c d hc => hB d (hΓ c d hc)) hΓL (hF d hd) (hB d hd) hl (h3 pre []) p hpre hne m

/-- **C78** (partial: classes without negative sizes) The same for classes all of whose fields are always there; here counts may be
taken from computed fields as well. -/
theorem C78_torn_dump_plain_partial (Γ : Classes) (hΓ : ∀ c d, Γ c = some d → Schema Γ d) (hΓL : ∀ c d, Γ c = some d → Limited Γ d) (n : Nat)
    (d : StructDesc) (vals : Dict) (ctx : Value) (bs : Bytes) (hp : PlainInstance Γ d vals) (hl : Limited Γ d)
    (h : structToStream Γ (n + 1) d vals ctx = (bs, .ok ())) (pre p : Bytes) (hpre : p <+: bs) (hne : p ≠ bs) (m : Nat) :
    ∃ e, (structFromStream Γ m d ⟨pre ++ p, pre.length⟩ ctx []).1 = .error e := by
  have hF : ∀ d, Schema Γ d → ∀ f ∈ d.components, LoadsForward f := by
    intro d hd f hf
    obtain ⟨a, b, hs⟩ := List.append_of_mem hf
    exact (hd.fields a f b hs).1.loadsForward
  have hB : ∀ d, Schema Γ d → ∀ f ∈ d.components, LooksBehind Γ f := by
    intro d hd f hf
    obtain ⟨a, b, hs⟩ := List.append_of_mem hf
    exact (hd.fields a f b hs).1.looksBehind (hd.fields a f b hs).2.1
  obtain ⟨-, m', r', -, -, h3⟩ := C26_plain_round_trip Γ hΓ n d vals ctx bs hp.1 hp.2.1 hp.2.2 h
  exact torn_fails (fun c d hc => hF d (hΓ c d hc)) (fun c d hc => hB d (hΓ c d hc)) hΓL (hF d hp.1) (hB d hp.1) hl (h3 pre []) p hpre hne m

/-- **C78** (partial: as above) Whatever the stream did while an instance was being dumped to it — wherever it failed, however the last `write` was
cut — what is then in the stream is either the complete dump or cannot be loaded. -/
theorem C78_crash_detected_partial {σ : Type} (k : Sink σ) (content : σ → Bytes) (hk : AppendOnly k content) (Γ : Classes)
    (hΓ : ∀ c d, Γ c = some d → OptionalSchema Γ d) (hΓL : ∀ c d, Γ c = some d → Limited Γ d) (n : Nat) (d : StructDesc) (vals : Dict) (ctx : Value)
    (bs : Bytes) (hd : OptionalSchema Γ d) (hp : Bears Γ d vals) (hl : Limited Γ d) (h : structToStream Γ (n + 1) d vals ctx = (bs, .ok ())) (s s' : σ)
    (r : Except Err Unit) (hrun : structToSink k Γ (n + 1) d vals ctx s = (r, s')) :
    content s' = content s ++ bs ∨
      ∀ m, ∃ e, (structFromStream Γ m d ⟨content s', (content s).length⟩ ctx []).1 = .error e := by
  obtain ⟨p, h1, h2, -, -⟩ := C78_failing_stream k content hk Γ (n + 1) d vals ctx s s' r hrun
  rw [h] at h2
  by_cases hc : p = bs
  · subst hc; exact .inl h1
  · right
    intro m
    rw [h1]
    exact C78_torn_dump_partial Γ hΓ hΓL n d vals ctx bs hd hp hl h (content s) p h2 hc m

/-- **C78** (partial: as above) The same for classes all of whose fields are always there. -/
theorem C78_crash_detected_plain_partial {σ : Type} (k : Sink σ) (content : σ → Bytes) (hk : AppendOnly k content) (Γ : Classes)
    (hΓ : ∀ c d, Γ c = some d → Schema Γ d) (hΓL : ∀ c d, Γ c = some d → Limited Γ d) (n : Nat) (d : StructDesc) (vals : Dict) (ctx : Value)
    (bs : Bytes) (hp : PlainInstance Γ d vals) (hl : Limited Γ d) (h : structToStream Γ (n + 1) d vals ctx = (bs, .ok ())) (s s' : σ)
    (r : Except Err Unit) (hrun : structToSink k Γ (n + 1) d vals ctx s = (r, s')) :
    content s' = content s ++ bs ∨
      ∀ m, ∃ e, (structFromStream Γ m d ⟨content s', (content s).length⟩ ctx []).1 = .error e := by
  obtain ⟨p, h1, h2, -, -⟩ := C78_failing_stream k content hk Γ (n + 1) d vals ctx s s' r hrun
  rw [h] at h2
  by_cases hc : p = bs
  · subst hc; exact .inl h1
  · right
    intro m
    rw [h1]
    exact C78_torn_dump_plain_partial Γ hΓ hΓL n d vals ctx bs hp hl h (content s) p h2 hc m

/-! ### Examples -/

-- a device that runs full in the middle of the second field
example : structToSink device Sample.noClasses 4 Sample.record [("n", .int 2), ("payload", .bytes [7, 8]), ("title", .str [0x61])] .none (2, [9]) =
    (.error (.user "ENOSPC"), (0, [9, 2, 7])) := by decide

-- three calls of `write`
example : structToSink recorder Sample.noClasses 4 Sample.record [("n", .int 2), ("payload", .bytes [7, 8]), ("title", .str [0x61])] .none [] =
    (.ok (), [[2], [7, 8], [0x61, 0]]) := by decide

example (room : Nat) (out : Except Err Unit × (Nat × Bytes))
    (h : structToSink device Sample.treeClasses 9 Sample.tree Sample.bigTree .none (room, []) = out) :
    out.2.2 = [0, 1, 2, 1, 44, 0, 0, 7, 1, 0, 5, 0] ∨
      ∀ m, ∃ e, (structFromStream Sample.treeClasses m Sample.tree ⟨out.2.2, 0⟩ .none []).1 = .error e := by
  have hlim : Limited Sample.treeClasses Sample.tree := by
    constructor
    · intro f hf
      simp only [Sample.tree, List.mem_cons, List.not_mem_nil, or_false] at hf
      rcases hf with rfl | rfl | rfl
      · exact .leaf (by intro n h; cases h; decide)
      · exact .leaf (by intro n h; cases h; decide)
      · exact .array (.inl (by simp)) .nested
    · intro f hf r hr
      simp only [Sample.tree, List.mem_cons, List.not_mem_nil, or_false] at hf
      rcases hf with rfl | rfl | rfl
      · cases hr; rename_i h; cases h
      · cases hr; rename_i h; cases h
      · cases hr; rename_i h; cases h
  exact C78_crash_detected_plain_partial device Prod.snd device_appendOnly Sample.treeClasses Sample.treeClasses_schema
    (by intro c d hc
        simp only [Sample.treeClasses, Classes.add] at hc
        split at hc
        · cases hc; exact hlim
        · simp [Sample.noClasses] at hc)
    8 Sample.tree Sample.bigTree .none _ Sample.bigTree_plain hlim (by decide) (room, []) out.2 out.1 h

-- a list of three nodes, the second one with a value that is `None`; whether there is a next node is written in each
example (room : Nat) (out : Except Err Unit × (Nat × Bytes))
    (h : structToSink device Sample.nodeClasses 12 Sample.node Sample.chain .none (room, []) = out) :
    out.2.2 = [5, 0, 1, 255, 255, 1, 7, 0, 0] ∨
      ∀ m, ∃ e, (structFromStream Sample.nodeClasses m Sample.node ⟨out.2.2, 0⟩ .none []).1 = .error e := by
  have hlim : Limited Sample.nodeClasses Sample.node := by
    constructor
    · intro f hf
      simp only [Sample.node, List.mem_cons, List.not_mem_nil, or_false] at hf
      rcases hf with rfl | rfl | rfl
      · exact .leaf (by intro n h; cases h; decide)
      · exact .leaf (by intro n h; cases h; decide)
      · exact .nested
    · intro f hf r hr
      simp only [Sample.node, List.mem_cons, List.not_mem_nil, or_false] at hf
      rcases hf with rfl | rfl | rfl
      · cases hr; rename_i h; cases h
      · cases hr; rename_i h; cases h
      · cases hr
  exact C78_crash_detected_partial device Prod.snd device_appendOnly Sample.nodeClasses Sample.nodeClasses_schema
    (by intro c d hc
        simp only [Sample.nodeClasses, Classes.add] at hc
        split at hc
        · cases hc; exact hlim
        · simp [Sample.noClasses] at hc)
    11 Sample.node Sample.chain .none _ Sample.node_schema Sample.chain_bears hlim (by decide +kernel) (room, []) out.2 out.1 h

/-- **C78** refuted for raw streams: binobj ignores the return value of `write`, so if a stream takes only part of a chunk without raising, the dump
reports success although bytes are missing in the middle. -/
theorem C78_short_writes_refuted :
    ∃ (room : Nat) (d : StructDesc) (vals : Dict) (bs : Bytes), structToStream Sample.noClasses 4 d vals .none = (bs, .ok ()) ∧
      (structToSink (rawStream room) Sample.noClasses 4 d vals .none []).1 = .ok () ∧
      ¬ (structToSink (rawStream room) Sample.noClasses 4 d vals .none []).2 <+: bs :=
  ⟨1, Sample.record, [("n", .int 2), ("payload", .bytes [7, 8]), ("title", .str [0x61])], [2, 7, 8, 0x61, 0], by decide, by decide, by decide⟩

/-- **C78** refuted for classes with a field that reads to the end of the stream: `Array(UInt8())` without count takes what there is, so a torn dump
loads as a shorter array. -/
theorem C78_read_to_end_refuted :
    ∃ (d : StructDesc) (vals : Dict) (bs p : Bytes), UniqueNames d ∧ Instance d vals ∧
      structToStream Sample.noClasses 6 d vals .none = (bs, .ok ()) ∧ p <+: bs ∧ p ≠ bs ∧
      ∃ r t, structFromStream Sample.noClasses 6 d ⟨p, 0⟩ .none [] = (.ok r, t) :=
  ⟨{ name := "S", components := [Sample.array "a" (Sample.u8 "") .none], fieldValidators := [("a", [])] },
    [("a", .list [.int 1, .int 2])], [1, 2], [1], by unfold UniqueNames; decide, by unfold Instance; decide, by decide, by decide, by decide,
    [("a", .list [.int 1])], ⟨[1], 1⟩, by decide⟩

/-- **C78** refuted for nullable fields where the bytes for `None` begin with those of a value: with `UInt8(null_value=b"\x00\x00")` a torn `None`
loads as 0. -/
theorem C78_torn_null_refuted :
    ∃ (d : StructDesc) (vals : Dict) (bs p : Bytes), UniqueNames d ∧ Instance d vals ∧
      structToStream Sample.noClasses 6 d vals .none = (bs, .ok ()) ∧ p <+: bs ∧ p ≠ bs ∧
      structFromStream Sample.noClasses 6 d ⟨p, 0⟩ .none [] = (.ok [("x", .int 0)], ⟨p, 1⟩) :=
  ⟨{ name := "S", components := [Sample.upd (Sample.u8 "x") ({ · with nullValue := .bytes [0, 0] })], fieldValidators := [("x", [])] },
    [("x", .none)], [0, 0], [0], by unfold UniqueNames; decide, by unfold Instance; decide, by decide +kernel, by decide, by decide, by decide +kernel⟩

end Verif
