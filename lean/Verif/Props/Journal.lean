import Verif.Proofs.Journal
import Verif.Props.Sink

/-!
# Journals: files to which records are appended

C113.
-/

namespace Verif
open Spec

/-- Every append of the history has its own sufficient depth; together they have one. -/
theorem puts_all {σ : Type} {content : σ → Bytes} {Γ : Classes} {d : StructDesc} {ctx : Value} {good : Dict → Bytes → Dict → Prop}
    {put : Dict → σ → Except Err Unit × σ} (es : List JournalEvent)
    (h : ∀ vals, .append vals ∈ es → ∃ m₀, ∀ m, m₀ ≤ m → PutsRecord content Γ m d ctx good put vals) :
    ∃ m₀, ∀ m, m₀ ≤ m → ∀ vals, .append vals ∈ es → PutsRecord content Γ m d ctx good put vals := by
  induction es with
  | nil => exact ⟨0, by simp⟩
  | cons e es ih =>
    obtain ⟨m₁, h1⟩ := ih fun vals hv => h vals (by simp [hv])
    cases e with
    | restart => exact ⟨m₁, fun m hm vals hv => h1 m hm vals (by simpa using hv)⟩
    | append v =>
      obtain ⟨m₂, h2⟩ := h v (by simp)
      refine ⟨max m₁ m₂, fun m hm vals hv => ?_⟩
      rcases List.mem_cons.1 hv with hv | hv
      · cases hv; exact h2 m (by omega)
      · exact h1 m (by omega) vals hv

theorem journal_core {σ : Type} {k : JournalFile σ} {content : σ → Bytes} (hk : Journaling k content) {Γ : Classes} {d : StructDesc}
    {ctx : Value} {good : Dict → Bytes → Dict → Prop} {put : Dict → σ → Except Err Unit × σ} (h0 : ∀ m, TornOff Γ m d ctx [])
    (es : List JournalEvent) (hput : ∀ vals, .append vals ∈ es → ∃ m₀, ∀ m, m₀ ≤ m → PutsRecord content Γ m d ctx good put vals)
    (start : σ) (dirty : Bool) (hs : content start = []) :
    ∃ m₀, ∀ m, m₀ ≤ m → ∃ kept codes out, KeptIn (journalRun k content Γ m d ctx put es start dirty).1 kept ∧
      RecordedAll Γ m d ctx good kept codes out ∧
      (journalRecords Γ m d ctx (content (journalRun k content Γ m d ctx put es start dirty).2)).1 = out := by
  obtain ⟨m₀, h1⟩ := puts_all es hput
  refine ⟨m₀, fun m hm => ?_⟩
  obtain ⟨kept, codes, out, tail, h2, h3, h4, h5⟩ := journalRun_all hk (h0 m) es (h1 m hm) start dirty [] [] [] [] .nil (h0 m)
    (fun _ => rfl) (by simpa using hs)
  refine ⟨kept, codes, out, h2, by simpa using h3, ?_⟩
  rw [h5, journalRecords_all (by simpa using h3) h4 (h0 m)]

/-- What `to_stream` does to the file. -/
theorem putStream_puts {σ : Type} {k : Sink σ} {content : σ → Bytes} (hk : AppendOnly k content) {Γ : Classes} {n m : Nat} {d : StructDesc}
    {ctx : Value} {good : Dict → Bytes → Dict → Prop} {vals : Dict} {bs : Bytes} {r : Dict} (h : structToStream Γ n d vals ctx = (bs, .ok ()))
    (hr : Recorded Γ m d ctx good vals bs r)
    (ht : ∀ p, p <+: bs → p ≠ bs → ∀ pre, ∃ e, (structFromStream Γ m d ⟨pre ++ p, pre.length⟩ ctx []).1 = .error e) :
    PutsRecord content Γ m d ctx good (putStream k Γ n d ctx) vals := by
  refine .inl ⟨bs, r, hr, ht, fun s => ?_⟩
  obtain ⟨p, h1, h2, h3, -⟩ := C78_failing_stream k content hk Γ n d vals ctx s _ _ (Prod.eta (structToSink k Γ n d vals ctx s)).symm
  rw [h] at h2 h3
  exact ⟨p, h2, h1, fun hok => by have := h3 hok; cases this; rfl⟩

/-- What `write(to_bytes())` does to the file. -/
theorem putBytes_puts {σ : Type} {k : Sink σ} {content : σ → Bytes} (hk : AppendOnly k content) {Γ : Classes} {n m : Nat} {d : StructDesc}
    {ctx : Value} {good : Dict → Bytes → Dict → Prop} {vals : Dict}
    (h : ∀ bs, structToStream Γ n d vals ctx = (bs, .ok ()) → ∃ r, Recorded Γ m d ctx good vals bs r ∧
      ∀ p, p <+: bs → p ≠ bs → ∀ pre, ∃ e, (structFromStream Γ m d ⟨pre ++ p, pre.length⟩ ctx []).1 = .error e) :
    PutsRecord content Γ m d ctx good (putBytes k Γ n d ctx) vals := by
  rcases hd : structToStream Γ n d vals ctx with ⟨bs, res⟩
  cases res with
  | error e =>
    refine .inr fun s => ?_
    have : putBytes k Γ n d ctx vals s = (.error e, s) := by
      unfold putBytes structToBytes; rw [hd]; rfl
    rw [this]
    exact ⟨rfl, e, rfl⟩
  | ok u =>
    cases u
    obtain ⟨r, h1, h2⟩ := h bs hd
    refine .inl ⟨bs, r, h1, h2, fun s => ?_⟩
    have : putBytes k Γ n d ctx vals s = k.write bs s := by
      unfold putBytes structToBytes; rw [hd]; rfl
    rw [this]
    exact hk bs s

theorem recordedAll_kept {Γ : Classes} {n m : Nat} {d : StructDesc} {ctx : Value} {kept : List Dict} {codes : List Bytes} {out : List Dict}
    (h : RecordedAll Γ m d ctx (fun vals _ r => RestoredKept Γ n d vals r) kept codes out) :
    AllRestoredKept Γ n (kept.map fun vals => (d, vals)) out := by
  induction h with
  | nil => exact .nil
  | cons h _ ih => exact .cons h.1 ih

theorem recordedAll_restored {Γ : Classes} {n m : Nat} {d : StructDesc} {ctx : Value} {kept : List Dict} {codes : List Bytes} {out : List Dict}
    (h : RecordedAll Γ m d ctx (fun vals _ r => Restored Γ n d vals r) kept codes out) :
    AllRestored Γ n (kept.map fun vals => (d, vals)) out := by
  induction h with
  | nil => exact .nil
  | cons h _ ih => exact .cons h.1 ih

theorem optional_recorded {Γ : Classes} (hΓ : ∀ c d, Γ c = some d → OptionalSchema Γ d) {n : Nat} {d : StructDesc} {vals : Dict} {ctx : Value}
    {bs : Bytes} (hd : OptionalSchema Γ d) (hb : Bears Γ d vals) (h : structToStream Γ (n + 1) d vals ctx = (bs, .ok ())) :
    ∃ m₀ r, ∀ m, m₀ ≤ m → Recorded Γ m d ctx (fun vals _ r => RestoredKept Γ n d vals r) vals bs r := by
  obtain ⟨all, m₀, r, h1, h2, h3, h4⟩ := C26_optional_round_trip Γ hΓ n d vals ctx bs hd hb h
  refine ⟨m₀, r, fun m hm => ⟨⟨all, h1, fun f hf hk => ?_, h3⟩, fun pre rest => structFromStream_of_le hm (h4 pre rest)⟩⟩
  obtain ⟨v, w, ha, hr, hs, -⟩ := h2 f hf hk
  exact ⟨v, w, ha, hr, hs⟩

theorem plain_recorded {Γ : Classes} (hΓ : ∀ c d, Γ c = some d → Schema Γ d) {n : Nat} {d : StructDesc} {vals : Dict} {ctx : Value}
    {bs : Bytes} (hp : PlainInstance Γ d vals) (h : structToStream Γ (n + 1) d vals ctx = (bs, .ok ())) :
    ∃ m₀ r, ∀ m, m₀ ≤ m → Recorded Γ m d ctx (fun vals _ r => Restored Γ n d vals r) vals bs r := by
  obtain ⟨hd, hi, ht⟩ := hp
  obtain ⟨all, m₀, r, h1, h2, h3⟩ := C26_plain_round_trip Γ hΓ n d vals ctx bs hd hi ht h
  exact ⟨m₀, r, fun m hm => ⟨⟨all, h1, h2⟩, fun pre rest => structFromStream_of_le hm (h3 pre rest)⟩⟩

/-! ## C113: journals -/

/-- **C113** Records are appended to an empty file with `to_stream`.  Any `write` may fail, after any number of bytes; any `truncate` may fail; the
program may be started again at any time.  It cuts off, before it goes on, what comes after the last record that can be loaded.  Then, whatever
happened, exactly these records can be loaded from the file one after another: all those whose append returned, and of the others some, complete
and in their place.  (The records are such that dumping them to memory succeeds, and at least one has a byte.) -/
theorem C113_journal {σ : Type} (k : JournalFile σ) (content : σ → Bytes) (hk : Journaling k content) (Γ : Classes)
    (hΓ : ∀ c d, Γ c = some d → OptionalSchema Γ d) (hΓL : ∀ c d, Γ c = some d → Limited Γ d) (n : Nat) (d : StructDesc) (ctx : Value)
    (hd : OptionalSchema Γ d) (hl : Limited Γ d) (vals₀ : Dict) (bs₀ : Bytes) (hb₀ : Bears Γ d vals₀)
    (h₀ : structToStream Γ (n + 1) d vals₀ ctx = (bs₀, .ok ())) (hne : bs₀ ≠ []) (history : List JournalEvent)
    (hrec : ∀ vals, .append vals ∈ history → Bears Γ d vals ∧ (structToStream Γ (n + 1) d vals ctx).2 = .ok ())
    (start : σ) (dirty : Bool) (hs : content start = []) :
    ∃ m₀, ∀ m, m₀ ≤ m → ∃ kept, KeptIn (journalRun k content Γ m d ctx (putStream k.toSink Γ (n + 1) d ctx) history start dirty).1 kept ∧
      AllRestoredKept Γ n (kept.map fun vals => (d, vals))
        (journalRecords Γ m d ctx (content (journalRun k content Γ m d ctx (putStream k.toSink Γ (n + 1) d ctx) history start dirty).2)).1 := by
  obtain ⟨m₀, h1⟩ := journal_core (good := fun vals _ r => RestoredKept Γ n d vals r) hk
    (fun m => ⟨bs₀, List.nil_prefix, hne.symm, fun p hp hq pre => C78_torn_dump_partial Γ hΓ hΓL n d vals₀ ctx bs₀ hd hb₀ hl h₀ pre p hp hq m⟩)
    history (fun vals hv => by
      obtain ⟨hb, ho⟩ := hrec vals hv
      have h : structToStream Γ (n + 1) d vals ctx = ((structToStream Γ (n + 1) d vals ctx).1, .ok ()) := by rw [← ho]
      obtain ⟨m₀, r, h2⟩ := optional_recorded hΓ hd hb h
      exact ⟨m₀, fun m hm => putStream_puts hk.write h (h2 m hm)
        fun p hp hq pre => C78_torn_dump_partial Γ hΓ hΓL n d vals ctx _ hd hb hl h pre p hp hq m⟩) start dirty hs
  refine ⟨m₀, fun m hm => ?_⟩
  obtain ⟨kept, codes, out, h2, h3, h4⟩ := h1 m hm
  exact ⟨kept, h2, by rw [h4]; exact recordedAll_kept h3⟩

/-- **C113** The same with `file.write(record.to_bytes())` in place of `record.to_stream(file)`; then records that cannot be dumped do no harm
either. -/
theorem C113_journal_bytes {σ : Type} (k : JournalFile σ) (content : σ → Bytes) (hk : Journaling k content) (Γ : Classes)
    (hΓ : ∀ c d, Γ c = some d → OptionalSchema Γ d) (hΓL : ∀ c d, Γ c = some d → Limited Γ d) (n : Nat) (d : StructDesc) (ctx : Value)
    (hd : OptionalSchema Γ d) (hl : Limited Γ d) (vals₀ : Dict) (bs₀ : Bytes) (hb₀ : Bears Γ d vals₀)
    (h₀ : structToStream Γ (n + 1) d vals₀ ctx = (bs₀, .ok ())) (hne : bs₀ ≠ []) (history : List JournalEvent)
    (hrec : ∀ vals, .append vals ∈ history → Bears Γ d vals) (start : σ) (dirty : Bool) (hs : content start = []) :
    ∃ m₀, ∀ m, m₀ ≤ m → ∃ kept, KeptIn (journalRun k content Γ m d ctx (putBytes k.toSink Γ (n + 1) d ctx) history start dirty).1 kept ∧
      AllRestoredKept Γ n (kept.map fun vals => (d, vals))
        (journalRecords Γ m d ctx (content (journalRun k content Γ m d ctx (putBytes k.toSink Γ (n + 1) d ctx) history start dirty).2)).1 := by
  obtain ⟨m₀, h1⟩ := journal_core (good := fun vals _ r => RestoredKept Γ n d vals r) hk
    (fun m => ⟨bs₀, List.nil_prefix, hne.symm, fun p hp hq pre => C78_torn_dump_partial Γ hΓ hΓL n d vals₀ ctx bs₀ hd hb₀ hl h₀ pre p hp hq m⟩)
    history (put := putBytes k.toSink Γ (n + 1) d ctx) (fun vals hv => by
      have hb := hrec vals hv
      rcases hdump : structToStream Γ (n + 1) d vals ctx with ⟨bs, res⟩
      cases res with
      | error e => exact ⟨0, fun m _ => putBytes_puts hk.write fun bs' h => by rw [hdump] at h; cases h⟩
      | ok u =>
        cases u
        obtain ⟨m₀, r, h2⟩ := optional_recorded hΓ hd hb hdump
        refine ⟨m₀, fun m hm => putBytes_puts hk.write fun bs' h => ?_⟩
        rw [hdump] at h
        cases h
        exact ⟨r, h2 m hm, fun p hp hq pre => C78_torn_dump_partial Γ hΓ hΓL n d vals ctx bs hd hb hl hdump pre p hp hq m⟩) start dirty hs
  refine ⟨m₀, fun m hm => ?_⟩
  obtain ⟨kept, codes, out, h2, h3, h4⟩ := h1 m hm
  exact ⟨kept, h2, by rw [h4]; exact recordedAll_kept h3⟩

/-- **C113** The same for classes all of whose fields are always there; here counts may be taken from computed fields as well. -/
theorem C113_plain_journal {σ : Type} (k : JournalFile σ) (content : σ → Bytes) (hk : Journaling k content) (Γ : Classes)
    (hΓ : ∀ c d, Γ c = some d → Schema Γ d) (hΓL : ∀ c d, Γ c = some d → Limited Γ d) (n : Nat) (d : StructDesc) (ctx : Value)
    (hl : Limited Γ d) (vals₀ : Dict) (bs₀ : Bytes) (hp₀ : PlainInstance Γ d vals₀)
    (h₀ : structToStream Γ (n + 1) d vals₀ ctx = (bs₀, .ok ())) (hne : bs₀ ≠ []) (history : List JournalEvent)
    (hrec : ∀ vals, .append vals ∈ history → PlainInstance Γ d vals ∧ (structToStream Γ (n + 1) d vals ctx).2 = .ok ())
    (start : σ) (dirty : Bool) (hs : content start = []) :
    ∃ m₀, ∀ m, m₀ ≤ m → ∃ kept, KeptIn (journalRun k content Γ m d ctx (putStream k.toSink Γ (n + 1) d ctx) history start dirty).1 kept ∧
      AllRestored Γ n (kept.map fun vals => (d, vals))
        (journalRecords Γ m d ctx (content (journalRun k content Γ m d ctx (putStream k.toSink Γ (n + 1) d ctx) history start dirty).2)).1 := by
  obtain ⟨m₀, h1⟩ := journal_core (good := fun vals _ r => Restored Γ n d vals r) hk
    (fun m => ⟨bs₀, List.nil_prefix, hne.symm, fun p hp hq pre => C78_torn_dump_plain_partial Γ hΓ hΓL n d vals₀ ctx bs₀ hp₀ hl h₀ pre p hp hq m⟩)
    history (fun vals hv => by
      obtain ⟨hb, ho⟩ := hrec vals hv
      have h : structToStream Γ (n + 1) d vals ctx = ((structToStream Γ (n + 1) d vals ctx).1, .ok ()) := by rw [← ho]
      obtain ⟨m₀, r, h2⟩ := plain_recorded hΓ hb h
      exact ⟨m₀, fun m hm => putStream_puts hk.write h (h2 m hm)
        fun p hp hq pre => C78_torn_dump_plain_partial Γ hΓ hΓL n d vals ctx _ hb hl h pre p hp hq m⟩) start dirty hs
  refine ⟨m₀, fun m hm => ?_⟩
  obtain ⟨kept, codes, out, h2, h3, h4⟩ := h1 m hm
  exact ⟨kept, h2, by rw [h4]; exact recordedAll_restored h3⟩

/-! ### Examples -/

theorem goodJournal_journaling : Journaling goodJournal id where
  write chunk _ := ⟨chunk, List.prefix_refl _, rfl, fun _ => rfl⟩
  truncate size _ := ⟨size, Nat.le_refl _, rfl, fun _ => rfl⟩

theorem failingJournal_journaling : Journaling failingJournal Prod.snd where
  write chunk s := by
    obtain ⟨rooms, data⟩ := s
    cases rooms with
    | nil => exact ⟨chunk, List.prefix_refl _, rfl, fun _ => rfl⟩
    | cons room rooms =>
      by_cases h : chunk.length ≤ room
      · exact ⟨chunk, List.prefix_refl _, by simp [failingJournal, h], fun _ => rfl⟩
      · exact ⟨chunk.take room, List.take_prefix _ _, by simp [failingJournal, h], fun hc => by simp [failingJournal, h] at hc⟩
  truncate size _ := ⟨size, Nat.le_refl _, rfl, fun _ => rfl⟩

/-- ```
class Note(Struct):
    n = UInt8()
    text = Bytes(size=n)
``` -/
def Sample.note : StructDesc :=
  { name := "Note", components := [Sample.u8 "n", Sample.bytesRef "text" "n"], fieldValidators := [("n", []), ("text", [])], numOwnFields := 2 }

theorem Sample.note_schema : OptionalSchema Sample.noClasses Sample.note where
  unique := by unfold UniqueNames; decide
  checks := unchecked_impartial (by decide) (by simp [Sample.note, Sample.u8, Sample.bytesRef, Field.base]) rfl (by unfold UniqueNames; decide)
  fields := by
    refine optional_fields_of_index fun i hi => ?_
    match i, hi with
    | 0, _ => exact optional_field_plain (.integer (n := 1) rfl (by decide)) ⟨fun _ _ _ => rfl, rfl⟩ rfl rfl rfl rfl
    | 1, _ => exact optional_field_plain (.bytes (Or.inr ⟨"n", by decide, rfl⟩)) ⟨fun _ _ _ => rfl, rfl⟩ rfl rfl rfl rfl

theorem Sample.note_limited : Limited Sample.noClasses Sample.note := by
  constructor
  · intro f hf
    simp only [Sample.note, List.mem_cons, List.not_mem_nil, or_false] at hf
    rcases hf with rfl | rfl
    · exact .leaf (by intro n h; cases h; decide)
    · exact .leaf (by intro n h; cases h)
  · intro f hf r hr g hg hgr
    simp only [Sample.note, List.mem_cons, List.not_mem_nil, or_false] at hf hg
    have hn : r = "n" := by
      rcases hf with rfl | rfl
      · cases hr; rename_i h; cases h
      · cases hr; rename_i h; cases h; rfl
    subst hn
    rcases hg with rfl | rfl
    · exact fun n s ctx loaded i t h => unsigned_loads_nonneg (by simp) h
    · exact absurd hgr (by decide)

theorem Sample.note_bears (n : Int) (text : Bytes) : Bears Sample.noClasses Sample.note [("n", .int n), ("text", .bytes text)] where
  inst := ⟨by simp [Dict.keys], by
    simp [Dict.keys, names, Sample.note, Sample.bytesRef, Sample.u8, Field.name, Field.base]⟩
  absent := by
    intro f hf h
    simp only [Sample.note, List.mem_cons, List.not_mem_nil, or_false] at hf
    rcases hf with rfl | rfl <;> cases h
  fits := by
    intro f hf w hw _
    simp only [Sample.note, List.mem_cons, List.not_mem_nil, or_false] at hf
    rcases hf with rfl | rfl <;> cases hw <;> exact .leaf trivial (Or.inl rfl) (Or.inl rfl)

-- three records; the disk fails in the second
example : journalRun failingJournal Prod.snd Sample.noClasses 4 Sample.note .none (putStream failingJournal.toSink Sample.noClasses 3 Sample.note .none)
      [.append [("n", .int 2), ("text", .bytes [7, 8])], .append [("n", .int 3), ("text", .bytes [1, 2, 3])],
        .append [("n", .int 1), ("text", .bytes [9])]] ([5], []) false =
    ([(.append [("n", .int 2), ("text", .bytes [7, 8])], .ok ()),
      (.append [("n", .int 3), ("text", .bytes [1, 2, 3])], .error (.user "EIO")),
      (.append [("n", .int 1), ("text", .bytes [9])], .ok ())], [], [2, 7, 8, 1, 9]) := by rfl

-- the theorem, for disks that fail wherever they like
example (rooms : List Nat) : ∃ m₀, ∀ m, m₀ ≤ m → ∃ kept,
    KeptIn (journalRun failingJournal Prod.snd Sample.noClasses m Sample.note .none (putStream failingJournal.toSink Sample.noClasses 3 Sample.note .none)
      [.append [("n", .int 2), ("text", .bytes [7, 8])], .restart, .append [("n", .int 1), ("text", .bytes [9])]] (rooms, []) true).1 kept ∧
    AllRestoredKept Sample.noClasses 2 (kept.map fun vals => (Sample.note, vals))
      (journalRecords Sample.noClasses m Sample.note .none
        (journalRun failingJournal Prod.snd Sample.noClasses m Sample.note .none (putStream failingJournal.toSink Sample.noClasses 3 Sample.note .none)
          [.append [("n", .int 2), ("text", .bytes [7, 8])], .restart, .append [("n", .int 1), ("text", .bytes [9])]] (rooms, []) true).2.2).1 :=
  C113_journal failingJournal Prod.snd failingJournal_journaling Sample.noClasses (by simp [Sample.noClasses]) (by simp [Sample.noClasses]) 2
    Sample.note .none Sample.note_schema Sample.note_limited [("n", .int 0), ("text", .bytes [])] [0] (Sample.note_bears 0 []) (by decide) (by decide) _
    (by intro vals hv
        simp only [List.mem_cons, List.not_mem_nil, or_false, JournalEvent.append.injEq, reduceCtorEq, false_or] at hv
        rcases hv with rfl | rfl
        · exact ⟨Sample.note_bears _ _, by decide⟩
        · exact ⟨Sample.note_bears _ _, by decide⟩)
    (rooms, []) true rfl

-- with `to_bytes`, and a record that cannot be dumped
example (rooms : List Nat) : ∃ m₀, ∀ m, m₀ ≤ m → ∃ kept,
    KeptIn (journalRun failingJournal Prod.snd Sample.noClasses m Sample.note .none (putBytes failingJournal.toSink Sample.noClasses 3 Sample.note .none)
      [.append [("n", .int 0), ("text", .bytes [5])], .append [("n", .int 1), ("text", .bytes [9])]] (rooms, []) true).1 kept ∧
    AllRestoredKept Sample.noClasses 2 (kept.map fun vals => (Sample.note, vals))
      (journalRecords Sample.noClasses m Sample.note .none
        (journalRun failingJournal Prod.snd Sample.noClasses m Sample.note .none (putBytes failingJournal.toSink Sample.noClasses 3 Sample.note .none)
          [.append [("n", .int 0), ("text", .bytes [5])], .append [("n", .int 1), ("text", .bytes [9])]] (rooms, []) true).2.2).1 :=
  C113_journal_bytes failingJournal Prod.snd failingJournal_journaling Sample.noClasses (by simp [Sample.noClasses]) (by simp [Sample.noClasses]) 2
    Sample.note .none Sample.note_schema Sample.note_limited [("n", .int 0), ("text", .bytes [])] [0] (Sample.note_bears 0 []) (by decide) (by decide) _
    (by intro vals hv
        simp only [List.mem_cons, List.not_mem_nil, or_false, JournalEvent.append.injEq] at hv
        rcases hv with rfl | rfl <;> exact Sample.note_bears _ _)
    (rooms, []) true rfl

theorem Sample.tree_limited : Limited Sample.treeClasses Sample.tree := by
  constructor
  · intro f hf
    simp only [Sample.tree, List.mem_cons, List.not_mem_nil, or_false] at hf
    rcases hf with rfl | rfl | rfl
    · exact .leaf (by intro n h; cases h; decide)
    · exact .leaf (by intro n h; cases h; decide)
    · exact .array (.inl (by simp)) .nested
  · intro f hf r hr
    simp only [Sample.tree, List.mem_cons, List.not_mem_nil, or_false] at hf
    rcases hf with rfl | rfl | rfl <;> cases hr <;> rename_i h <;> cases h

-- trees: the class contains itself
example (rooms : List Nat) : ∃ m₀, ∀ m, m₀ ≤ m → ∃ kept,
    KeptIn (journalRun failingJournal Prod.snd Sample.treeClasses m Sample.tree .none
      (putStream failingJournal.toSink Sample.treeClasses 9 Sample.tree .none) [.append Sample.bigTree, .append Sample.bigTree] (rooms, []) true).1 kept ∧
    AllRestored Sample.treeClasses 8 (kept.map fun vals => (Sample.tree, vals))
      (journalRecords Sample.treeClasses m Sample.tree .none
        (journalRun failingJournal Prod.snd Sample.treeClasses m Sample.tree .none
          (putStream failingJournal.toSink Sample.treeClasses 9 Sample.tree .none) [.append Sample.bigTree, .append Sample.bigTree] (rooms, []) true).2.2).1 :=
  C113_plain_journal failingJournal Prod.snd failingJournal_journaling Sample.treeClasses Sample.treeClasses_schema
    (by intro c d hc
        simp only [Sample.treeClasses, Classes.add] at hc
        split at hc
        · cases hc; exact Sample.tree_limited
        · simp [Sample.noClasses] at hc)
    8 Sample.tree .none Sample.tree_limited Sample.bigTree [0, 1, 2, 1, 44, 0, 0, 7, 1, 0, 5, 0] Sample.bigTree_plain (by decide) (by decide) _
    (by intro vals hv
        simp only [List.mem_cons, List.not_mem_nil, or_false, JournalEvent.append.injEq, or_self] at hv
        subst hv
        exact ⟨Sample.bigTree_plain, by decide⟩)
    (rooms, []) true rfl

/-- **C113** refuted if records that cannot be dumped are given to `to_stream`: the disk has no errors, the append raises `ValueSizeError`, the
program starts again and cleans up; and then there is a record in the journal that nobody wrote, made of the bytes that were written before the
error. -/
theorem C113_undumpable_refuted :
    ∃ (d : StructDesc) (vals ghost : Dict) (e : Err), OptionalSchema Sample.noClasses d ∧ Limited Sample.noClasses d ∧
      Bears Sample.noClasses d vals ∧ Dict.get? vals "text" ≠ Dict.get? ghost "text" ∧
      journalRun goodJournal id Sample.noClasses 4 d .none (putStream goodJournal.toSink Sample.noClasses 3 d .none)
        [.append vals, .restart, .append [("n", .int 1), ("text", .bytes [9])]] [] false =
        ([(.append vals, .error e), (.restart, .ok ()), (.append [("n", .int 1), ("text", .bytes [9])], .ok ())], [0, 1, 9]) ∧
      (journalRecords Sample.noClasses 4 d .none [0, 1, 9]).1 = [ghost, [("n", .int 1), ("text", .bytes [9])]] :=
  ⟨Sample.note, [("n", .int 0), ("text", .bytes [5])], [("n", .int 0), ("text", .bytes [])], .valueSize "text", Sample.note_schema,
    Sample.note_limited, Sample.note_bears _ _, by decide, rfl, by decide⟩

end Verif
