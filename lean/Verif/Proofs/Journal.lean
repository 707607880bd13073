import Verif.Spec.Journal

/-!
# Lemmas about journals

Helper lemmas for C113.
-/

namespace Verif
open Spec

/-- `vals` is dumped as `bs`, and these bytes are loaded, wherever they are, as `r`. -/
def Recorded (Γ : Classes) (m : Nat) (d : StructDesc) (ctx : Value) (good : Dict → Bytes → Dict → Prop) (vals : Dict) (bs : Bytes) (r : Dict) : Prop :=
  good vals bs r ∧ ∀ pre rest, structFromStream Γ m d ⟨pre ++ bs ++ rest, pre.length⟩ ctx [] = (.ok r, ⟨pre ++ bs ++ rest, pre.length + bs.length⟩)

/-- The records of a journal: what was dumped, the bytes, and what is loaded. -/
inductive RecordedAll (Γ : Classes) (m : Nat) (d : StructDesc) (ctx : Value) (good : Dict → Bytes → Dict → Prop) :
    List Dict → List Bytes → List Dict → Prop where
  | nil : RecordedAll Γ m d ctx good [] [] []
  | cons {vals bs r kept codes out} : Recorded Γ m d ctx good vals bs r → RecordedAll Γ m d ctx good kept codes out →
      RecordedAll Γ m d ctx good (vals :: kept) (bs :: codes) (r :: out)

theorem RecordedAll.append {Γ : Classes} {m : Nat} {d : StructDesc} {ctx : Value} {good : Dict → Bytes → Dict → Prop}
    {k1 k2 : List Dict} {c1 c2 : List Bytes} {o1 o2 : List Dict} (h1 : RecordedAll Γ m d ctx good k1 c1 o1)
    (h2 : RecordedAll Γ m d ctx good k2 c2 o2) : RecordedAll Γ m d ctx good (k1 ++ k2) (c1 ++ c2) (o1 ++ o2) := by
  induction h1 with
  | nil => exact h2
  | cons h _ ih => exact .cons h ih

/-- The beginning of a record, but not all of it. -/
def TornOff (Γ : Classes) (m : Nat) (d : StructDesc) (ctx : Value) (tail : Bytes) : Prop :=
  ∃ bs, tail <+: bs ∧ tail ≠ bs ∧ ∀ p, p <+: bs → p ≠ bs → ∀ pre, ∃ e, (structFromStream Γ m d ⟨pre ++ p, pre.length⟩ ctx []).1 = .error e

theorem TornOff.fails {Γ : Classes} {m : Nat} {d : StructDesc} {ctx : Value} {tail : Bytes} (h : TornOff Γ m d ctx tail) (pre : Bytes) :
    ∃ e, (structFromStream Γ m d ⟨pre ++ tail, pre.length⟩ ctx []).1 = .error e := by
  obtain ⟨bs, h1, h2, h3⟩ := h
  exact h3 tail h1 h2 pre

theorem TornOff.take {Γ : Classes} {m : Nat} {d : StructDesc} {ctx : Value} {tail : Bytes} (h : TornOff Γ m d ctx tail) (j : Nat) :
    TornOff Γ m d ctx (tail.take j) := by
  obtain ⟨bs, h1, h2, h3⟩ := h
  refine ⟨bs, (List.take_prefix j tail).trans h1, ?_, h3⟩
  intro he
  apply h2
  have h4 : bs.length ≤ tail.length := by rw [← he]; simp
  exact h1.eq_of_length (Nat.le_antisymm h1.length_le h4)

/-- No record is empty, if nothing can be loaded where there is nothing. -/
theorem recorded_ne {Γ : Classes} {m : Nat} {d : StructDesc} {ctx : Value} {good : Dict → Bytes → Dict → Prop} {vals : Dict} {bs : Bytes}
    {r : Dict} (h : Recorded Γ m d ctx good vals bs r) (h0 : TornOff Γ m d ctx []) : bs ≠ [] := by
  rintro rfl
  obtain ⟨e, he⟩ := h0.fails []
  have := h.2 [] []
  simp only [List.append_nil] at he this
  rw [this] at he
  cases he

theorem RecordedAll.length_le {Γ : Classes} {m : Nat} {d : StructDesc} {ctx : Value} {good : Dict → Bytes → Dict → Prop}
    {kept : List Dict} {codes : List Bytes} {out : List Dict} (h : RecordedAll Γ m d ctx good kept codes out) (h0 : TornOff Γ m d ctx []) :
    codes.length ≤ codes.flatten.length := by
  induction h with
  | nil => simp
  | cons hr _ ih =>
    have := List.length_pos_iff.mpr (recorded_ne hr h0)
    simp only [List.length_cons, List.flatten_cons, List.length_append]
    omega

theorem scanRecords_all {Γ : Classes} {m : Nat} {d : StructDesc} {ctx : Value} {good : Dict → Bytes → Dict → Prop} {kept : List Dict}
    {codes : List Bytes} {out : List Dict} (h : RecordedAll Γ m d ctx good kept codes out) {tail : Bytes} (ht : TornOff Γ m d ctx tail)
    (k : Nat) (hk : codes.length < k) (pre : Bytes) :
    scanRecords Γ m d ctx k ⟨pre ++ codes.flatten ++ tail, pre.length⟩ = (out, pre.length + codes.flatten.length) := by
  induction h generalizing k pre with
  | nil =>
    obtain ⟨k, rfl⟩ : ∃ j, k = j + 1 := ⟨k - 1, by simp at hk; omega⟩
    obtain ⟨e, he⟩ := ht.fails pre
    simp only [List.flatten_nil, List.append_nil, scanRecords, List.length_nil, Nat.add_zero]
    rcases hs : structFromStream Γ m d ⟨pre ++ tail, pre.length⟩ ctx [] with ⟨r, t⟩
    rw [hs] at he
    simp only at he
    subst he
    rfl
  | @cons vals bs r kept codes out hr _ ih =>
    obtain ⟨k, rfl⟩ : ∃ j, k = j + 1 := ⟨k - 1, by simp at hk; omega⟩
    have e1 : pre ++ (bs :: codes).flatten ++ tail = pre ++ bs ++ (codes.flatten ++ tail) := by simp
    have e2 : pre ++ bs ++ (codes.flatten ++ tail) = (pre ++ bs) ++ codes.flatten ++ tail := by simp
    have h1 := hr.2 pre (codes.flatten ++ tail)
    have h2 := ih k (by simp at hk; omega) (pre ++ bs)
    rw [← e2, List.length_append] at h2
    rw [e1]
    simp only [scanRecords, h1, h2]
    simp [Nat.add_assoc]

theorem journalRecords_all {Γ : Classes} {m : Nat} {d : StructDesc} {ctx : Value} {good : Dict → Bytes → Dict → Prop} {kept : List Dict}
    {codes : List Bytes} {out : List Dict} (h : RecordedAll Γ m d ctx good kept codes out) {tail : Bytes} (ht : TornOff Γ m d ctx tail)
    (h0 : TornOff Γ m d ctx []) : journalRecords Γ m d ctx (codes.flatten ++ tail) = (out, codes.flatten.length) := by
  have := scanRecords_all h ht ((codes.flatten ++ tail).length + 1) (by have := h.length_le h0; rw [List.length_append]; omega) []
  simpa [journalRecords] using this

/-- What `put` may do to the file: add the bytes of the record, or raise and add the beginning of them, or raise and add nothing. -/
def PutsRecord {σ : Type} (content : σ → Bytes) (Γ : Classes) (m : Nat) (d : StructDesc) (ctx : Value) (good : Dict → Bytes → Dict → Prop)
    (put : Dict → σ → Except Err Unit × σ) (vals : Dict) : Prop :=
  (∃ bs r, Recorded Γ m d ctx good vals bs r ∧
    (∀ p, p <+: bs → p ≠ bs → ∀ pre, ∃ e, (structFromStream Γ m d ⟨pre ++ p, pre.length⟩ ctx []).1 = .error e) ∧
    ∀ s, ∃ p, p <+: bs ∧ content (put vals s).2 = content s ++ p ∧ ((put vals s).1 = .ok () → p = bs)) ∨
  ∀ s, content (put vals s).2 = content s ∧ ∃ e, (put vals s).1 = .error e

/-- The file holds whole records, and behind them at most the beginning of one (nothing, if the last append returned). -/
theorem journalRun_all {σ : Type} {k : JournalFile σ} {content : σ → Bytes} (hk : Journaling k content) {Γ : Classes} {m : Nat} {d : StructDesc}
    {ctx : Value} {good : Dict → Bytes → Dict → Prop} {put : Dict → σ → Except Err Unit × σ} (h0 : TornOff Γ m d ctx [])
    (es : List JournalEvent) (hput : ∀ vals, .append vals ∈ es → PutsRecord content Γ m d ctx good put vals) (s : σ) (dirty : Bool)
    (before : List Dict) (codes : List Bytes) (out : List Dict) (tail : Bytes) (hb : RecordedAll Γ m d ctx good before codes out)
    (ht : TornOff Γ m d ctx tail) (hd : dirty = false → tail = []) (hs : content s = codes.flatten ++ tail) :
    ∃ kept codes' out' tail', KeptIn (journalRun k content Γ m d ctx put es s dirty).1 kept ∧
      RecordedAll Γ m d ctx good (before ++ kept) (codes ++ codes') (out ++ out') ∧ TornOff Γ m d ctx tail' ∧
      content (journalRun k content Γ m d ctx put es s dirty).2 = (codes ++ codes').flatten ++ tail' := by
  induction es generalizing s dirty before codes out tail with
  | nil => exact ⟨[], [], [], tail, .nil, by simpa using hb, ht, by simpa [journalRun] using hs⟩
  | cons e es ih =>
    have ih := ih (fun vals hv => hput vals (by simp [hv]))
    cases e with
    | restart =>
      obtain ⟨kept, codes', out', tail', h1, h2, h3, h4⟩ := ih s true before codes out tail hb ht (by simp) hs
      exact ⟨kept, codes', out', tail', .restart h1, h2, h3, h4⟩
    | append vals =>
      have hp := hput vals (by simp)
      -- after the file has been truncated
      have hcut : ∃ tail₁, TornOff Γ m d ctx tail₁ ∧
          content (if dirty then k.truncate (journalRecords Γ m d ctx (content s)).2 s else (.ok (), s)).2 = codes.flatten ++ tail₁ ∧
          ((if dirty then k.truncate (journalRecords Γ m d ctx (content s)).2 s else (.ok (), s)).1 = .ok () → tail₁ = []) := by
        cases dirty with
        | false => exact ⟨tail, ht, by simpa using hs, fun _ => hd rfl⟩
        | true =>
          simp only [if_true]
          rw [hs, journalRecords_all hb ht h0]
          obtain ⟨j, h1, h2, h3⟩ := hk.truncate codes.flatten.length s
          refine ⟨tail.take (j - codes.flatten.length), ht.take _, ?_, ?_⟩
          · rw [h2, hs, List.take_append, List.take_of_length_le h1]
          · intro hok; rw [h3 hok]; simp
      simp only [journalRun]
      rcases hc : (if dirty then k.truncate (journalRecords Γ m d ctx (content s)).2 s else (.ok (), s)) with ⟨rc, s₁⟩
      rw [hc] at hcut
      obtain ⟨tail₁, t1, t2, t3⟩ := hcut
      simp only at t2 t3
      cases rc with
      | error e =>
        have hj : journalAppend k content Γ m d ctx put vals s dirty = (.error e, s₁, true) := by
          unfold journalAppend; rw [hc]
        rw [hj]
        obtain ⟨kept, codes', out', tail', h1, h2, h3, h4⟩ := ih s₁ true before codes out tail₁ hb t1 (by simp) t2
        exact ⟨kept, codes', out', tail', .lost h1, h2, h3, h4⟩
      | ok u =>
        cases u
        rw [t3 rfl, List.append_nil] at t2
        rcases hq : put vals s₁ with ⟨rq, s₂⟩
        cases rq with
        | error e =>
          have hj : journalAppend k content Γ m d ctx put vals s dirty = (.error e, s₂, true) := by
            unfold journalAppend; rw [hc]; simp only [hq]
          rw [hj]
          rcases hp with ⟨bs, r, p1, p2, p3⟩ | hp
          · obtain ⟨p, p4, p5, -⟩ := p3 s₁
            rw [hq] at p5
            simp only at p5
            by_cases hpb : p = bs
            · subst hpb
              obtain ⟨kept, codes', out', tail', h1, h2, h3, h4⟩ :=
                ih s₂ true (before ++ [vals]) (codes ++ [p]) (out ++ [r]) [] (hb.append (.cons p1 .nil)) h0 (by simp) (by simp [p5, t2])
              refine ⟨vals :: kept, p :: codes', r :: out', tail', .raisedAfterwards h1, ?_, h3, ?_⟩
              · simpa using h2
              · simpa using h4
            · obtain ⟨kept, codes', out', tail', h1, h2, h3, h4⟩ :=
                ih s₂ true before codes out p hb ⟨bs, p4, hpb, p2⟩ (by simp) (by rw [p5, t2])
              exact ⟨kept, codes', out', tail', .lost h1, h2, h3, h4⟩
          · obtain ⟨p1, -⟩ := hp s₁
            rw [hq] at p1
            obtain ⟨kept, codes', out', tail', h1, h2, h3, h4⟩ :=
              ih s₂ true before codes out [] hb h0 (by simp) (by simp only at p1; rw [p1, t2]; simp)
            exact ⟨kept, codes', out', tail', .lost h1, h2, h3, h4⟩
        | ok u =>
          cases u
          have hj : journalAppend k content Γ m d ctx put vals s dirty = (.ok (), s₂, false) := by
            unfold journalAppend; rw [hc]; simp only [hq]
          rw [hj]
          rcases hp with ⟨bs, r, p1, p2, p3⟩ | hp
          · obtain ⟨p, p4, p5, p6⟩ := p3 s₁
            rw [hq] at p5 p6
            have := p6 rfl
            subst this
            simp only at p5
            obtain ⟨kept, codes', out', tail', h1, h2, h3, h4⟩ :=
              ih s₂ false (before ++ [vals]) (codes ++ [p]) (out ++ [r]) [] (hb.append (.cons p1 .nil)) h0 (by simp) (by simp [p5, t2])
            refine ⟨vals :: kept, p :: codes', r :: out', tail', .returned h1, ?_, h3, ?_⟩
            · simpa using h2
            · simpa using h4
          · obtain ⟨-, e, p1⟩ := hp s₁
            rw [hq] at p1
            cases p1

end Verif
