import Verif.Props.Container
import Verif.Proofs.Sentinel
import Verif.Props.IntCodec

/-!
# Arrays that end at a sentinel

C79.
-/

namespace Verif
open Spec

/-- Dumping and loading a list that ends at its first sentinel. -/
theorem sentinel_parts {Γ : Classes} {n : Nat} {b : FieldBase} {comp : Field} {count : Count} {halt : HaltCheck}
    {isEnd : Value → Bool} {final : List Value → List Value} {l : List Value} {last ctx : Value} {all loaded : Dict}
    (hstop : ∀ s values, Ended isEnd values → halt s values ctx loaded = .ok (true, final values))
    (hgo : ∀ s values, ¬ Ended isEnd values → halt s values ctx loaded = .ok (false, values))
    (hel : ∀ v ∈ l ++ [last], v ≠ .notPresent ∧ RoundTrip Γ n comp v ctx all loaded) (hl : ∀ v ∈ l, isEnd v = false)
    (hlast : isEnd last = true) (hcount : count = .none ∨ CountIs count all (l.length + 1))
    (hv : ∀ c ∈ b.validators, c (.list (l ++ [last])) = .ok ()) (hb : Plain b (.list (final (l ++ [last])))) (hsize : b.size = .none) :
    ∃ bs, fieldToStream Γ (n + l.length + 3) (.array b comp count (some halt)) (.list (l ++ [last])) ctx all = (bs, .ok ()) ∧
      ∀ pre rest, fieldFromStream Γ (n + l.length + 3) (.array b comp count (some halt)) ⟨pre ++ bs ++ rest, pre.length⟩ ctx loaded =
        (.ok (.list (final (l ++ [last]))), ⟨pre ++ bs ++ rest, pre.length + bs.length⟩) := by
  have hel' : ∀ v ∈ l ++ [last], RoundTrip Γ (n + l.length + 1) comp v ctx all loaded := fun v hv => (hel v hv).2.mono (by omega)
  obtain ⟨ps, h1, h2, h3⟩ := roundTrips_parts hel'
  refine ⟨ps.flatten, ?_, ?_⟩
  · apply fieldToStream_of_le (n := n + l.length + 2) (by omega)
    apply fieldToStream_plain (f := .array b comp count (some halt)) (by simp) (by simp) (by simp) hv (Or.inl hsize)
    rcases hcount with rfl | hc
    · simp only [fieldDoDump, containerDump, arrayDump, finalElementCount, arrayElements]
      exact h2
    · simp only [fieldDoDump, containerDump, arrayDump, finalElementCount_of hc, arrayElements]
      simpa using h2
  · intro pre rest
    apply fieldFromStream_plain (f := .array b comp count (some halt)) hb
    rw [fieldDoLoad_array]
    have key := arrayLoop_until (isEnd := isEnd) (halt := haltCheck b.name count (some halt) ctx loaded)
      (load := fun s => fieldFromStream Γ (n + l.length + 1) comp s ctx loaded) (l := l ++ [last]) (ps := ps) (acc := []) (pre := pre)
      (rest := rest) (fuel := n) hgo h1
      (fun i hi hi' => ⟨(hel _ (List.getElem_mem hi)).1, (h3 i hi hi').2⟩) not_ended_nil (by simpa using hl)
    have e : n + (l ++ [last]).length = n + l.length + 1 := by simp; omega
    rw [e] at key
    rw [key]
    unfold arrayLoop
    have := hstop ⟨pre ++ ps.flatten ++ rest, pre.length + ps.flatten.length⟩ (l ++ [last]) (ended_concat.2 hlast)
    simp only [haltCheck, List.nil_append, this, R.map, Except.map]

/-- **C79** (sentinel kept) If every element round-trips through the component and only the last one is a sentinel, the list round-trips
through an array whose `halt_check` stops at the sentinel, whatever follows it in the stream. -/
theorem C79_sentinel_round_trip (Γ : Classes) (n : Nat) (b : FieldBase) (comp : Field) (halt : HaltCheck) (isEnd : Value → Bool)
    (l : List Value) (last ctx : Value) (all loaded : Dict) (hstop : StopsAt isEnd halt)
    (hel : ∀ v ∈ l ++ [last], v ≠ .notPresent ∧ RoundTrip Γ n comp v ctx all loaded) (hl : ∀ v ∈ l, isEnd v = false)
    (hlast : isEnd last = true) (hb : Plain b (.list (l ++ [last]))) (hsize : b.size = .none) :
    RoundTrip Γ (n + l.length + 3) (.array b comp .none (some halt)) (.list (l ++ [last])) ctx all loaded :=
  sentinel_parts (final := id) (fun s values => (hstop s values ctx loaded).1) (fun s values => (hstop s values ctx loaded).2)
    hel hl hlast (.inl rfl) hb.2.2.2 hb hsize

/-- **C79** (sentinel removed) With a `halt_check` that removes the sentinel, what is dumped with the sentinel at its end is loaded without
it, and the stream is left behind the sentinel. -/
theorem C79_sentinel_removed (Γ : Classes) (n : Nat) (b : FieldBase) (comp : Field) (halt : HaltCheck) (isEnd : Value → Bool)
    (l : List Value) (last ctx : Value) (all loaded : Dict) (hstop : StopsBefore isEnd halt)
    (hel : ∀ v ∈ l ++ [last], v ≠ .notPresent ∧ RoundTrip Γ n comp v ctx all loaded) (hl : ∀ v ∈ l, isEnd v = false)
    (hlast : isEnd last = true) (hv : ∀ c ∈ b.validators, c (.list (l ++ [last])) = .ok ()) (hb : Plain b (.list l))
    (hsize : b.size = .none) :
    ∃ bs, fieldToStream Γ (n + l.length + 3) (.array b comp .none (some halt)) (.list (l ++ [last])) ctx all = (bs, .ok ()) ∧
      ∀ pre rest, fieldFromStream Γ (n + l.length + 3) (.array b comp .none (some halt)) ⟨pre ++ bs ++ rest, pre.length⟩ ctx loaded =
        (.ok (.list l), ⟨pre ++ bs ++ rest, pre.length + bs.length⟩) := by
  have := sentinel_parts (b := b) (final := List.dropLast) (fun s values => (hstop s values ctx loaded).1)
    (fun s values => (hstop s values ctx loaded).2) hel hl hlast (.inl rfl) hv (by simpa using hb) hsize
  simpa using this

/-- **C79** (any input) Whatever the stream contains, a list that such an array loads ended with a sentinel, and none of its other elements
is one. -/
theorem C79_load_ends_at_sentinel (Γ : Classes) (n : Nat) (b : FieldBase) (comp : Field) (count : Count) (halt : HaltCheck)
    (isEnd : Value → Bool) (s s' : Stream) (ctx : Value) (loaded : Dict) (l : List Value) (hb : b.notPresentValue ≠ .list l)
    (h : fieldFromStream Γ (n + 2) (.array b comp count (some halt)) s ctx loaded = (.ok (.list l), s')) :
    (StopsAt isEnd halt → ∃ m v, l = m ++ [v] ∧ isEnd v = true ∧ ∀ w ∈ m, isEnd w = false) ∧
    (StopsBefore isEnd halt → ∀ w ∈ l, isEnd w = false) := by
  rcases fieldFromStream_ok h with ⟨-, h2, -⟩ | ⟨-, -, ⟨-, h2, -⟩ | ⟨w, h1, h2⟩⟩
  · exact absurd h2.symm hb
  · cases h2
  · rcases h2 with rfl | ⟨h2, -⟩
    · rw [fieldDoLoad_array] at h1
      rcases hl : arrayLoop (haltCheck b.name count (some halt) ctx loaded) (fun s => fieldFromStream Γ n comp s ctx loaded) n [] s
        with ⟨r, t⟩
      rw [hl] at h1
      cases r with
      | error e => simp [R.map, Except.map] at h1
      | ok k =>
        simp [R.map, Except.map] at h1
        obtain ⟨rfl, rfl⟩ := h1
        constructor
        · intro hstop
          exact arrayLoop_ended (final := id) (fun s values => (hstop s values ctx loaded).1)
            (fun s values => (hstop s values ctx loaded).2) hl (by simp)
        · intro hstop
          obtain ⟨m, v, h4, -, h5⟩ := arrayLoop_ended (final := List.dropLast) (fun s values => (hstop s values ctx loaded).1)
            (fun s values => (hstop s values ctx loaded).2) hl (by simp)
          simp at h4
          subst h4
          exact h5
    · cases h2

/-! ### Instances -/

theorem Sample.ended_zero {values : List Value} : Ended (fun v => decide (v = .int 0)) values ↔ values.getLast? = some (.int 0) := by
  constructor
  · rintro ⟨l, v, rfl, hv⟩
    simpa using hv
  · intro h
    obtain ⟨l, hl⟩ := List.getLast?_eq_some_iff.1 h
    exact ⟨l, _, hl, by simp⟩

theorem Sample.untilZero_stops : StopsAt (fun v => decide (v = .int 0)) Sample.untilZero := by
  intro s values ctx loaded
  rw [Sample.ended_zero]
  constructor <;> intro h <;> simp [Sample.untilZero, h]

theorem Sample.beforeZero_stops : StopsBefore (fun v => decide (v = .int 0)) Sample.beforeZero := by
  intro s values ctx loaded
  rw [Sample.ended_zero]
  constructor <;> intro h <;> simp [Sample.beforeZero, h]

theorem Sample.zero_terminated (l : List Nat) (hl : ∀ i ∈ l, 0 < i ∧ i < 65536) :
    (∀ v ∈ (l.map fun i : Nat => Value.int i) ++ [.int 0], v ≠ .notPresent ∧ RoundTrip Sample.noClasses 2 (Sample.u16 "") v .none [] []) ∧
    ∀ v ∈ (l.map fun i : Nat => Value.int i), decide (v = .int 0) = false := by
  constructor
  · intro v hv
    rw [List.mem_append] at hv
    rcases hv with hv | hv
    · obtain ⟨i, hi, rfl⟩ := List.mem_map.1 hv
      exact ⟨by simp, Sample.u16_roundTrip i (hl i hi).2⟩
    · simp at hv; subst hv
      exact ⟨by simp, Sample.u16_roundTrip 0 (by decide)⟩
  · intro v hv
    obtain ⟨i, hi, rfl⟩ := List.mem_map.1 hv
    have := (hl i hi).1
    simp; omega

example (l : List Nat) (hl : ∀ i ∈ l, 0 < i ∧ i < 65536) :
    RoundTrip Sample.noClasses (2 + (l.map fun i : Nat => Value.int i).length + 3) (Sample.haltArray "a" (Sample.u16 "") Sample.untilZero)
      (.list ((l.map fun i : Nat => Value.int i) ++ [.int 0])) .none [] [] :=
  C79_sentinel_round_trip _ 2 _ _ _ _ _ _ .none [] [] Sample.untilZero_stops (Sample.zero_terminated l hl).1 (Sample.zero_terminated l hl).2
    (by simp) ⟨fun _ _ _ => rfl, rfl, rfl, by simp⟩ rfl

example (l : List Nat) (hl : ∀ i ∈ l, 0 < i ∧ i < 65536) :=
  C79_sentinel_removed Sample.noClasses 2 { name := "a", typeName := "Array" } (Sample.u16 "") Sample.beforeZero
    (fun v => decide (v = .int 0)) (l.map fun i : Nat => .int i) (.int 0) .none [] []
    Sample.beforeZero_stops (Sample.zero_terminated l hl).1 (Sample.zero_terminated l hl).2 (by simp) (by simp)
    ⟨fun _ _ _ => rfl, rfl, rfl, by simp⟩ rfl

example : fieldFromStream Sample.noClasses 8 (Sample.haltArray "a" (Sample.u16 "") Sample.beforeZero) ⟨[0, 5, 0, 6, 0, 0, 0, 7], 0⟩ .none [] =
    (.ok (.list [.int 5, .int 6]), ⟨[0, 5, 0, 6, 0, 0, 0, 7], 6⟩) := by decide +kernel
example : (fieldFromStream Sample.noClasses 8 (Sample.haltArray "a" (Sample.u16 "") Sample.beforeZero) ⟨[0, 5, 0, 6], 0⟩ .none []).1 =
    .error (.eof (some "a") 2 4) := by decide +kernel

/-- **C79** (refuted: dumping what was loaded) With a `halt_check` that removes the sentinel, dumping the loaded list does not write the
sentinel again: the file changes, and loading the new file runs into whatever follows. -/
theorem C79_redump_refuted :
    ¬ ∀ (isEnd : Value → Bool) (halt : HaltCheck) (comp : Field) (data : Bytes) (v : Value) (bs : Bytes), StopsBefore isEnd halt →
      fieldFromStream Sample.noClasses 8 (Sample.haltArray "a" comp halt) ⟨data, 0⟩ .none [] = (.ok v, ⟨data, data.length⟩) →
      fieldToStream Sample.noClasses 8 (Sample.haltArray "a" comp halt) v .none [] = (bs, .ok ()) → bs = data := by
  intro h
  have := h _ _ (Sample.u8 "") [1, 2, 0] (.list [.int 1, .int 2]) [1, 2] Sample.beforeZero_stops (by decide +kernel) (by decide +kernel)
  simp at this

end Verif
