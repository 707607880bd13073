import Verif.Proofs.Container
import Verif.Props.Field

/-!
# Arrays, nested structs and unions

C39, C40, C41, C42, C43, C44.
-/

namespace Verif
open Spec

/-! ## C39: the element count -/

theorem arrayElements_of {v : Value} {elems : List Value} (h : Elements v elems) :
    ∃ sized, arrayElements v = some (sized, elems) ∧ (sized = true ↔ v = .list elems) ∧ v ≠ .dflt ∧ v ≠ .undefined ∧ v ≠ .none := by
  rcases h with rfl | rfl
  · exact ⟨true, rfl, by simp⟩
  · exact ⟨false, rfl, by simp⟩

/-- **C39** (dump, partial: count at least 0) If an array with an element count `k` dumps a list or an iterator, that has exactly `k`
elements, and the output is the concatenation of what the component writes for each of them. -/
theorem C39_dump_count_partial (Γ : Classes) (n : Nat) (b : FieldBase) (comp : Field) (count : Count)
    (halt : Option (Stream → List Value → Value → Dict → Except Err (Bool × List Value))) (v ctx : Value) (elems : List Value) (all : Dict)
    (k : Int) (bs : Bytes) (hk : 0 ≤ k) (hc : CountIs count all k) (he : Elements v elems)
    (h : fieldToStream Γ (n + 1) (.array b comp count halt) v ctx all = (bs, .ok ())) :
    (elems.length : Int) = k ∧ ∃ ps : List Bytes, bs = ps.flatten ∧ ps.length = elems.length ∧
      ∀ i (hi : i < elems.length) (hi' : i < ps.length), fieldToStream Γ n comp elems[i] ctx all = (ps[i], .ok ()) := by
  obtain ⟨sized, hel, -, h1, h2, h3⟩ := arrayElements_of he
  rw [fieldToStream_succ] at h
  obtain ⟨w, hw, -, -, -, h4⟩ := toStreamWith_ok h
  rw [if_neg h1] at hw
  simp at hw; subst hw
  rcases h4 with ⟨h4, -⟩ | ⟨-, ser, h5, h6⟩
  · exact absurd h4 h3
  · have hbs : bs = ser := by
      rcases finishDump_ok h6 with ⟨-, hh⟩ | ⟨k', -, ⟨-, hh⟩ | ⟨-, hh⟩⟩
      · exact hh
      · exact hh
      · simp [fieldAddPadding] at hh
    subst hbs
    simp only [fieldDoDump, containerDump, arrayDump, finalElementCount_of hc, hel] at h5
    have key : (elems.length : Int) = k ∧ dumpAll (fun v => fieldToStream Γ n comp v ctx all) elems = (bs, .ok ()) := by
      cases sized with
      | true =>
        simp only at h5
        split at h5
        · simp [W.fail] at h5
        · rename_i hne
          exact ⟨by simpa using hne, h5⟩
      | false =>
        simp only at h5
        have := dumpUnsized_ok (by simpa using hk) h5
        simpa using this
    obtain ⟨ps, h7, h8, h9⟩ := dumpAll_ok key.2
    exact ⟨key.1, ps, h8, h7, h9⟩

/-- **C39** (dump) A list with any other number of elements than the count — even a negative count — is rejected with `ArraySizeError`,
before anything is written. -/
theorem C39_dump_wrong_list (Γ : Classes) (n : Nat) (b : FieldBase) (comp : Field) (count : Count)
    (halt : Option (Stream → List Value → Value → Dict → Except Err (Bool × List Value))) (ctx : Value) (elems : List Value) (all : Dict)
    (k : Int) (hc : CountIs count all k) (hv : ∀ c ∈ b.validators, c (.list elems) = .ok ())
    (hk : (elems.length : Int) ≠ k) :
    fieldToStream Γ (n + 1) (.array b comp count halt) (.list elems) ctx all =
      ([], .error (.arraySize b.name k elems.length)) := by
  rw [fieldToStream_succ, toStreamWith_plain (b := (Field.array b comp count halt).base) (by simp) (by simp) (by simp) hv]
  simp only [fieldDoDump, containerDump, arrayDump, finalElementCount_of hc, arrayElements]
  rw [if_pos hk]
  rfl

/-- **C39** (dump, partial: count at least 0) An iterator with any other number of elements than the count is rejected: with `ArraySizeError`, unless
dumping one of its elements fails before that. -/
theorem C39_dump_wrong_iterator_partial (Γ : Classes) (n : Nat) (b : FieldBase) (comp : Field) (count : Count)
    (halt : Option (Stream → List Value → Value → Dict → Except Err (Bool × List Value))) (ctx : Value) (elems : List Value) (all : Dict)
    (k : Int) (hc : CountIs count all k) (hv : ∀ c ∈ b.validators, c (.iter elems) = .ok ()) (hk0 : 0 ≤ k)
    (hk : (elems.length : Int) ≠ k) :
    ∃ e, fieldToStream Γ (n + 1) (.array b comp count halt) (.iter elems) ctx all = ([], .error e) ∧
      ((∃ x y, e = .arraySize b.name x y) ∨ ∃ v ∈ elems, (fieldToStream Γ n comp v ctx all).2 = .error e) := by
  obtain ⟨e, h1, h2⟩ := dumpUnsized_bad (name := b.name) (g := fun v => fieldToStream Γ n comp v ctx all) (k := k)
    (l := elems) (i := 0) (by simpa using hk0) (by simpa using hk)
  refine ⟨e, ?_, h2⟩
  rw [fieldToStream_succ, toStreamWith_plain (b := (Field.array b comp count halt).base) (by simp) (by simp) (by simp) hv]
  simp only [fieldDoDump, containerDump, arrayDump, finalElementCount_of hc, arrayElements]
  have : (dumpUnsized b.name (fun v => fieldToStream Γ n comp v ctx all) (some k) 0 elems).toExcept = .error e := by
    simp [W.toExcept, h1]
  rw [this]
  rfl

/-- **C39** (load) An array with element count `k` that loads a list returns exactly `k` elements (none if `k` is negative).  It never returns
fewer. -/
theorem C39_load_count (Γ : Classes) (n : Nat) (b : FieldBase) (comp : Field) (count : Count) (s s' : Stream)
    (ctx v : Value) (loaded : Dict) (k : Int) (hc : CountIs count loaded k)
    (h : fieldFromStream Γ (n + 2) (.array b comp count none) s ctx loaded = (.ok v, s')) :
    (∃ l, v = .list l ∧ (l.length : Int) = max k 0) ∨ (v = .none ∧ b.nullValue ≠ .undefined) ∨
      (b.present loaded.view ctx (some s) = .ok false ∧ v = b.notPresentValue) := by
  have hnull : b.allowNull = true → b.nullValue ≠ .undefined := by
    intro ha hn; simp [FieldBase.allowNull, hn] at ha
  rcases fieldFromStream_ok h with ⟨h1, h2, -⟩ | ⟨-, -, ⟨h1, h2, -⟩ | ⟨w, h1, h2⟩⟩
  · exact Or.inr (Or.inr ⟨h1, h2⟩)
  · exact Or.inr (Or.inl ⟨h2, hnull h1⟩)
  · rw [fieldDoLoad_array] at h1
    rcases h2 with rfl | ⟨h2, h3⟩
    · left
      rcases hl : arrayLoop (haltCheck b.name count none ctx loaded) (fun s => fieldFromStream Γ n comp s ctx loaded) n [] s
        with ⟨r, t⟩
      rw [hl] at h1
      cases r with
      | error e => simp [R.map, Except.map] at h1
      | ok l =>
        simp [R.map, Except.map] at h1
        exact ⟨l, h1.1.symm, arrayLoop_count hc hl (by simp; omega)⟩
    · exact Or.inr (Or.inl ⟨h2, hnull h3⟩)

/-- **C39** (refuted for negative counts) With a count of -1, which a signed count field can have, an iterator of any length is dumped. -/
theorem C39_dump_count_refuted :
    ¬ ∀ (Γ : Classes) (n : Nat) (b : FieldBase) (comp : Field) (count : Count) (v ctx : Value) (elems : List Value)
      (all : Dict) (k : Int) (bs : Bytes), CountIs count all k → Elements v elems →
      fieldToStream Γ (n + 1) (.array b comp count none) v ctx all = (bs, .ok ()) → (elems.length : Int) = k := by
  intro h
  have := h Sample.noClasses 1 {} (Sample.u8 "") (.ref "n") (.iter [.int 1, .int 2]) .none [.int 1, .int 2]
    [("n", .int (-1))] (-1) [1, 2] (Or.inr ⟨"n", rfl, by decide, by decide⟩) (Or.inr rfl) (by decide)
  simp at this

/-- **C39** An array whose count is another field needs this field: if it has no value, both directions fail with `FieldReferenceError`; if
it never got a name, with `ConfigurationError`; if its value is no number, with `TypeError`.  Nothing is written or read. -/
theorem C39_bad_count_reference (Γ : Classes) (n : Nat) (b : FieldBase) (comp : Field) (name : String) (ctx : Value) (all : Dict)
    (e : Err) (he : (name = "" ∧ e = .configuration) ∨ (name ≠ "" ∧ all.get? name = none ∧ e = .fieldReference name) ∨
      (name ≠ "" ∧ ∃ v, all.get? name = some v ∧ v ≠ .none ∧ (∀ i, v ≠ .int i) ∧ e = .typeErr)) :
    (∀ elems, (∀ c ∈ b.validators, c (.list elems) = .ok ()) →
      fieldToStream Γ (n + 1) (.array b comp (.ref name) none) (.list elems) ctx all = ([], .error e)) ∧
    (∀ s, b.present all.view ctx (some s) = .ok true → b.nullValue = .undefined →
      fieldFromStream Γ (n + 2) (.array b comp (.ref name) none) s ctx all = (.error e, s)) := by
  have hf : finalElementCount (.ref name) all = .error e := by
    rcases he with ⟨rfl, rfl⟩ | ⟨h1, h2, rfl⟩ | ⟨h1, v, h2, h3, h4, rfl⟩
    · rfl
    · simp only [finalElementCount, if_neg h1, h2]
    · simp only [finalElementCount, if_neg h1, h2]
  have hset : setErrField b.name e = e := by
    rcases he with ⟨-, rfl⟩ | ⟨-, -, rfl⟩ | ⟨-, v, -, -, -, rfl⟩ <;> rfl
  constructor
  · intro elems hv
    rw [fieldToStream_succ, toStreamWith_plain (b := (Field.array b comp (.ref name) none).base) (by simp) (by simp) (by simp) hv]
    simp only [fieldDoDump, containerDump, arrayDump, hf]
    rfl
  · intro s hp hn
    show fromStreamWith b _ _ _ s ctx all = _
    rw [fromStreamWith_plain hp (Or.inl (by simp [FieldBase.allowNull, hn]))]
    have : fieldDoLoad Γ (n + 1) (.array b comp (.ref name) none) s ctx all = (.error e, s) := by
      rw [fieldDoLoad_array]
      unfold arrayLoop
      simp [haltCheck, shouldHalt, hf, R.map, Except.map]
    simp only [loadAndFinish, this, hset]

example : fieldFromStream Sample.noClasses 4 (Sample.array "a" (Sample.u16 "") (.ref "n")) ⟨[0, 1, 0, 2, 0, 3], 0⟩ .none [] =
    (.error (.fieldReference "n"), ⟨[0, 1, 0, 2, 0, 3], 0⟩) :=
  (C39_bad_count_reference _ 2 _ _ "n" .none [] _ (.inr (.inl ⟨by decide, rfl, rfl⟩))).2 _ rfl rfl

example : fieldToStream Sample.noClasses 2 (Sample.array "a" (Sample.u16 "") (.ref "n")) (.iter [.int 1, .int 2]) .none
    [("n", .int 2)] = ([0, 1, 0, 2], .ok ()) := by decide
example : fieldToStream Sample.noClasses 2 (Sample.array "a" (Sample.u16 "") (.ref "n")) (.iter [.int 1, .int 2]) .none
    [("n", .int 1)] = ([], .error (.arraySize "a" 1 2)) := by decide
example : fieldFromStream Sample.noClasses 4 (Sample.array "a" (Sample.u16 "") (.ref "n")) ⟨[0, 1, 0, 2, 0, 3], 0⟩ .none
    [("n", .int 2)] = (.ok (.list [.int 1, .int 2]), ⟨[0, 1, 0, 2, 0, 3], 4⟩) := by decide

/-! ## C40: arrays round-trip -/

theorem roundTrips_parts {Γ : Classes} {n : Nat} {comp : Field} {ctx : Value} {all loaded : Dict} {l : List Value}
    (h : ∀ v ∈ l, RoundTrip Γ n comp v ctx all loaded) :
    ∃ ps : List Bytes, ps.length = l.length ∧
      dumpAll (fun v => fieldToStream Γ n comp v ctx all) l = (ps.flatten, .ok ()) ∧
      ∀ i (hi : i < l.length) (hi' : i < ps.length), fieldToStream Γ n comp l[i] ctx all = (ps[i], .ok ()) ∧
        ∀ pre rest, fieldFromStream Γ n comp ⟨pre ++ ps[i] ++ rest, pre.length⟩ ctx loaded =
          (.ok l[i], ⟨pre ++ ps[i] ++ rest, pre.length + ps[i].length⟩) := by
  induction l with
  | nil => exact ⟨[], by simp [dumpAll, W.ok]⟩
  | cons v vs ih =>
    obtain ⟨ps, h1, h2, h3⟩ := ih fun w hw => h w (by simp [hw])
    obtain ⟨bs, h4, h5⟩ := h v (by simp)
    refine ⟨bs :: ps, by simp [h1], by simp [dumpAll, h4, h2, W.seq], ?_⟩
    intro i hi hi'
    cases i with
    | zero => exact ⟨by simpa using h4, by simpa using h5⟩
    | succ i => simpa using h3 i (by simpa using hi) (by simpa using hi')

theorem fieldFromStream_of_le {Γ : Classes} {n m : Nat} (h : n ≤ m) {f : Field} {s s' : Stream} {ctx v : Value}
    {loaded : Dict} (hr : fieldFromStream Γ n f s ctx loaded = (.ok v, s')) :
    fieldFromStream Γ m f s ctx loaded = (.ok v, s') := by
  rcases fieldFromStream_mono Γ h f s ctx loaded with h1 | h1
  · rw [hr] at h1; simp at h1
  · rw [← h1, hr]

theorem fieldToStream_of_le {Γ : Classes} {n m : Nat} (h : n ≤ m) {f : Field} {v ctx : Value} {all : Dict} {bs : Bytes}
    (hr : fieldToStream Γ n f v ctx all = (bs, .ok ())) : fieldToStream Γ m f v ctx all = (bs, .ok ()) := by
  rcases fieldToStream_mono Γ h f v ctx all with h1 | h1
  · rw [hr] at h1; simp at h1
  · rw [← h1, hr]

theorem Spec.RoundTrip.mono {Γ : Classes} {n m : Nat} (h : n ≤ m) {f : Field} {v ctx : Value} {all loaded : Dict}
    (hr : RoundTrip Γ n f v ctx all loaded) : RoundTrip Γ m f v ctx all loaded := by
  obtain ⟨bs, h1, h2⟩ := hr
  exact ⟨bs, fieldToStream_of_le h h1, fun pre rest => fieldFromStream_of_le h (h2 pre rest)⟩

/-- **C40** (with a count) If every element of a list round-trips through the component, the list round-trips through an array whose
count, on both sides, is the length of the list. -/
theorem C40_array_round_trip (Γ : Classes) (n : Nat) (b : FieldBase) (comp : Field) (count : Count) (l : List Value)
    (ctx : Value) (all loaded : Dict) (hel : ∀ v ∈ l, v ≠ .notPresent ∧ RoundTrip Γ n comp v ctx all loaded)
    (hca : CountIs count all l.length) (hcl : CountIs count loaded l.length) (hb : Plain b (.list l))
    (hsize : b.size = .none) :
    RoundTrip Γ (n + l.length + 2) (.array b comp count none) (.list l) ctx all loaded := by
  have hel' : ∀ v ∈ l, RoundTrip Γ (n + l.length) comp v ctx all loaded := fun v hv => (hel v hv).2.mono (by omega)
  obtain ⟨ps, h1, h2, h3⟩ := roundTrips_parts hel'
  refine ⟨ps.flatten, ?_, ?_⟩
  · apply fieldToStream_of_le (n := n + l.length + 1) (by omega)
    apply fieldToStream_plain (f := .array b comp count none) (by simp) (by simp) (by simp) hb.2.2.2 (Or.inl hsize)
    simp only [fieldDoDump, containerDump, arrayDump, finalElementCount_of hca, arrayElements]
    simpa using h2
  · intro pre rest
    apply fieldFromStream_plain (f := .array b comp count none) hb
    rw [fieldDoLoad_array]
    rw [arrayLoop_elements h1 (fun i hi hi' => ⟨(hel _ (List.getElem_mem hi)).1, (h3 i hi hi').2⟩) (Or.inl (by simpa using hcl))
      (by omega)]
    simp [R.map, Except.map]

/-- **C40** (without a count) An array without count round-trips too, if it is the last thing in the stream and every element takes at least
one byte. -/
theorem C40_array_round_trip_unbounded (Γ : Classes) (n : Nat) (b : FieldBase) (comp : Field) (l : List Value)
    (ctx : Value) (all loaded : Dict) (hel : ∀ v ∈ l, v ≠ .notPresent ∧ RoundTrip Γ n comp v ctx all loaded ∧
      fieldToStream Γ n comp v ctx all ≠ ([], .ok ())) (hb : Plain b (.list l)) (hsize : b.size = .none) :
    ∃ bs, fieldToStream Γ (n + l.length + 2) (.array b comp .none none) (.list l) ctx all = (bs, .ok ()) ∧
      ∀ pre, fieldFromStream Γ (n + l.length + 2) (.array b comp .none none) ⟨pre ++ bs, pre.length⟩ ctx loaded =
        (.ok (.list l), ⟨pre ++ bs, pre.length + bs.length⟩) := by
  have hel' : ∀ v ∈ l, RoundTrip Γ (n + l.length) comp v ctx all loaded := fun v hv => (hel v hv).2.1.mono (by omega)
  obtain ⟨ps, h1, h2, h3⟩ := roundTrips_parts hel'
  have hne : ∀ p ∈ ps, p ≠ [] := by
    intro p hp
    obtain ⟨i, hi, rfl⟩ := List.getElem_of_mem hp
    have hi' : i < l.length := by omega
    intro hx
    have h4 := (h3 i hi' hi).1
    obtain ⟨-, ⟨bs, h5, -⟩, h6⟩ := hel _ (List.getElem_mem hi')
    have h7 := fieldToStream_of_le (m := n + l.length) (by omega) h5
    rw [h4] at h7
    simp at h7
    rw [← h7, hx] at h5
    exact h6 h5
  refine ⟨ps.flatten, ?_, ?_⟩
  · apply fieldToStream_of_le (n := n + l.length + 1) (by omega)
    apply fieldToStream_plain (f := .array b comp .none none) (by simp) (by simp) (by simp) hb.2.2.2 (Or.inl hsize)
    simp only [fieldDoDump, containerDump, arrayDump, finalElementCount, arrayElements]
    exact h2
  · intro pre
    apply fieldFromStream_plain (f := .array b comp .none none) hb
    rw [fieldDoLoad_array]
    have := arrayLoop_elements (name := b.name) (ctx := ctx) (loaded := loaded) (count := .none) (acc := []) (pre := pre)
      (load := fun s => fieldFromStream Γ (n + l.length) comp s ctx loaded)
      (rest := []) (fuel := n + l.length) h1 (fun i hi hi' => ⟨(hel _ (List.getElem_mem hi)).1, (h3 i hi hi').2⟩)
      (Or.inr ⟨rfl, rfl, hne⟩) (by omega)
    simp only [List.append_nil] at this
    rw [this]
    simp [R.map, Except.map]

/-- **C10** (field) Every number in the range of an `Integer` field of `k ≥ 1` bytes round-trips through it. -/
theorem C10_field_round_trip (Γ : Classes) (n : Nat) (b : FieldBase) (k : Nat) (hk : 0 < k) (signed : Bool) (e : Endian) (i : Int)
    (ctx : Value) (all loaded : Dict) (hsize : b.size = .fixed k) (hb : Plain b (.int i)) (hi : InRange k signed i) :
    RoundTrip Γ (n + 2) (.leaf b (.integer signed e)) (.int i) ctx all loaded := by
  obtain ⟨bs, h1, h2⟩ := (C11_write_int_range i k hk e signed).1 hi
  refine ⟨bs, fieldToStream_plain (f := .leaf b (.integer signed e)) (by simp) (by simp) (by simp) hb.2.2.2
    (Or.inr (Or.inl (h2 ▸ hsize))) ?_, fun pre rest => fieldFromStream_plain (f := .leaf b (.integer signed e)) hb ?_⟩
  · simp [fieldDoDump, leafDump, hsize, h1, unserializableOnRange, W.ofExcept, W.ok]
  · have : fieldDoLoad Γ (n + 1) (.leaf b (.integer signed e)) ⟨pre ++ bs ++ rest, pre.length⟩ ctx loaded =
        R.map (readInt ⟨pre ++ bs ++ rest, pre.length⟩ k signed e) .int := by
      simp [fieldDoLoad, leafLoad, hsize]
    rw [this, C10_write_read i k hk signed e bs pre rest h1, h2]
    rfl

theorem Sample.u16_roundTrip (i : Nat) (hi : i < 65536) : RoundTrip Sample.noClasses 2 (Sample.u16 "") (.int i) .none [] [] :=
  C10_field_round_trip _ 0 _ 2 (by decide) false .big i .none [] [] rfl ⟨fun _ _ _ => rfl, rfl, rfl, by simp⟩
    ⟨by simp, by simp; omega⟩

example (l : List Nat) (hl : ∀ i ∈ l, i < 65536) :
    RoundTrip Sample.noClasses (2 + l.length + 2) (Sample.array "a" (Sample.u16 "") (.fixed l.length))
      (.list (l.map fun i : Nat => .int i)) .none [] [] := by
  have := C40_array_round_trip Sample.noClasses 2 { name := "a", typeName := "Array" } (Sample.u16 "") (.fixed l.length)
    (l.map fun i : Nat => .int i) .none [] [] (by
      intro v hv
      obtain ⟨i, hi, rfl⟩ := List.mem_map.1 hv
      exact ⟨by simp, Sample.u16_roundTrip i (hl i hi)⟩)
    (Or.inl (by simp)) (Or.inl (by simp)) ⟨fun _ _ _ => rfl, rfl, rfl, by simp⟩ rfl
  simpa [Sample.array] using this

/-! ## C41: termination -/

/-- **C41** (no count) Loading an array without a count ends if loading the component always ends and consumes at least one byte when it
succeeds. -/
theorem C41_terminates (Γ : Classes) (n : Nat) (b : FieldBase) (comp : Field) (ctx : Value) (loaded : Dict) (s : Stream)
    (hterm : Terminates Γ n comp ctx loaded s.data) (hprog : Progresses Γ n comp ctx loaded s.data) :
    (fieldDoLoad Γ (n + s.data.length + 1) (.array b comp .none none) s ctx loaded).1 ≠ .error .outOfFuel := by
  obtain ⟨data, p⟩ := s
  rw [fieldDoLoad_array]
  have hsame : ∀ q, fieldFromStream Γ (n + data.length) comp ⟨data, q⟩ ctx loaded =
      fieldFromStream Γ n comp ⟨data, q⟩ ctx loaded := by
    intro q
    rcases fieldFromStream_mono Γ (show n ≤ n + data.length by omega) comp ⟨data, q⟩ ctx loaded with h | h
    · exact absurd h (hterm q)
    · exact h.symm
  have := arrayLoop_terminates (halt := haltCheck b.name .none none ctx loaded)
    (load := fun s => fieldFromStream Γ (n + data.length) comp s ctx loaded) (data := data)
    (fun s vs => by simp [haltCheck, shouldHalt_none, Except.map]) (fun q => by rw [hsame]; exact hterm q)
    (fun q v t h => by rw [hsame] at h; exact hprog q v t h) (n + data.length) [] p (by omega)
  simp only at this ⊢
  intro hx
  apply this
  generalize arrayLoop _ _ _ _ _ = r at hx
  obtain ⟨r, t⟩ := r
  cases r with
  | error e => simpa [R.map, Except.map] using hx
  | ok l => simp [R.map, Except.map] at hx

/-- **C41** (count) Loading an array with a count ends if loading the component always ends and never gives `NOT_PRESENT`. -/
theorem C41_counted_terminates (Γ : Classes) (n : Nat) (b : FieldBase) (comp : Field) (count : Count) (ctx : Value)
    (loaded : Dict) (s : Stream) (k : Int) (hc : CountIs count loaded k)
    (hterm : ∀ t, (fieldFromStream Γ n comp t ctx loaded).1 ≠ .error .outOfFuel)
    (hpres : ∀ t t', fieldFromStream Γ n comp t ctx loaded ≠ (.ok .notPresent, t')) :
    (fieldDoLoad Γ (n + k.toNat + 1) (.array b comp count none) s ctx loaded).1 ≠ .error .outOfFuel := by
  rw [fieldDoLoad_array]
  have hsame : ∀ t, fieldFromStream Γ (n + k.toNat) comp t ctx loaded = fieldFromStream Γ n comp t ctx loaded := by
    intro t
    rcases fieldFromStream_mono Γ (show n ≤ n + k.toNat by omega) comp t ctx loaded with h | h
    · exact absurd h (hterm t)
    · exact h.symm
  have := arrayLoop_count_terminates (halt := haltCheck b.name count none ctx loaded)
    (load := fun s => fieldFromStream Γ (n + k.toNat) comp s ctx loaded) (k := k)
    (fun s vs => by simp [haltCheck, shouldHalt_count hc, Except.map]) (fun t => by rw [hsame]; exact hterm t)
    (fun t t' => by rw [hsame]; exact hpres t t') (n + k.toNat) [] s (by simp; omega)
  intro hx
  apply this
  generalize arrayLoop _ _ _ _ _ = r at hx ⊢
  obtain ⟨r, t⟩ := r
  cases r with
  | error e => simpa [R.map, Except.map] using hx
  | ok l => simp [R.map, Except.map] at hx

/-- **C41** (divergence) Without a count, on a stream with something left, a component that succeeds without consuming anything makes loading
run forever: no amount of steps is enough. -/
theorem C41_diverges (Γ : Classes) (b : FieldBase) (comp : Field) (ctx : Value) (loaded : Dict) (s : Stream)
    (hs : s.rest ≠ []) (hstay : ∀ m, (fieldFromStream Γ m comp s ctx loaded).1 = .error .outOfFuel ∨
      ∃ v, fieldFromStream Γ m comp s ctx loaded = (.ok v, s)) :
    ∀ n, (fieldDoLoad Γ n (.array b comp .none none) s ctx loaded).1 = .error .outOfFuel := by
  intro n
  cases n with
  | zero => simp [fieldDoLoad]
  | succ n =>
    rw [fieldDoLoad_array]
    have := arrayLoop_diverges (halt := haltCheck b.name .none none ctx loaded)
      (load := fun s => fieldFromStream Γ n comp s ctx loaded) (s := s) (fun _ => True)
      (fun vs _ => by simp [haltCheck, shouldHalt_none, hs, Except.map])
      (by
        rcases hstay n with h | ⟨v, h⟩
        · exact Or.inl h
        · exact Or.inr ⟨v, h, fun _ _ => trivial⟩) n [] trivial
    generalize arrayLoop _ _ _ _ _ = r at this
    obtain ⟨r, t⟩ := r
    simp only at this; subst this
    simp [R.map, Except.map]

/-- **C41** (divergence) An array with a positive count whose component is never present runs forever on every stream. -/
theorem C41_never_present_diverges (Γ : Classes) (b : FieldBase) (comp : Field) (count : Count) (ctx : Value)
    (loaded : Dict) (s : Stream) (k : Int) (hk : 0 < k) (hc : CountIs count loaded k)
    (habs : comp.base.present loaded.view ctx (some s) = .ok false) (hnp : comp.base.notPresentValue = .notPresent) :
    ∀ n, (fieldDoLoad Γ n (.array b comp count none) s ctx loaded).1 = .error .outOfFuel := by
  intro n
  cases n with
  | zero => simp [fieldDoLoad]
  | succ n =>
    rw [fieldDoLoad_array]
    have := arrayLoop_diverges (halt := haltCheck b.name count none ctx loaded)
      (load := fun s => fieldFromStream Γ n comp s ctx loaded) (s := s) (fun vs => vs = [])
      (fun vs h => by subst h; simp [haltCheck, shouldHalt_count hc, Except.map]; omega)
      (by
        cases n with
        | zero => left; simp [fieldFromStream]
        | succ n =>
          right
          refine ⟨.notPresent, ?_, by simp⟩
          simp only [fieldFromStream, fromStreamWith, habs, hnp]) n [] rfl
    generalize arrayLoop _ _ _ _ _ = r at this
    obtain ⟨r, t⟩ := r
    simp only at this; subst this
    simp [R.map, Except.map]

/-- `Array(Bytes(size=0))` on a non-empty stream: an instance of `C41_diverges`. -/
example : ∀ n, (fieldDoLoad Sample.noClasses n (Sample.array "a" (Sample.bytes "" 0) .none) ⟨[1, 2], 0⟩ .none []).1 =
    .error .outOfFuel := by
  apply C41_diverges
  · decide
  · intro m
    match m with
    | 0 => left; decide
    | 1 => left; decide
    | m + 2 => exact Or.inr ⟨.bytes [], fieldFromStream_of_le (n := 2) (by omega) (by decide)⟩

/-- `Array(UInt8())`: an instance of `C41_terminates`. -/
example (data : Bytes) : Terminates Sample.noClasses 2 (Sample.u8 "") .none [] data ∧
    Progresses Sample.noClasses 2 (Sample.u8 "") .none [] data := by
  have h : ∀ p, fieldFromStream Sample.noClasses 2 (Sample.u8 "") ⟨data, p⟩ .none [] =
      loadAndFinish (Sample.u8 "").base (pyEq Sample.noClasses 1)
        (fun s => leafLoad (Sample.u8 "").base (.integer false .little) (.ok 1) s .none []) ⟨data, p⟩ := by
    intro p
    simp [fieldFromStream, fromStreamWith, fieldDoLoad, Sample.u8, Field.base, FieldBase.allowNull, leafExpectedSize,
      FieldBase.expectedSizeWith]
  constructor
  · intro p
    rw [h]
    simp only [loadAndFinish, leafLoad, Sample.u8, Field.base, readInt, Stream.read, finishLoad, FieldBase.allowNull]
    cases hd : data.drop p with
    | nil => simp [setErrField, R.map, Except.map]
    | cons a r => simp [intOfBytes, runValidators, R.map, Except.map]
  · intro p v t
    rw [h]
    simp only [loadAndFinish, leafLoad, Sample.u8, Field.base, readInt, Stream.read, finishLoad, FieldBase.allowNull]
    cases hd : data.drop p with
    | nil => simp [R.map, Except.map]
    | cons a r =>
      simp [intOfBytes, runValidators, R.map, Except.map]
      rintro - rfl
      simp

/-! ## C42: nested structs -/

/-- **C42** (dump) A `Nested` field given an instance writes exactly what the instance's own `to_bytes` returns (or raises what that
raises), with the same context. -/
theorem C42_nested_dump_instance (Γ : Classes) (n : Nat) (b : FieldBase) (cls c : String) (d : StructDesc) (vals : Dict)
    (ctx : Value) (all : Dict) (hd : Γ c = some d) (hv : ∀ k ∈ b.validators, k (.struct c vals) = .ok ())
    (hsize : b.size = .none) :
    fieldToBytes Γ (n + 1) (.nested b cls) (.struct c vals) ctx all = structToBytes Γ n d vals ctx := by
  unfold fieldToBytes structToBytes
  rw [fieldToStream_succ, toStreamWith_plain (b := (Field.nested b cls).base) (by simp) (by simp) (by simp) hv]
  simp only [fieldDoDump, containerDump, hd]
  cases (structToStream Γ n d vals ctx).toExcept with
  | error e => rfl
  | ok bs => simp [finishDump, Field.base, hsize, W.ok, W.toExcept]

/-- **C42** (dump) Given a dictionary, it writes exactly what `S(**dictionary).to_bytes()` returns. -/
theorem C42_nested_dump_dict (Γ : Classes) (n : Nat) (b : FieldBase) (cls : String) (d : StructDesc) (kw : Dict)
    (ctx : Value) (all : Dict) (hd : Γ cls = some d) (hv : ∀ k ∈ b.validators, k (.dict kw) = .ok ())
    (hsize : b.size = .none) :
    fieldToBytes Γ (n + 1) (.nested b cls) (.dict kw) ctx all =
      (structInit d kw).bind fun vals => structToBytes Γ n d vals ctx := by
  unfold fieldToBytes structToBytes
  rw [fieldToStream_succ, toStreamWith_plain (b := (Field.nested b cls).base) (by simp) (by simp) (by simp) hv]
  simp only [fieldDoDump, containerDump, dumpNew, hd]
  cases structInit d kw with
  | error e => rfl
  | ok vals =>
    simp only [Except.bind]
    cases (structToStream Γ n d vals ctx).toExcept with
    | error e => rfl
    | ok bs => simp [finishDump, Field.base, hsize, W.ok, W.toExcept]

/-- **C42** (dump, any declared size) Whatever size is declared, a `Nested` field never writes anything but the struct's own bytes. -/
theorem C42_nested_dump_sized (Γ : Classes) (n : Nat) (b : FieldBase) (cls c : String) (d : StructDesc) (vals : Dict)
    (ctx : Value) (all : Dict) (bs : Bytes) (hd : Γ c = some d)
    (h : fieldToBytes Γ (n + 1) (.nested b cls) (.struct c vals) ctx all = .ok bs) :
    structToBytes Γ n d vals ctx = .ok bs := by
  unfold fieldToBytes at h
  have h := W.toExcept_ok h
  rw [fieldToStream_succ] at h
  obtain ⟨w, hw, -, -, -, h4⟩ := toStreamWith_ok h
  simp at hw; subst hw
  rcases h4 with ⟨h4, -⟩ | ⟨-, ser, h5, h6⟩
  · simp at h4
  · have hbs : bs = ser := by
      rcases finishDump_ok h6 with ⟨-, hh⟩ | ⟨k', -, ⟨-, hh⟩ | ⟨-, hh⟩⟩
      · exact hh
      · exact hh
      · simp [fieldAddPadding] at hh
    subst hbs
    simp only [fieldDoDump, containerDump, hd] at h5
    simp [structToBytes, h5, W.toExcept]

/-- **C42** (load) A `Nested` field loads exactly what `S.from_stream` loads, from the same place and with the same context, and leaves the
stream in the same place. -/
theorem C42_nested_load (Γ : Classes) (n : Nat) (b : FieldBase) (cls : String) (d : StructDesc) (s s' : Stream)
    (vals : Dict) (ctx : Value) (loaded : Dict) (hd : Γ cls = some d) (hb : Plain b (.struct cls vals))
    (h : structFromStream Γ n d s ctx [] = (.ok vals, s')) :
    fieldFromStream Γ (n + 2) (.nested b cls) s ctx loaded = (.ok (.struct cls vals), s') := by
  apply fieldFromStream_plain (f := .nested b cls) hb
  simp [fieldDoLoad, containerLoad, loadStruct, hd, h, R.map, Except.map]

/-- **C42** (load, converse) What a `Nested` field loads (other than for a null or absent field) is what `S.from_stream` loads. -/
theorem C42_nested_load_only (Γ : Classes) (n : Nat) (b : FieldBase) (cls : String) (d : StructDesc) (s s' : Stream)
    (v : Value) (ctx : Value) (loaded : Dict) (hd : Γ cls = some d) (hnull : b.nullValue = .undefined)
    (hp : b.present loaded.view ctx (some s) = .ok true)
    (h : fieldFromStream Γ (n + 2) (.nested b cls) s ctx loaded = (.ok v, s')) :
    ∃ vals, v = .struct cls vals ∧ structFromStream Γ n d s ctx [] = (.ok vals, s') := by
  rcases fieldFromStream_ok h with ⟨h1, -, -⟩ | ⟨-, -, ⟨h1, -, -⟩ | ⟨w, h1, h2⟩⟩
  · simp [Field.base, hp] at h1
  · simp [Field.base, allowNull_false hnull] at h1
  · simp only [Field.base, allowNull_false hnull] at h2
    simp at h2; subst h2
    simp only [fieldDoLoad, containerLoad, loadStruct, hd] at h1
    rcases hs : structFromStream Γ n d s ctx [] with ⟨r, t⟩
    rw [hs] at h1
    cases r with
    | error e => simp [R.map, Except.map] at h1
    | ok vals => simp [R.map, Except.map] at h1; exact ⟨vals, h1.1.symm, by rw [h1.2]⟩

/-- **C42** (load, errors) If `S.from_stream` raises, so does the `Nested` field, with the same exception up to the field name noted in it. -/
theorem C42_nested_load_error (Γ : Classes) (n : Nat) (b : FieldBase) (cls : String) (d : StructDesc) (s s' : Stream)
    (e : Err) (ctx : Value) (loaded : Dict) (hd : Γ cls = some d) (hnull : b.nullValue = .undefined)
    (hp : b.present loaded.view ctx (some s) = .ok true) (h : structFromStream Γ n d s ctx [] = (.error e, s')) :
    fieldFromStream Γ (n + 2) (.nested b cls) s ctx loaded = (.error (setErrField b.name e), s') := by
  rw [fieldFromStream, fromStreamWith_plain (b := (Field.nested b cls).base) hp (Or.inl (allowNull_false hnull))]
  simp [loadAndFinish, fieldDoLoad, containerLoad, loadStruct, hd, h, R.map, Except.map, Field.base]

example : fieldToBytes Sample.classes 6 (Sample.nested "p" "Point") (.dict [("x", .int 1), ("y", .int 2)]) .none =
    .ok [1, 0, 2, 0] := by decide
example : fieldFromStream Sample.classes 6 (Sample.nested "p" "Point") ⟨[9, 1, 0, 2, 0], 1⟩ .none [] =
    (.ok (.struct "Point" [("x", .int 1), ("y", .int 2)]), ⟨[9, 1, 0, 2, 0], 5⟩) := by decide

/-! ## C43: unions -/

/-- **C43** (dump, field choice) A union whose dump decider picks the field `g` writes exactly what `g` writes, and raises what `g` raises. -/
theorem C43_union_dump_field (Γ : Classes) (n : Nat) (b : FieldBase) (choices : List (Field ⊕ String))
    (ld : Stream → Value → Dict → Except Err Nat) (dd : Value → Value → Dict → Except Err Nat) (v ctx : Value) (all : Dict)
    (i : Nat) (g : Field) (hi : dd v ctx all = .ok i) (hg : choices[i]? = some (.inl g))
    (h1 : v ≠ .dflt) (h2 : v ≠ .undefined) (h3 : v ≠ .none) (hv : ∀ k ∈ b.validators, k v = .ok ())
    (hsize : b.size = .none) :
    fieldToBytes Γ (n + 1) (.union b choices ld dd) v ctx all = fieldToBytes Γ n g v ctx all := by
  unfold fieldToBytes
  rw [fieldToStream_succ, toStreamWith_plain (b := (Field.union b choices ld dd).base) h1 h2 h3 hv]
  simp only [fieldDoDump, containerDump, hi, hg]
  cases (fieldToStream Γ n g v ctx all).toExcept with
  | error e => rfl
  | ok bs => simp [finishDump, Field.base, hsize, W.ok, W.toExcept]

/-- **C43** (dump, struct choice) If it picks a struct class, it writes exactly what the struct built from the dictionary writes. -/
theorem C43_union_dump_struct (Γ : Classes) (n : Nat) (b : FieldBase) (choices : List (Field ⊕ String))
    (ld : Stream → Value → Dict → Except Err Nat) (dd : Value → Value → Dict → Except Err Nat) (kw : Dict) (ctx : Value)
    (all : Dict) (i : Nat) (cls : String) (d : StructDesc) (hi : dd (.dict kw) ctx all = .ok i)
    (hg : choices[i]? = some (.inr cls)) (hd : Γ cls = some d)
    (hv : ∀ k ∈ b.validators, k (.dict kw) = .ok ()) (hsize : b.size = .none) :
    fieldToBytes Γ (n + 1) (.union b choices ld dd) (.dict kw) ctx all =
      (structInit d kw).bind fun vals => structToBytes Γ n d vals ctx := by
  unfold fieldToBytes structToBytes
  rw [fieldToStream_succ, toStreamWith_plain (b := (Field.union b choices ld dd).base) (by simp) (by simp) (by simp) hv]
  simp only [fieldDoDump, containerDump, hi, hg, dumpNew, hd]
  cases structInit d kw with
  | error e => rfl
  | ok vals =>
    simp only [Except.bind]
    cases (structToStream Γ n d vals ctx).toExcept with
    | error e => rfl
    | ok bs => simp [finishDump, Field.base, hsize, W.ok, W.toExcept]

/-- **C43** (load, struct choice) Loading with a decider that picks a struct class is that class's `from_stream`. -/
theorem C43_union_load_struct (Γ : Classes) (n : Nat) (b : FieldBase) (choices : List (Field ⊕ String))
    (ld : Stream → Value → Dict → Except Err Nat) (dd : Value → Value → Dict → Except Err Nat) (s s' : Stream) (ctx : Value)
    (loaded vals : Dict) (i : Nat) (cls : String) (d : StructDesc) (hi : ld s ctx loaded = .ok i)
    (hg : choices[i]? = some (.inr cls)) (hd : Γ cls = some d) (hb : Plain b (.struct cls vals))
    (h : structFromStream Γ n d s ctx [] = (.ok vals, s')) :
    fieldFromStream Γ (n + 2) (.union b choices ld dd) s ctx loaded = (.ok (.struct cls vals), s') := by
  apply fieldFromStream_plain (f := .union b choices ld dd) hb
  simp [fieldDoLoad, containerLoad, loadStruct, hi, hg, hd, h, R.map, Except.map]

/-- **C43** (load, field choice) Loading with a decider that picks a plain field gives what loading that field gives. -/
theorem C43_union_load_field (Γ : Classes) (n : Nat) (b : FieldBase) (choices : List (Field ⊕ String))
    (ld : Stream → Value → Dict → Except Err Nat) (dd : Value → Value → Dict → Except Err Nat) (s s' : Stream) (ctx v : Value)
    (loaded : Dict) (i : Nat) (g : Field) (hi : ld s ctx loaded = .ok i) (hg : choices[i]? = some (.inl g))
    (hb : Plain b v) (hgp : Plain g.base v) (h : fieldFromStream Γ (n + 1) g s ctx loaded = (.ok v, s')) :
    fieldFromStream Γ (n + 2) (.union b choices ld dd) s ctx loaded = (.ok v, s') := by
  apply fieldFromStream_plain (f := .union b choices ld dd) hb
  simp only [fieldDoLoad, containerLoad, hi, hg]
  rcases fieldFromStream_ok h with ⟨h1, -, -⟩ | ⟨-, -, ⟨h1, -, -⟩ | ⟨w, h1, h2⟩⟩
  · rw [hgp.1] at h1; simp at h1
  · rw [allowNull_false hgp.2.1] at h1; simp at h1
  · rw [allowNull_false hgp.2.1] at h2
    simp at h2; subst h2; exact h1

/-- **C43** (illegal choices) A decision that is not one of the choices raises `TypeError` on dump (nothing is written) and on load (nothing is
consumed). -/
theorem C43_union_illegal_choice (Γ : Classes) (n : Nat) (b : FieldBase) (choices : List (Field ⊕ String))
    (ld : Stream → Value → Dict → Except Err Nat) (dd : Value → Value → Dict → Except Err Nat) (s : Stream) (v ctx : Value)
    (all : Dict) (i : Nat) (hg : choices.length ≤ i) (h1 : v ≠ .dflt) (h2 : v ≠ .undefined) (h3 : v ≠ .none)
    (hb : Plain b v) :
    (dd v ctx all = .ok i → fieldToStream Γ (n + 1) (.union b choices ld dd) v ctx all = ([], .error .typeErr)) ∧
    (ld s ctx all = .ok i → fieldFromStream Γ (n + 2) (.union b choices ld dd) s ctx all = (.error .typeErr, s)) := by
  have hnone : choices[i]? = none := List.getElem?_eq_none hg
  constructor
  · intro hi
    rw [fieldToStream_succ, toStreamWith_plain (b := (Field.union b choices ld dd).base) h1 h2 h3 hb.2.2.2]
    simp [fieldDoDump, containerDump, hi, hnone, W.fail, W.toExcept]
  · intro hi
    rw [fieldFromStream, fromStreamWith_plain (b := (Field.union b choices ld dd).base) (hb.1 _ _ _) (Or.inl (allowNull_false hb.2.1))]
    simp [loadAndFinish, fieldDoLoad, containerLoad, hi, hnone, setErrField]

/-- `Union(UInt8(), Point, load_decider=first byte is 0, dump_decider=by type)` -/
def Sample.union (g : Field) : Field :=
  .union { name := "u", typeName := "Union" } [.inl g, .inr "Point"]
    (fun s _ _ => .ok (if s.rest.head? = some 0 then 0 else 1))
    (fun v _ _ => match v with
      | .int _ => .ok 0
      | .dict _ => .ok 1
      | _ => .ok 2)

example : fieldToBytes Sample.classes 6 (Sample.union (Sample.u8 "")) (.int 7) .none = .ok [7] := by decide
example : fieldToBytes Sample.classes 6 (Sample.union (Sample.u8 "")) (.dict [("x", .int 1), ("y", .int 2)]) .none =
    .ok [1, 0, 2, 0] := by decide
example : fieldToBytes Sample.classes 6 (Sample.union (Sample.u8 "")) (.str []) .none = .error .typeErr := by decide

/-! ## C44: unions and the validators of the choice -/

/-- **C44** (refuted) A union loads a value that the chosen field's validators reject: on load they are not run. -/
theorem C44_union_validation_refuted :
    ¬ ∀ (Γ : Classes) (n : Nat) (b : FieldBase) (choices : List (Field ⊕ String))
      (ld : Stream → Value → Dict → Except Err Nat) (dd : Value → Value → Dict → Except Err Nat) (s s' : Stream)
      (ctx v : Value) (loaded : Dict) (i : Nat) (g : Field), ld s ctx loaded = .ok i → choices[i]? = some (.inl g) →
      fieldFromStream Γ n (.union b choices ld dd) s ctx loaded = (.ok v, s') → Accepts g v := by
  intro h
  have h1 := h Sample.noClasses 4 {} [.inl (Sample.upd (Sample.u8 "x") ({ · with validators := [Sample.below10] }))]
    (fun _ _ _ => .ok 0) (fun _ _ _ => .ok 0) ⟨[11], 0⟩ ⟨[11], 1⟩ .none (.int 11) [] 0
    (Sample.upd (Sample.u8 "x") ({ · with validators := [Sample.below10] })) rfl rfl (by decide)
  have := h1 Sample.below10 (by simp [Sample.upd, Sample.u8, Field.withBase, Field.base])
  revert this; decide

/-- ... while dumping the same value through the same union fails. -/
example : fieldToBytes Sample.noClasses 4 (.union {} [.inl (Sample.upd (Sample.u8 "x")
    ({ · with validators := [Sample.below10] }))] (fun _ _ _ => .ok 0) (fun _ _ _ => .ok 0)) (.int 11) .none =
    .error (.validation "x") := by decide

/-- **C44** (partial: the union's own validators, and choices that are structs) The validators of the union itself are run both ways, and a struct choice is
fully validated on load. -/
theorem C44_union_validation_partial (Γ : Classes) (n : Nat) (b : FieldBase) (choices : List (Field ⊕ String))
    (ld : Stream → Value → Dict → Except Err Nat) (dd : Value → Value → Dict → Except Err Nat) (s s' : Stream) (ctx v : Value)
    (loaded : Dict) (hp : b.present loaded.view ctx (some s) = .ok true) (hnull : b.nullValue = .undefined)
    (h : fieldFromStream Γ (n + 3) (.union b choices ld dd) s ctx loaded = (.ok v, s')) :
    (∀ c ∈ b.validators, c v = .ok ()) ∧
    ∀ i cls d, ld s ctx loaded = .ok i → choices[i]? = some (.inr cls) → Γ cls = some d →
      ∃ results, Valid d results ∧ v = .struct cls (dropDiscarded d results) := by
  rcases fieldFromStream_ok h with ⟨h1, -, -⟩ | ⟨-, hacc, ⟨h1, -, -⟩ | ⟨w, h1, h2⟩⟩
  · simp [Field.base, hp] at h1
  · simp [Field.base, allowNull_false hnull] at h1
  · refine ⟨hacc, ?_⟩
    intro i cls d hi hg hd
    simp only [Field.base, allowNull_false hnull] at h2
    simp at h2; subst h2
    simp only [fieldDoLoad, containerLoad, hi, hg, loadStruct, hd] at h1
    rcases hs : structFromStream Γ (n + 1) d s ctx [] with ⟨r, t⟩
    rw [hs] at h1
    cases r with
    | error e => simp [R.map, Except.map] at h1
    | ok vals =>
      simp [R.map, Except.map] at h1
      obtain ⟨results, -, -, hv, hr⟩ := structFromStream_ok_iff.1 hs
      exact ⟨results, hv, by rw [← h1.1, hr]⟩

end Verif
