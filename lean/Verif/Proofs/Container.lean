import Verif.Spec.Container
import Verif.Proofs.StructLoad
import Verif.Proofs.FuelDump

/-! Helper lemmas about arrays, nested structs and unions. -/

namespace Verif
open Spec

theorem finalElementCount_of {count : Count} {values : Dict} {k : Int} (h : CountIs count values k) :
    finalElementCount count values = .ok (some k) := by
  rcases h with rfl | ⟨name, rfl, hne, hv⟩
  · rfl
  · simp [finalElementCount, hne, hv]

theorem Spec.CountIs.ne_none {count : Count} {values : Dict} {k : Int} (h : CountIs count values k) : count ≠ .none := by
  rcases h with rfl | ⟨name, rfl, -, -⟩ <;> simp

theorem shouldHalt_count {name : String} {count : Count} {loaded : Dict} {k : Int} (h : CountIs count loaded k) (s : Stream)
    (vs : List Value) : shouldHalt name count s vs loaded = .ok (decide (k ≤ vs.length)) := by
  have h1 := finalElementCount_of h
  unfold shouldHalt
  cases hc : count with
  | none => exact absurd hc h.ne_none
  | fixed m => rw [hc] at h1; simp only [h1]
  | ref m => rw [hc] at h1; simp only [h1]

theorem shouldHalt_none {name : String} {loaded : Dict} (s : Stream) (vs : List Value) :
    shouldHalt name .none s vs loaded = .ok (decide (s.rest = [])) := by
  unfold shouldHalt
  simp only [Stream.read, Stream.rest]
  simp

/-- What one successful `from_stream` did. -/
theorem fieldFromStream_ok {Γ : Classes} {n : Nat} {f : Field} {s s' : Stream} {ctx v : Value} {loaded : Dict}
    (h : fieldFromStream Γ (n + 1) f s ctx loaded = (.ok v, s')) :
    (f.base.present loaded.view ctx (some s) = .ok false ∧ v = f.base.notPresentValue ∧ s' = s) ∨
    (f.base.present loaded.view ctx (some s) = .ok true ∧ Accepts f v ∧
      ((f.base.allowNull = true ∧ v = .none ∧ ∃ repr, fieldNullRepr Γ n f loaded = .ok repr ∧
          s.rest.take repr.length = repr ∧ s' = s.seek (s.pos + repr.length)) ∨
       (∃ w, fieldDoLoad Γ n f s ctx loaded = (.ok w, s') ∧ (v = w ∨ (v = .none ∧ f.base.allowNull = true))))) := by
  rw [fieldFromStream] at h
  rcases fromStreamWith_ok h with h1 | ⟨h1, h2, h3 | ⟨w, h3, h4⟩⟩
  · exact Or.inl h1
  · exact Or.inr ⟨h1, h2, Or.inl h3⟩
  · refine Or.inr ⟨h1, h2, Or.inr ⟨w, h3, ?_⟩⟩
    rcases (finishLoad_ok h4).1 with h5 | ⟨h5, h6, -⟩
    · exact Or.inl h5
    · exact Or.inr ⟨h5, h6⟩

theorem allowNull_false {b : FieldBase} (h : b.nullValue = .undefined) : b.allowNull = false := by
  simp [FieldBase.allowNull, h]

/-- `from_stream` of a plain field is its `_do_load`. -/
theorem fieldFromStream_plain {Γ : Classes} {n : Nat} {f : Field} {s s' : Stream} {ctx v : Value} {loaded : Dict}
    (hp : Plain f.base v) (h : fieldDoLoad Γ n f s ctx loaded = (.ok v, s')) :
    fieldFromStream Γ (n + 1) f s ctx loaded = (.ok v, s') := by
  obtain ⟨h1, h2, h3, h4⟩ := hp
  rw [fieldFromStream, fromStreamWith_plain (h1 _ _ _) (Or.inl (allowNull_false h2))]
  unfold loadAndFinish
  simp only [h]
  rw [finishLoad_plain (Or.inl (allowNull_false h2)) (Or.inl h3) h4]

/-- Where `from_stream` of a field that takes no `None` leaves the stream. -/
theorem fieldFromStream_snd {Γ : Classes} {n : Nat} {f : Field} {s : Stream} {ctx : Value} {loaded : Dict}
    (hp : f.base.present loaded.view ctx (some s) = .ok true) (hn : f.base.nullValue = .undefined) :
    (fieldFromStream Γ (n + 1) f s ctx loaded).2 = (fieldDoLoad Γ n f s ctx loaded).2 := by
  rw [fieldFromStream, fromStreamWith_plain hp (Or.inl (allowNull_false hn))]
  unfold loadAndFinish
  simp only
  rcases fieldDoLoad Γ n f s ctx loaded with ⟨r, t⟩
  cases r <;> rfl

/-- `to_stream` of a container is its `_do_dump`, if the size is right. -/
theorem fieldToStream_plain {Γ : Classes} {n : Nat} {f : Field} {ctx v : Value} {all : Dict} {bs : Bytes}
    (h1 : v ≠ .dflt) (h2 : v ≠ .undefined) (h3 : v ≠ .none) (hv : ∀ c ∈ f.base.validators, c v = .ok ())
    (hs : f.base.size = .none ∨ DeclaredSize f all bs.length) (h : fieldDoDump Γ n f v ctx all = (bs, .ok ())) :
    fieldToStream Γ (n + 1) f v ctx all = (bs, .ok ()) := by
  rw [fieldToStream_succ, toStreamWith_plain h1 h2 h3 hv, h]
  simp only [W.toExcept]
  unfold finishDump
  rcases hs with hs | hs
  · simp [hs, W.ok]
  · have he := fieldExpectedSize_declared (Γ := Γ) (n := n) hs
    rcases hs with hs | ⟨name, hs, hv⟩
    · simp [hs, W.ok]
    · simp [hs, he, W.ok]

theorem dumpAll_ok {g : Value → W} {l : List Value} {bs : Bytes} {u : Unit} (h : dumpAll g l = (bs, .ok u)) :
    ∃ ps : List Bytes, ps.length = l.length ∧ bs = ps.flatten ∧
      ∀ i (hi : i < l.length) (hi' : i < ps.length), g l[i] = (ps[i], .ok ()) := by
  induction l generalizing bs with
  | nil => simp [dumpAll, W.ok] at h; exact ⟨[], by simp [h]⟩
  | cons v vs ih =>
    simp only [dumpAll] at h
    obtain ⟨x, y, h1, h2, rfl⟩ := W.seq_ok h
    obtain ⟨ps, h3, rfl, h4⟩ := ih h2
    refine ⟨x :: ps, by simp [h3], by simp, ?_⟩
    intro i hi hi'
    cases i with
    | zero => simpa using h1
    | succ i => simpa using h4 i (by simpa using hi) (by simpa using hi')

theorem dumpUnsized_ok {name : String} {g : Value → W} {k : Int} {l : List Value} {i : Nat} {bs : Bytes} {u : Unit}
    (hi : (i : Int) ≤ k) (h : dumpUnsized name g (some k) i l = (bs, .ok u)) :
    ((i + l.length : Nat) : Int) = k ∧ dumpAll g l = (bs, .ok ()) := by
  induction l generalizing i bs with
  | nil =>
    simp only [dumpUnsized] at h
    split at h
    · simp [W.fail] at h
    · refine ⟨by simp; omega, ?_⟩
      simp only [dumpAll]; simpa [W.ok] using h
  | cons v vs ih =>
    simp only [dumpUnsized] at h
    split at h
    · simp [W.fail] at h
    · rename_i hne
      obtain ⟨x, y, h1, h2, rfl⟩ := W.seq_ok h
      have hik : (i : Int) ≠ k := fun hx => hne (by rw [hx])
      obtain ⟨h3, h4⟩ := ih (by omega) h2
      refine ⟨by simp at h3 ⊢; omega, ?_⟩
      simp [dumpAll, h1, h4, W.seq]

theorem dumpUnsized_none {name : String} {g : Value → W} {l : List Value} {i : Nat} :
    dumpUnsized name g none i l = dumpAll g l := by
  induction l generalizing i with
  | nil => rfl
  | cons v vs ih => simp [dumpUnsized, dumpAll, ih]

theorem dumpUnsized_exact {name : String} {g : Value → W} {l : List Value} {i : Nat} :
    dumpUnsized name g (some ((i + l.length : Nat) : Int)) i l = dumpAll g l := by
  induction l generalizing i with
  | nil => simp [dumpUnsized, dumpAll]
  | cons v vs ih =>
    simp only [dumpUnsized, dumpAll]
    rw [if_neg (by simp; omega)]
    have := ih (i := i + 1)
    have e : i + 1 + vs.length = i + (v :: vs).length := by simp; omega
    rw [e] at this
    rw [this]

/-- Wrong number of elements from an iterator: an error; the count's, unless an element failed before. -/
theorem dumpUnsized_bad {name : String} {g : Value → W} {k : Int} {l : List Value} {i : Nat} (hk : (i : Int) ≤ k)
    (hl : ((i + l.length : Nat) : Int) ≠ k) :
    ∃ e, (dumpUnsized name g (some k) i l).2 = .error e ∧
      ((∃ a b, e = .arraySize name a b) ∨ ∃ v ∈ l, (g v).2 = .error e) := by
  induction l generalizing i with
  | nil =>
    simp only [dumpUnsized]
    rw [if_pos (by simp at hl; omega)]
    exact ⟨_, rfl, Or.inl ⟨_, _, rfl⟩⟩
  | cons v vs ih =>
    simp only [dumpUnsized]
    by_cases hx : some (i : Int) = some k
    · rw [if_pos hx]; exact ⟨_, rfl, Or.inl ⟨_, _, rfl⟩⟩
    · rw [if_neg hx]
      have hik : (i : Int) ≠ k := fun h => hx (by rw [h])
      obtain ⟨e, h1, h2⟩ := ih (i := i + 1) (by omega) (by simp at hl ⊢; omega)
      rcases hg : g v with ⟨x, r⟩
      cases r with
      | error e' => exact ⟨e', by simp [W.seq], Or.inr ⟨v, by simp, by rw [hg]⟩⟩
      | ok u =>
        refine ⟨e, by simp [W.seq, h1], ?_⟩
        rcases h2 with h2 | ⟨w, hw, h2⟩
        · exact Or.inl h2
        · exact Or.inr ⟨w, by simp [hw], h2⟩

/-- The default check leaves the list alone. -/
theorem haltCheck_keeps {name : String} {count : Count} {ctx : Value} {loaded : Dict} (s : Stream) (vs : List Value) (b : Bool)
    (vs' : List Value) (h : haltCheck name count none ctx loaded s vs = .ok (b, vs')) : vs' = vs := by
  unfold haltCheck at h
  cases hs : shouldHalt name count s vs loaded with
  | error e => rw [hs] at h; simp [Except.map] at h
  | ok x => rw [hs] at h; simp [Except.map] at h; exact h.2.symm

theorem fieldDoLoad_array {Γ : Classes} {n : Nat} {b : FieldBase} {comp : Field} {count : Count}
    {halt : Option (Stream → List Value → Value → Dict → Except Err (Bool × List Value))} {s : Stream} {ctx : Value} {loaded : Dict} :
    fieldDoLoad Γ (n + 1) (.array b comp count halt) s ctx loaded =
      R.map (arrayLoop (haltCheck b.name count halt ctx loaded) (fun s => fieldFromStream Γ n comp s ctx loaded) n [] s)
        .list := by
  simp [fieldDoLoad, containerLoad]

theorem arrayLoop_count {name : String} {count : Count} {ctx : Value} {loaded : Dict} {k : Int}
    (hc : CountIs count loaded k) {load : Stream → R Value} {fuel : Nat} {acc l : List Value} {s s' : Stream}
    (h : arrayLoop (haltCheck name count none ctx loaded) load fuel acc s = (.ok l, s'))
    (hacc : (acc.length : Int) ≤ max k 0) : (l.length : Int) = max k 0 := by
  induction fuel generalizing acc s with
  | zero =>
    unfold arrayLoop at h
    simp only [haltCheck, shouldHalt_count hc, Except.map] at h
    by_cases hk : k ≤ acc.length
    · simp only [hk, decide_true] at h
      simp at h; obtain ⟨rfl, -⟩ := h; omega
    · simp only [hk, decide_false] at h
      split at h <;> simp at h
  | succ fuel ih =>
    unfold arrayLoop at h
    simp only [haltCheck, shouldHalt_count hc, Except.map] at h
    by_cases hk : k ≤ acc.length
    · simp only [hk, decide_true] at h
      simp at h; obtain ⟨rfl, -⟩ := h; omega
    · simp only [hk, decide_false] at h
      split at h
      · simp at h
      · apply ih h
        split
        · exact hacc
        · simp; omega

/-- Loading the elements of a counted array, one after the other. -/
theorem arrayLoop_elements {name : String} {count : Count} {ctx : Value} {loaded : Dict} {load : Stream → R Value}
    {l : List Value} {ps : List Bytes} {acc : List Value} {pre rest : Bytes} {fuel : Nat} (hlen : ps.length = l.length)
    (hload : ∀ i (hi : i < l.length) (hi' : i < ps.length), l[i] ≠ .notPresent ∧ ∀ pre rest,
      load ⟨pre ++ ps[i] ++ rest, pre.length⟩ = (.ok l[i], ⟨pre ++ ps[i] ++ rest, pre.length + ps[i].length⟩))
    (hcount : CountIs count loaded ((acc.length + l.length : Nat) : Int) ∨
      (count = .none ∧ rest = [] ∧ ∀ p ∈ ps, p ≠ [])) (hfuel : l.length ≤ fuel) :
    arrayLoop (haltCheck name count none ctx loaded) load fuel acc ⟨pre ++ ps.flatten ++ rest, pre.length⟩ =
      (.ok (acc ++ l), ⟨pre ++ ps.flatten ++ rest, pre.length + ps.flatten.length⟩) := by
  induction l generalizing ps acc pre fuel with
  | nil =>
    have : ps = [] := List.length_eq_zero_iff.1 hlen
    subst this
    unfold arrayLoop
    have hh : haltCheck name count none ctx loaded ⟨pre ++ ([] : List Bytes).flatten ++ rest, pre.length⟩ acc = .ok (true, acc) := by
      rcases hcount with hc | ⟨rfl, rfl, -⟩
      · simp [haltCheck, shouldHalt_count hc, Except.map]
      · simp [haltCheck, shouldHalt_none, Stream.rest, Except.map]
    rw [hh]
    simp
  | cons v vs ih =>
    cases ps with
    | nil => simp at hlen
    | cons p ps =>
      obtain ⟨hnp, hl⟩ := hload 0 (by simp) (by simp)
      simp only [List.getElem_cons_zero] at hnp hl
      have hh : haltCheck name count none ctx loaded ⟨pre ++ (p :: ps).flatten ++ rest, pre.length⟩ acc = .ok (false, acc) := by
        rcases hcount with hc | ⟨rfl, rfl, hne⟩
        · simp [haltCheck, shouldHalt_count hc, Except.map]; omega
        · have := hne p (by simp)
          simp [haltCheck, shouldHalt_none, Stream.rest, Except.map]
          exact fun hp => absurd hp this
      have hl' := hl pre (ps.flatten ++ rest)
      have e1 : pre ++ p ++ (ps.flatten ++ rest) = pre ++ (p :: ps).flatten ++ rest := by simp
      rw [e1] at hl'
      unfold arrayLoop
      rw [hh]
      simp only [hl']
      cases fuel with
      | zero => simp at hfuel
      | succ fuel =>
        simp only
        rw [if_neg hnp]
        have hlen' : ps.length = vs.length := by simpa using hlen
        have := ih (ps := ps) (acc := acc ++ [v]) (pre := pre ++ p) (fuel := fuel) hlen' (by
            intro i hi hi'
            have := hload (i + 1) (by simpa using hi) (by simpa using hi')
            simpa using this) (by
            rcases hcount with hc | ⟨h1, h2, h3⟩
            · left
              have e : (acc ++ [v]).length + vs.length = acc.length + (v :: vs).length := by simp; omega
              rw [e]; exact hc
            · exact Or.inr ⟨h1, h2, fun q hq => h3 q (by simp [hq])⟩) (by simpa using hfuel)
        have e2 : (pre ++ p).length = pre.length + p.length := by simp
        have e3 : pre ++ p ++ ps.flatten ++ rest = pre ++ (p :: ps).flatten ++ rest := by simp
        rw [e2, e3] at this
        rw [this]
        simp [Nat.add_assoc]

theorem arrayLoop_terminates {halt : Stream → List Value → Except Err (Bool × List Value)} {load : Stream → R Value} {data : Bytes}
    (hhalt : ∀ s vs, halt s vs = .ok (decide (s.rest = []), vs))
    (hterm : ∀ p, (load ⟨data, p⟩).1 ≠ .error .outOfFuel)
    (hprog : ∀ p v t, load ⟨data, p⟩ = (.ok v, t) → t.data = data ∧ p < t.pos) (fuel : Nat) (acc : List Value) (p : Nat)
    (hf : data.length ≤ p + fuel) : (arrayLoop halt load fuel acc ⟨data, p⟩).1 ≠ .error .outOfFuel := by
  induction fuel generalizing acc p with
  | zero =>
    unfold arrayLoop
    rw [hhalt]
    have : (⟨data, p⟩ : Stream).rest = [] := by simp [Stream.rest]; omega
    simp [this]
  | succ fuel ih =>
    unfold arrayLoop
    rw [hhalt]
    by_cases hr : (⟨data, p⟩ : Stream).rest = []
    · simp [hr]
    · simp only [hr, decide_false]
      rcases hl : load ⟨data, p⟩ with ⟨r, t⟩
      have h1 := hterm p
      rw [hl] at h1
      cases r with
      | error e => simpa using h1
      | ok v =>
        obtain ⟨h2, h3⟩ := hprog p v t hl
        obtain ⟨td, tp⟩ := t
        simp only at h2 h3 ⊢
        subst h2
        exact ih _ _ (by omega)

theorem arrayLoop_count_terminates {halt : Stream → List Value → Except Err (Bool × List Value)} {load : Stream → R Value} {k : Int}
    (hhalt : ∀ s vs, halt s vs = .ok (decide (k ≤ (vs.length : Int)), vs))
    (hterm : ∀ s, (load s).1 ≠ .error .outOfFuel) (hpres : ∀ s t, load s ≠ (.ok .notPresent, t))
    (fuel : Nat) (acc : List Value) (s : Stream)
    (hf : k ≤ acc.length + fuel) : (arrayLoop halt load fuel acc s).1 ≠ .error .outOfFuel := by
  induction fuel generalizing acc s with
  | zero =>
    unfold arrayLoop
    rw [hhalt]
    have : k ≤ (acc.length : Int) := by omega
    simp [this]
  | succ fuel ih =>
    unfold arrayLoop
    rw [hhalt]
    by_cases hr : k ≤ (acc.length : Int)
    · simp [hr]
    · simp only [hr, decide_false]
      rcases hl : load s with ⟨r, t⟩
      have h1 := hterm s
      rw [hl] at h1
      cases r with
      | error e => simpa using h1
      | ok v =>
        have hv : v ≠ .notPresent := by
          intro hv; subst hv; exact hpres s t hl
        simp only
        rw [if_neg hv]
        apply ih
        simp; omega

/-- A loop that stays in the same place never ends. -/
theorem arrayLoop_diverges {halt : Stream → List Value → Except Err (Bool × List Value)} {load : Stream → R Value} {s : Stream}
    (P : List Value → Prop) (hhalt : ∀ vs, P vs → halt s vs = .ok (false, vs))
    (hload : (load s).1 = .error .outOfFuel ∨ ∃ v, load s = (.ok v, s) ∧ ∀ vs, P vs → P (if v = .notPresent then vs else vs ++ [v]))
    (fuel : Nat) (acc : List Value) (hP : P acc) : (arrayLoop halt load fuel acc s).1 = .error .outOfFuel := by
  induction fuel generalizing acc with
  | zero =>
    unfold arrayLoop
    rw [hhalt acc hP]
    simp only
    rcases hload with h | ⟨v, h, -⟩
    · rcases hl : load s with ⟨r, t⟩
      rw [hl] at h; simp only at h; subst h; rfl
    · rw [h]
  | succ fuel ih =>
    unfold arrayLoop
    rw [hhalt acc hP]
    simp only
    rcases hload with h | ⟨v, h, hv⟩
    · rcases hl : load s with ⟨r, t⟩
      rw [hl] at h; simp only at h; subst h; rfl
    · rw [h]
      exact ih _ (hv acc hP)

end Verif
