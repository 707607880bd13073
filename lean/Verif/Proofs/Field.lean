import Verif.Proofs.FuelDump
import Verif.Spec.Field
import Verif.Props.VarInt
import Verif.Props.IntCodec

/-! Helper lemmas about single fields. -/

namespace Verif

/-- `_add_padding` of any field. -/
def fieldAddPadding (f : Field) : Bytes → Int → Except Err Bytes :=
  match f with
  | .leaf b k => leafAddPadding b k
  | f => fun _ _ => .error (.valueSize f.name)

theorem fieldToStream_succ (Γ : Classes) (n : Nat) (f : Field) (v ctx : Value) (all : Dict) :
    fieldToStream Γ (n + 1) f v ctx all =
      toStreamWith f.base (fun v => fieldDoDump Γ n f v ctx all) (fieldNullRepr Γ n f all) (fieldExpectedSize Γ n f all)
        (fieldAddPadding f) v := by
  cases f <;> rfl

@[simp] theorem W.ok_fst (b : Bytes) : (W.ok b).1 = b := rfl
@[simp] theorem W.ok_snd (b : Bytes) : (W.ok b).2 = .ok () := rfl
@[simp] theorem W.fail_fst (e : Err) : (W.fail e).1 = [] := rfl
@[simp] theorem W.fail_snd (e : Err) : (W.fail e).2 = .error e := rfl

theorem W.ofExcept_error {r : Except Err Bytes} {e : Err} (h : (W.ofExcept r).2 = .error e) :
    (W.ofExcept r).1 = [] := by
  cases r <;> simp_all [W.ofExcept]

theorem W.ofExcept_ok {r : Except Err Bytes} {b : Bytes} {u : Unit} (h : W.ofExcept r = (b, .ok u)) : r = .ok b := by
  cases r with
  | error e => simp [W.ofExcept, W.fail] at h
  | ok a => simp [W.ofExcept, W.ok] at h; rw [h]

theorem W.toExcept_ok {a : W} {b : Bytes} (h : a.toExcept = .ok b) : a = (b, .ok ()) := by
  obtain ⟨x, y⟩ := a
  cases y with
  | error e => simp [W.toExcept] at h
  | ok u => simp [W.toExcept] at h; rw [h]

theorem W.toExcept_error {a : W} {e : Err} (h : a.toExcept = .error e) : a.2 = .error e := by
  obtain ⟨x, y⟩ := a
  cases y with
  | error e => simpa [W.toExcept] using h
  | ok u => simp [W.toExcept] at h

theorem finishDump_error {b : FieldBase} {e : Except Err Int} {p : Bytes → Int → Except Err Bytes} {s : Bytes} {x : Err}
    (h : (finishDump b e p s).2 = .error x) : (finishDump b e p s).1 = [] := by
  have key : ∀ r : Except Err Int, ∀ w : W, w = (match r with
      | .error e => W.fail e
      | .ok n => if (s.length : Int) - n > 0 then W.fail (.valueSize b.name)
        else if (s.length : Int) - n < 0 then W.ofExcept (p s n) else W.ok s) → w.2 = .error x → w.1 = [] := by
    intro r w hw hx
    subst hw
    cases r with
    | error e => rfl
    | ok n =>
      simp only at hx ⊢
      split
      · rfl
      · rename_i h1
        rw [if_neg h1] at hx
        split
        · rename_i h2; rw [if_pos h2] at hx; exact W.ofExcept_error hx
        · rename_i h2; rw [if_neg h2] at hx; simp at hx
  unfold finishDump at h ⊢
  cases hs : b.size with
  | none => simp only [hs] at h ⊢; exact key (.ok s.length) _ rfl h
  | fixed k => simp only [hs] at h ⊢; exact key (.ok k) _ rfl h
  | ref name => simp only [hs] at h ⊢; exact key e _ rfl h

theorem toStreamWith_error {b : FieldBase} {g : Value → W} {r : Except Err Bytes} {e : Except Err Int}
    {p : Bytes → Int → Except Err Bytes} {v : Value} {x : Err} (h : (toStreamWith b g r e p v).2 = .error x) :
    (toStreamWith b g r e p v).1 = [] := by
  unfold toStreamWith at h ⊢
  split
  · rfl
  · rename_i w hw
    simp only [hw] at h
    split
    · rfl
    · rename_i h1
      simp only [h1, if_false] at h
      split
      · rfl
      · rename_i h2
        simp only [h2] at h
        split
        · rename_i h3; simp only [h3, if_true] at h; exact W.ofExcept_error h
        · rename_i h3
          simp only [h3, if_false] at h
          split
          · rfl
          · rename_i h4; simp only [h4] at h; exact finishDump_error h

theorem runValidators_ok_iff (vs : List (Value → Except Err Unit)) (v : Value) :
    runValidators vs v = .ok () ↔ ∀ c ∈ vs, c v = .ok () := by
  induction vs with
  | nil => simp [runValidators]
  | cons c cs ih =>
    simp only [runValidators, List.mem_cons, forall_eq_or_imp]
    cases h : c v with
    | error e => simp
    | ok u => cases u; simp [ih]

theorem runValidators_error (vs : List (Value → Except Err Unit)) (v : Value) (h : ¬ ∀ c ∈ vs, c v = .ok ()) :
    ∃ c ∈ vs, ∃ e, c v = .error e ∧ runValidators vs v = .error e := by
  induction vs with
  | nil => simp at h
  | cons c cs ih =>
    simp only [runValidators]
    cases hc : c v with
    | error e => exact ⟨c, List.mem_cons_self, e, hc, rfl⟩
    | ok u =>
      cases u
      have : ¬ ∀ d ∈ cs, d v = .ok () := fun h' => h (by simp [hc]; exact h')
      obtain ⟨d, hd, e, h1, h2⟩ := ih this
      exact ⟨d, List.mem_cons_of_mem _ hd, e, h1, h2⟩

theorem runValidators_unit {vs : List (Value → Except Err Unit)} {v : Value} {u : Unit}
    (h : runValidators vs v = .ok u) : ∀ c ∈ vs, c v = .ok () := (runValidators_ok_iff vs v).1 (by cases u; exact h)

/-- What a successful `to_stream` of a non-null value did. -/
theorem toStreamWith_ok {b : FieldBase} {g : Value → W} {r : Except Err Bytes} {e : Except Err Int}
    {p : Bytes → Int → Except Err Bytes} {v : Value} {bs : Bytes} {u : Unit}
    (h : toStreamWith b g r e p v = (bs, .ok u)) :
    ∃ w, (if v = .dflt then b.default else .ok v) = .ok w ∧ w ≠ .undefined ∧ w ≠ .dflt ∧
      (∀ c ∈ b.validators, c w = .ok ()) ∧
      ((w = .none ∧ r = .ok bs) ∨
       (w ≠ .none ∧ ∃ ser, g w = (ser, .ok ()) ∧ finishDump b e p ser = (bs, .ok ()))) := by
  unfold toStreamWith at h
  split at h
  · simp [W.fail] at h
  · rename_i w hw
    split at h
    · simp [W.fail] at h
    · rename_i h1
      split at h
      · simp [W.fail] at h
      · rename_i h2
        refine ⟨w, hw, fun hx => h1 (Or.inl hx), fun hx => h1 (Or.inr hx), runValidators_unit h2, ?_⟩
        split at h
        · rename_i h3; exact Or.inl ⟨h3, W.ofExcept_ok h⟩
        · rename_i h3
          right; refine ⟨h3, ?_⟩
          split at h
          · simp [W.fail] at h
          · rename_i ser h4
            cases u
            exact ⟨ser, W.toExcept_ok h4, h⟩

theorem finishDump_ok {b : FieldBase} {e : Except Err Int} {p : Bytes → Int → Except Err Bytes} {ser bs : Bytes} {u : Unit}
    (h : finishDump b e p ser = (bs, .ok u)) :
    (b.size = .none ∧ bs = ser) ∨
    ∃ k, (b.size = .fixed k ∨ (∃ name, b.size = .ref name ∧ e = .ok k)) ∧
      (((ser.length : Int) = k ∧ bs = ser) ∨ ((ser.length : Int) < k ∧ p ser k = .ok bs)) := by
  unfold finishDump at h
  cases hs : b.size with
  | none =>
    simp only [hs] at h
    rw [if_neg (by omega), if_neg (by omega)] at h
    simp [W.ok] at h
    left; exact ⟨rfl, h.symm⟩
  | fixed k =>
    right; refine ⟨k, Or.inl rfl, ?_⟩
    simp only [hs] at h
    split at h
    · simp [W.fail] at h
    · split at h
      · right; exact ⟨by omega, W.ofExcept_ok h⟩
      · left; simp [W.ok] at h; exact ⟨by omega, h.symm⟩
  | ref name =>
    right
    simp only [hs] at h
    split at h
    · simp [W.fail] at h
    · rename_i k
      refine ⟨k, Or.inr ⟨name, rfl, rfl⟩, ?_⟩
      split at h
      · simp [W.fail] at h
      · split at h
        · right; exact ⟨by omega, W.ofExcept_ok h⟩
        · left; simp [W.ok] at h; exact ⟨by omega, h.symm⟩

theorem expectedSizeWith_declared {b : FieldBase} {sf : Value → Except Err (Option Int)} {r : Except Err Bytes}
    {values : Dict} {k : Int}
    (h : b.size = .fixed k ∨ ∃ name, b.size = .ref name ∧ values.get? name = some (.int k)) :
    b.expectedSizeWith sf r values = .ok k := by
  unfold FieldBase.expectedSizeWith
  rcases h with h | ⟨name, h, h'⟩
  · rw [h]
  · rw [h]; simp [sizeFromRef, h']

theorem fieldExpectedSize_declared {Γ : Classes} {n : Nat} {f : Field} {values : Dict} {k : Int}
    (h : Spec.DeclaredSize f values k) : fieldExpectedSize Γ n f values = .ok k := by
  cases f <;> exact expectedSizeWith_declared h

theorem leafExpectedSize_declared {b : FieldBase} {kd : Leaf} {values : Dict} {k : Int}
    (h : Spec.DeclaredSize (.leaf b kd) values k) : leafExpectedSize b kd values = .ok k :=
  expectedSizeWith_declared h

/-- The built-in fields meet the contract of `_add_padding`. -/
theorem padsExactly_length {f : Field} (hp : Spec.PadsExactly f) {s r : Bytes} {n : Int} (hlt : (s.length : Int) < n)
    (h : fieldAddPadding f s n = .ok r) : (r.length : Int) = n := by
  cases f with
  | leaf b k =>
    simp only [fieldAddPadding, leafAddPadding] at h
    cases k with
    | string c pad =>
      cases pad with
      | none => simp at h
      | some p => simp at h; subst h; simp; omega
    | stringz c pad =>
      cases pad with
      | none => simp at h
      | some p => simp at h; subst h; simp; omega
    | custom ops =>
      cases hops : ops.pad with
      | none => simp [hops] at h
      | some g => simp [hops] at h; exact hp g hops s n r hlt h
    | _ => simp at h
  | _ => simp [fieldAddPadding] at h

end Verif

namespace Verif

theorem peekBytes_eq (s : Stream) (n : Nat) : peekBytes s n = (.ok (s.rest.take n), s) := by
  have h : ¬ ((n : Int) < 0) := by omega
  simp [peekBytes, Stream.read, Stream.seek, Stream.tell, Stream.rest, h]

theorem finishLoad_ok {b : FieldBase} {eq : Value → Value → Except Err Bool} {w v : Value}
    (h : finishLoad b eq w = .ok v) :
    (v = w ∨ (v = .none ∧ b.allowNull = true ∧ eq w b.nullValue = .ok true)) ∧
    (b.allowNull = true → v = w → eq w b.nullValue = .ok false ∨ v = .none) ∧
    (b.const ≠ .undefined → eq v b.const = .ok true) ∧ (∀ c ∈ b.validators, c v = .ok ()) := by
  unfold finishLoad at h
  split at h
  · simp at h
  · rename_i isNull hn
    simp only at h
    split at h
    · simp at h
    · simp at h
    · rename_i hc
      split at h
      · simp at h
      · rename_i hv
        simp only [Except.ok.injEq] at h
        refine ⟨?_, ?_, ?_, ?_⟩
        · cases isNull with
          | false => left; simpa using h.symm
          | true =>
            right
            refine ⟨by simpa using h.symm, ?_⟩
            by_cases ha : b.allowNull = true
            · exact ⟨ha, by simpa [ha] using hn⟩
            · simp [ha] at hn
        · intro ha hvw
          cases isNull with
          | false => left; simpa [ha] using hn
          | true => right; simpa using h.symm
        · intro hcu
          simp only [hcu, ne_eq, not_false_eq_true, if_true] at hc
          rw [← h]; exact hc
        · rw [← h]; exact runValidators_unit hv

theorem loadAndFinish_ok {b : FieldBase} {eq : Value → Value → Except Err Bool} {l : Stream → R Value} {s s' : Stream}
    {v : Value} (h : loadAndFinish b eq l s = (.ok v, s')) : ∃ w, l s = (.ok w, s') ∧ finishLoad b eq w = .ok v := by
  unfold loadAndFinish at h
  split at h
  · simp at h
  · rename_i w t hl
    simp only [Prod.mk.injEq] at h
    exact ⟨w, by rw [hl, h.2], h.1⟩

/-- What a successful `from_stream` did. -/
theorem fromStreamWith_ok {b : FieldBase} {eq : Value → Value → Except Err Bool} {r : Except Err Bytes}
    {l : Stream → R Value} {s s' : Stream} {ctx : Value} {loaded : Dict} {v : Value}
    (h : fromStreamWith b eq r l s ctx loaded = (.ok v, s')) :
    (b.present loaded.view ctx (some s) = .ok false ∧ v = b.notPresentValue ∧ s' = s) ∨
    (b.present loaded.view ctx (some s) = .ok true ∧ (∀ c ∈ b.validators, c v = .ok ()) ∧
      ((b.allowNull = true ∧ v = .none ∧ ∃ repr, r = .ok repr ∧ s.rest.take repr.length = repr ∧
          s' = s.seek (s.pos + repr.length)) ∨
       (∃ w, l s = (.ok w, s') ∧ finishLoad b eq w = .ok v))) := by
  unfold fromStreamWith at h
  split at h
  · simp at h
  · rename_i hp
    simp only [Prod.mk.injEq, Except.ok.injEq] at h
    exact Or.inl ⟨hp, h.1.symm, h.2.symm⟩
  · rename_i hp
    right; refine ⟨hp, ?_⟩
    have fin : loadAndFinish b eq l s = (.ok v, s') → (∀ c ∈ b.validators, c v = .ok ()) ∧
        ((b.allowNull = true ∧ v = .none ∧ ∃ repr, r = .ok repr ∧ s.rest.take repr.length = repr ∧
          s' = s.seek (s.pos + repr.length)) ∨ (∃ w, l s = (.ok w, s') ∧ finishLoad b eq w = .ok v)) := by
      intro h
      obtain ⟨w, h1, h2⟩ := loadAndFinish_ok h
      exact ⟨(finishLoad_ok h2).2.2.2, Or.inr ⟨w, h1, h2⟩⟩
    split at h
    · rename_i ha
      split at h
      · split at h
        · split at h
          · simp at h
          · exact fin h
        · simp at h
      · rename_i repr
        rw [peekBytes_eq] at h
        simp only at h
        split at h
        · rename_i hpk
          split at h
          · simp at h
          · rename_i hv
            simp only [Prod.mk.injEq, Except.ok.injEq] at h
            rw [← h.1]
            exact ⟨runValidators_unit hv, Or.inl ⟨ha, rfl, repr, rfl, hpk, h.2.symm⟩⟩
        · exact fin h
    · exact fin h

theorem fromStreamWith_plain {b : FieldBase} {eq : Value → Value → Except Err Bool} {r : Except Err Bytes}
    {l : Stream → R Value} {s : Stream} {ctx : Value} {loaded : Dict}
    (hp : b.present loaded.view ctx (some s) = .ok true)
    (hn : b.allowNull = false ∨ ∃ repr, r = .ok repr ∧ s.rest.take repr.length ≠ repr) :
    fromStreamWith b eq r l s ctx loaded = loadAndFinish b eq l s := by
  unfold fromStreamWith
  simp only [hp]
  rcases hn with hn | ⟨repr, hr, hne⟩
  · simp [hn]
  · split
    · subst hr
      simp only [peekBytes_eq]
      rw [if_neg hne]
    · rfl

theorem fromStreamWith_null {b : FieldBase} {eq : Value → Value → Except Err Bool} {r : Except Err Bytes}
    {l : Stream → R Value} {s : Stream} {ctx : Value} {loaded : Dict} {repr : Bytes}
    (hp : b.present loaded.view ctx (some s) = .ok true) (ha : b.allowNull = true) (hr : r = .ok repr)
    (hpre : s.rest.take repr.length = repr) (hv : ∀ c ∈ b.validators, c .none = .ok ()) :
    fromStreamWith b eq r l s ctx loaded = (.ok .none, s.seek (s.pos + repr.length)) := by
  unfold fromStreamWith
  subst hr
  simp only [hp, ha, if_true, peekBytes_eq, hpre, (runValidators_ok_iff _ _).2 hv]

theorem finishLoad_plain {b : FieldBase} {eq : Value → Value → Except Err Bool} {v : Value}
    (hn : b.allowNull = false ∨ eq v b.nullValue = .ok false) (hc : b.const = .undefined ∨ eq v b.const = .ok true)
    (hv : ∀ c ∈ b.validators, c v = .ok ()) : finishLoad b eq v = .ok v := by
  unfold finishLoad
  have h1 : (if b.allowNull then eq v b.nullValue else .ok false) = .ok false := by
    rcases hn with hn | hn <;> simp [hn]
  rw [h1]
  simp only [Bool.false_eq_true, if_false]
  have h2 : (if b.const ≠ .undefined then eq v b.const else .ok true) = .ok true := by
    rcases hc with hc | hc <;> simp [hc]
  rw [h2]
  simp only [(runValidators_ok_iff _ _).2 hv]

/-- A non-null value is dumped through `_do_dump`. -/
theorem toStreamWith_plain {b : FieldBase} {g : Value → W} {r : Except Err Bytes} {e : Except Err Int}
    {p : Bytes → Int → Except Err Bytes} {v : Value} (h1 : v ≠ .dflt) (h2 : v ≠ .undefined) (h3 : v ≠ .none)
    (hv : ∀ c ∈ b.validators, c v = .ok ()) :
    toStreamWith b g r e p v =
      match (g v).toExcept with
      | .error e => W.fail e
      | .ok serialized => finishDump b e p serialized := by
  unfold toStreamWith
  simp only [h1, h2, h3, (runValidators_ok_iff _ _).2 hv, if_false, or_self]
  cases (g v).toExcept <;> rfl

theorem readExactSize_short (name : String) (k : Int) (s : Stream) (h : (s.rest.length : Int) < k) :
    ∃ off s', readExactSize name (.ok k) s = (.error (.eof (some name) k off), s') := by
  have hk : ¬ k < 0 := by omega
  have hl : (((s.data.drop s.pos).take k.toNat).length : Int) < k := by
    have : ((s.data.drop s.pos).take k.toNat).length ≤ (s.data.drop s.pos).length := by
      rw [List.length_take]; exact Nat.min_le_right ..
    simp only [Stream.rest] at h; omega
  refine ⟨s.tell, { s with pos := s.pos + ((s.data.drop s.pos).take k.toNat).length }, ?_⟩
  simp only [readExactSize, Stream.read, hk, if_false]
  rw [if_pos hl]

theorem readInt_short (k : Int) (s : Stream) (signed : Bool) (e : Endian) (h : (s.rest.length : Int) < k) :
    ∃ off s', readInt s k signed e = (.error (.eof none k off), s') := by
  have hk : ¬ k < 0 := by omega
  have hl : (((s.data.drop s.pos).take k.toNat).length : Int) < k := by
    have : ((s.data.drop s.pos).take k.toNat).length ≤ (s.data.drop s.pos).length := by
      rw [List.length_take]; exact Nat.min_le_right ..
    simp only [Stream.rest] at h; omega
  refine ⟨s.tell, { s with pos := s.pos + ((s.data.drop s.pos).take k.toNat).length }, ?_⟩
  simp only [readInt, Stream.read, hk, if_false]
  rw [if_pos hl]

theorem leafLoad_short (b : FieldBase) (kd : Leaf) (k : Int) (s : Stream) (ctx : Value) (loaded : Dict)
    (hkd : Spec.ReadsExactly kd) (hint : ∀ signed e, kd = .integer signed e → b.size = .fixed k)
    (huuid : ∀ fmt, kd = .uuid fmt → (fmt.size : Int) = k) (h : (s.rest.length : Int) < k) :
    ∃ fld off s', leafLoad b kd (.ok k) s ctx loaded = (.error (.eof fld k off), s') := by
  cases kd with
  | float fmt e =>
    obtain ⟨off, s', hr⟩ := readExactSize_short b.name k s h
    exact ⟨_, off, s', by simp [leafLoad, R.andThen, hr, Except.bind]; rfl⟩
  | integer signed e =>
    obtain ⟨off, s', hr⟩ := readInt_short k s signed e h
    exact ⟨_, off, s', by simp [leafLoad, R.map, hint signed e rfl, hr, Except.map]; rfl⟩
  | varint enc m => exact absurd hkd (by simp [Spec.ReadsExactly])
  | timestamp res tz signed e =>
    obtain ⟨off, s', hr⟩ := readInt_short k s signed e h
    exact ⟨_, off, s', by simp [leafLoad, R.andThen, hr, Except.bind]; rfl⟩
  | bytes =>
    obtain ⟨off, s', hr⟩ := readExactSize_short b.name k s h
    exact ⟨_, off, s', by simp [leafLoad, R.map, hr, Except.map]; rfl⟩
  | string c p =>
    obtain ⟨off, s', hr⟩ := readExactSize_short b.name k s h
    exact ⟨_, off, s', by simp [leafLoad, R.andThen, hr, Except.bind]; rfl⟩
  | stringz c p => exact absurd hkd (by simp [Spec.ReadsExactly])
  | uuid fmt =>
    have hk := huuid fmt rfl
    have hl : (((s.data.drop s.pos).take fmt.size.toNat).length : Int) < fmt.size := by
      have : ((s.data.drop s.pos).take fmt.size.toNat).length ≤ (s.data.drop s.pos).length := by
        rw [List.length_take]; exact Nat.min_le_right ..
      simp only [Stream.rest] at h; omega
    have hneg : ¬ ((fmt.size : Int) < 0) := by omega
    refine ⟨some b.name, s.pos + ((s.data.drop s.pos).take fmt.size.toNat).length,
      { s with pos := s.pos + ((s.data.drop s.pos).take fmt.size.toNat).length }, ?_⟩
    simp only [leafLoad, Stream.read, hneg, if_false, Stream.tell]
    rw [if_pos hl, hk]
  | custom ops => exact absurd hkd (by simp [Spec.ReadsExactly])

end Verif
