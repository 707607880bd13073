import Verif.Spec.Robust
import Verif.Proofs.Canonical
import Verif.Proofs.Locality

/-! Helper lemmas about loading arbitrary bytes: which exceptions there can be, and that there is an end. -/

namespace Verif
open Spec

/-! ## Exceptions -/

theorem Spec.Documented.of_deser {E : Err → Prop} {e : Err} (h : e.isDeserialization = true) : Documented E e := Or.inl h

theorem Spec.Documented.setErrField {E : Err → Prop} {e : Err} (h : Documented E e) (name : String) :
    Documented E (setErrField name e) := by
  cases e <;> first | exact h | exact Or.inl rfl

/-- What is known about the fields loaded so far. -/
def LoadedSoFar (pre : List Field) (loaded : Dict) : Prop :=
  (∀ r, Countable pre r → ∃ i, Dict.get? loaded r = some (.int i)) ∧ ∀ k ∈ Dict.keys loaded, k ∈ pre.map Field.name

theorem leafExpectedSize_sized {pre : List Field} {b : FieldBase} {k : Leaf} {loaded : Dict} (hs : Sized pre b)
    (hl : LoadedSoFar pre loaded) : ∃ n, leafExpectedSize b k loaded = .ok n := by
  unfold leafExpectedSize FieldBase.expectedSizeWith
  rcases hs with ⟨n, hs⟩ | ⟨r, hs, hc⟩
  · exact ⟨n, by simp [hs]⟩
  · obtain ⟨i, hi⟩ := hl.1 r hc
    exact ⟨i, by simp [hs, sizeFromRef, hi]⟩

theorem readExactSize_error {name : String} {n : Int} {s t : Stream} {e : Err}
    (h : readExactSize name (.ok n) s = (.error e, t)) : e.isDeserialization = true := by
  simp only [readExactSize] at h
  split at h
  · simp only [Prod.mk.injEq, Except.error.injEq] at h; rw [← h.1]; rfl
  · simp at h

theorem readInt_error {n : Int} {sg : Bool} {en : Endian} {s t : Stream} {e : Err}
    (h : readInt s n sg en = (.error e, t)) : e.isDeserialization = true := by
  simp only [readInt] at h
  split at h
  · simp only [Prod.mk.injEq, Except.error.injEq] at h; rw [← h.1]; rfl
  · simp at h

theorem decode_error {enc : VarIntEncoding} {s t : Stream} {e : Err} (h : enc.decode s = (.error e, t)) :
    e.isDeserialization = true := by
  rcases C07_decode_exhaustive s with ⟨code, post, hr, hd⟩ | hh
  · rw [C07_decode_delimited enc s code post hd hr] at h; simp at h
  · rw [C07_decode_truncated enc s hh] at h
    simp only [Prod.mk.injEq, Except.error.injEq] at h; rw [← h.1]; rfl

theorem R.map_error {α β : Type} {r : R α} {g : α → β} {e : Err} {t : Stream} (h : R.map r g = (.error e, t)) : r = (.error e, t) := by
  obtain ⟨a, s⟩ := r
  cases a with
  | error x => simpa [R.map, Except.map] using h
  | ok a => simp [R.map, Except.map] at h

theorem R.andThen_error {α β : Type} {r : R α} {g : α → Except Err β} {e : Err} {t : Stream}
    (h : R.andThen r g = (.error e, t)) : r = (.error e, t) ∨ ∃ a, r = (.ok a, t) ∧ g a = .error e := by
  obtain ⟨a, s⟩ := r
  cases a with
  | error x => left; simpa [R.andThen, Except.bind] using h
  | ok a =>
    right
    simp only [R.andThen, Except.bind, Prod.mk.injEq] at h
    exact ⟨a, by rw [h.2], h.1⟩

theorem Except.map_error {α β : Type} {r : Except Err α} {g : α → β} {e : Err} (h : r.map g = .error e) : r = .error e := by
  cases r with
  | error x => simpa [Except.map] using h
  | ok a => simp [Except.map] at h

theorem feed_decode_error {c : CharCodec} {bs : Bytes} {e : Err} (h : c.feed bs = .error e) : c.decode bs = .error e := by
  simp [CharCodec.decode, h]

theorem feed_decode_rest {c : CharCodec} {bs rest : Bytes} {out : List Nat} (h : c.feed bs = .ok (out, rest)) (hr : rest ≠ []) :
    c.decode bs = .error .unicodeErr := by
  cases rest with
  | nil => exact absurd rfl hr
  | cons x r => simp [CharCodec.decode, h]

theorem stringzLoop_error {E : Err → Prop} {c : CharCodec} (hc : ∀ bs e, c.decode bs = .error e → E e) {name : String}
    {max : Option Int} : ∀ (fuel nRead : Nat) (buf : Bytes) (acc : List Nat) (s t : Stream) (e : Err), s.rest.length ≤ fuel →
      (buf = [] ∨ E .unicodeErr) → stringzLoop name c max fuel nRead buf acc s = (.error e, t) → Documented E e := by
  intro fuel
  have hend : ∀ (buf : Bytes) (e : Err), (buf = [] ∨ E .unicodeErr) → zEnd name buf = .error e → Documented E e := by
    intro buf e hb h
    unfold zEnd at h
    split at h
    · simp only [Except.error.injEq] at h; rw [← h]; exact Or.inl rfl
    · rename_i hne
      simp only [Except.error.injEq] at h; rw [← h]
      exact Or.inr (Or.inr (hb.resolve_left hne))
  induction fuel with
  | zero =>
    intro nRead buf acc s t e hs hb h
    have hr : s.rest = [] := List.length_eq_zero_iff.1 (by omega)
    rw [stringzLoop_eof hr] at h
    simp only [Prod.mk.injEq] at h
    exact hend buf e hb h.1
  | succ fuel ih =>
    intro nRead buf acc s t e hle hb h
    cases hs : zStop max nRead with
    | true =>
      rw [stringzLoop_stop hs] at h
      simp only [Prod.mk.injEq] at h
      exact hend buf e hb h.1
    | false =>
      cases hr : s.rest with
      | nil =>
        rw [stringzLoop_eof hr] at h
        simp only [Prod.mk.injEq] at h
        exact hend buf e hb h.1
      | cons x r =>
        rw [stringzLoop_step hs hr] at h
        cases hf : c.feed (buf ++ [x]) with
        | error e' =>
          rw [hf] at h
          simp only [Prod.mk.injEq, Except.error.injEq] at h
          rw [← h.1]
          exact Or.inr (Or.inr (hc _ _ (feed_decode_error hf)))
        | ok o =>
          obtain ⟨out, buf'⟩ := o
          rw [hf] at h
          simp only at h
          by_cases ho : out = [0]
          · rw [if_pos ho] at h; simp at h
          · rw [if_neg ho] at h
            have h1 : (⟨s.data, s.pos + 1⟩ : Stream).rest = r := by
              simp only [Stream.rest] at hr ⊢
              rw [← List.drop_drop, hr]; rfl
            refine ih (nRead + 1) buf' (acc ++ out) _ t e ?_ ?_ h
            · rw [h1]; rw [hr] at hle; simp at hle; omega
            · by_cases hb' : buf' = []
              · exact Or.inl hb'
              · exact Or.inr (hc _ _ (feed_decode_rest hf hb'))

/-- Exceptions of `_do_load` of a leaf. -/
theorem leafLoad_documented {Γ : Classes} {E : Err → Prop} {pre : List Field} {b : FieldBase} {k : Leaf}
    (hr : Robust Γ E pre (.leaf b k)) {loaded : Dict} (hl : LoadedSoFar pre loaded) {s t : Stream} {ctx : Value} {e : Err}
    (h : leafLoad b k (leafExpectedSize b k loaded) s ctx loaded = (.error e, t)) : Documented E e := by
  cases hr with
  | integer hst hsz =>
    simp only [leafLoad, hsz] at h
    exact Or.inl (readInt_error (R.map_error h))
  | varint hst => exact Or.inl (decode_error (R.map_error h))
  | float hst hsz =>
    obtain ⟨n, hn⟩ := leafExpectedSize_sized (k := .float _ _) hsz hl
    rw [hn] at h
    simp only [leafLoad] at h
    rcases R.andThen_error h with h | ⟨a, -, h⟩
    · exact Or.inl (readExactSize_error h)
    · split at h
      · simp at h
      · simp only [Except.error.injEq] at h; rw [← h]; exact Or.inl rfl
  | timestamp hst hsz hc =>
    obtain ⟨n, hn⟩ := leafExpectedSize_sized (k := .timestamp _ _ _ _) hsz hl
    rw [hn] at h
    simp only [leafLoad] at h
    rcases R.andThen_error h with h | ⟨a, -, h⟩
    · exact Or.inl (readInt_error h)
    · exact Or.inr (Or.inr (hc a e (Except.map_error h)))
  | bytes hst hsz =>
    obtain ⟨n, hn⟩ := leafExpectedSize_sized (k := .bytes) hsz hl
    rw [hn] at h
    exact Or.inl (readExactSize_error (R.map_error h))
  | string hst hsz hc =>
    obtain ⟨n, hn⟩ := leafExpectedSize_sized (k := .string _ _) hsz hl
    rw [hn] at h
    simp only [leafLoad] at h
    rcases R.andThen_error h with h | ⟨a, -, h⟩
    · exact Or.inl (readExactSize_error h)
    · exact Or.inr (Or.inr (hc a e (Except.map_error h)))
  | @stringz _ c p hst hsz hc =>
    have hstep : ∀ max, R.map (stringzLoop b.name c max s.rest.length 0 [] [] s) Value.str = (.error e, t) → Documented E e :=
      fun max h => stringzLoop_error hc _ 0 [] [] s t e (Nat.le_refl _) (Or.inl rfl) (R.map_error h)
    rcases hsz with hsz | ⟨hsz, hd, hn⟩
    · obtain ⟨n, hn⟩ := leafExpectedSize_sized (k := .stringz c p) hsz hl
      rw [hn] at h
      exact hstep _ h
    · have hnone : Dict.get? loaded b.name = none := by
        rw [Dict.get?_none_iff]
        exact fun hk => hn (hl.2 _ hk)
      have he : leafExpectedSize b (.stringz c p) loaded = .error (.undefinedSize b.name) := by
        simp [leafExpectedSize, FieldBase.expectedSizeWith, hsz, FieldBase.sizingValue, hnone, hd]
      rw [he] at h
      exact hstep _ h
  | uuid hst hc =>
    simp only [leafLoad] at h
    split at h
    · simp only [Prod.mk.injEq, Except.error.injEq] at h; rw [← h.1]; exact Or.inl rfl
    · simp only [Prod.mk.injEq] at h
      exact Or.inr (Or.inr (hc _ e (Except.map_error h.1)))

/-- A value that is none of the placeholders, and contains no other value. -/
def Atomic : Value → Prop
  | .int _ | .float _ | .bytes _ | .str _ | .uuid _ | .datetime .. => True
  | _ => False

theorem R.map_ok {α β : Type} {r : R α} {g : α → β} {v : β} {t : Stream} (h : R.map r g = (.ok v, t)) :
    ∃ a, r = (.ok a, t) ∧ v = g a := by
  obtain ⟨a, s⟩ := r
  cases a with
  | error x => simp [R.map, Except.map] at h
  | ok a => simp [R.map, Except.map] at h; exact ⟨a, by rw [h.2], h.1.symm⟩

theorem R.andThen_ok {α β : Type} {r : R α} {g : α → Except Err β} {v : β} {t : Stream}
    (h : R.andThen r g = (.ok v, t)) : ∃ a, r = (.ok a, t) ∧ g a = .ok v := by
  obtain ⟨a, s⟩ := r
  cases a with
  | error x => simp [R.andThen, Except.bind] at h
  | ok a =>
    simp only [R.andThen, Except.bind, Prod.mk.injEq] at h
    exact ⟨a, by rw [h.2], h.1⟩

theorem leafLoad_atomic {b : FieldBase} {k : Leaf} (hk : ∀ ops, k ≠ .custom ops) {e : Except Err Int} {s t : Stream} {ctx v : Value}
    {loaded : Dict} (h : leafLoad b k e s ctx loaded = (.ok v, t)) : Atomic v := by
  cases k with
  | custom ops => exact absurd rfl (hk ops)
  | float fmt en =>
    obtain ⟨a, -, h⟩ := R.andThen_ok h
    split at h
    · simp at h; rw [← h]; trivial
    · simp at h
  | integer sg en =>
    simp only [leafLoad] at h
    split at h
    · obtain ⟨a, -, rfl⟩ := R.map_ok h; trivial
    · simp at h
  | varint enc m => obtain ⟨a, -, rfl⟩ := R.map_ok h; trivial
  | timestamp res aw sg en =>
    simp only [leafLoad] at h
    split at h
    · simp at h
    · obtain ⟨a, -, h⟩ := R.andThen_ok h
      obtain ⟨a, -, rfl⟩ := Except.map_ok h; trivial
  | bytes => obtain ⟨a, -, rfl⟩ := R.map_ok h; trivial
  | string c p =>
    obtain ⟨a, -, h⟩ := R.andThen_ok h
    obtain ⟨a, -, rfl⟩ := Except.map_ok h; trivial
  | stringz c p =>
    simp only [leafLoad] at h
    split at h
    · obtain ⟨a, -, rfl⟩ := R.map_ok h; trivial
    · obtain ⟨a, -, rfl⟩ := R.map_ok h; trivial
    · simp at h
  | uuid fmt =>
    simp only [leafLoad] at h
    split at h
    · simp at h
    · simp only [Prod.mk.injEq] at h
      obtain ⟨a, -, rfl⟩ := Except.map_ok h.1; trivial

theorem pyEq_atomic {Γ : Classes} {n : Nat} {v w : Value} (hv : Atomic v ∨ v = .none) (hw : ∀ c vals, w ≠ .struct c vals) :
    ∃ r, pyEq Γ (n + 1) v w = .ok r := by
  rcases hv with hv | rfl
  · cases v <;> simp only [Atomic] at hv <;> cases w <;> first | exact ⟨_, rfl⟩ | exact absurd rfl (hw _ _)
  · cases w <;> first | exact ⟨_, rfl⟩ | exact absurd rfl (hw _ _)

theorem runValidators_documented {E : Err → Prop} {b : FieldBase} (h : Calm E b) {v : Value} {e : Err}
    (he : runValidators b.validators v = .error e) : Documented E e := by
  by_cases hall : ∀ c ∈ b.validators, c v = .ok ()
  · rw [(runValidators_ok_iff _ _).2 hall] at he; simp at he
  · obtain ⟨c, hc, e', h1, h2⟩ := runValidators_error _ _ hall
    rw [h2] at he; simp only [Except.error.injEq] at he; rw [← he]
    exact h.validators c hc v e' h1

/-- Where the exceptions of `Field.from_stream` come from. -/
theorem fromStreamWith_error {E : Err → Prop} {P : Err → Prop} {b : FieldBase} {eq : Value → Value → Except Err Bool}
    {nullRepr : Except Err Bytes} {doLoad : Stream → R Value} {s t : Stream} {ctx : Value} {loaded : Dict} {e : Err}
    (hb : Calm E b) (hP : ∀ e, Documented E e → P e) (hn : b.nullValue = .undefined ∨ ∃ r, nullRepr = .ok r)
    (hd : ∀ e t, doLoad s = (.error e, t) → P (setErrField b.name e))
    (hf : ∀ v e t, doLoad s = (.ok v, t) → finishLoad b eq v = .error e → P e)
    (h : fromStreamWith b eq nullRepr doLoad s ctx loaded = (.error e, t)) : P e := by
  have hlf : ∀ e t, loadAndFinish b eq doLoad s = (.error e, t) → P e := by
    intro e t h
    unfold loadAndFinish at h
    rcases hx : doLoad s with ⟨r, u⟩
    rw [hx] at h
    cases r with
    | error e' => simp only [Prod.mk.injEq, Except.error.injEq] at h; rw [← h.1]; exact hd e' u hx
    | ok v => simp only [Prod.mk.injEq] at h; exact hf v e u hx h.1
  unfold fromStreamWith at h
  split at h
  · rename_i e' hp
    simp only [Prod.mk.injEq, Except.error.injEq] at h; rw [← h.1]
    exact hP _ (hb.present _ _ _ _ hp)
  · simp at h
  · rcases hn with hn | ⟨repr, rfl⟩
    · rw [allowNull_false hn] at h
      exact hlf e t h
    · split at h
      · simp only [peekBytes_eq] at h
        split at h
        · split at h
          · rename_i e' hv
            simp only [Prod.mk.injEq, Except.error.injEq] at h; rw [← h.1]
            exact hP _ (runValidators_documented hb hv)
          · simp at h
        · exact hlf e t h
      · exact hlf e t h

theorem finishLoad_error {E : Err → Prop} {b : FieldBase} {eq : Value → Value → Except Err Bool} {v : Value} {e : Err} (hb : Calm E b)
    (h1 : b.nullValue = .undefined ∨ ∃ r, eq v b.nullValue = .ok r)
    (h2 : b.const = .undefined ∨ ∀ w, w = v ∨ w = .none → ∃ r, eq w b.const = .ok r)
    (h : finishLoad b eq v = .error e) : Documented E e := by
  unfold finishLoad at h
  have hx : ∃ r, (if b.allowNull then eq v b.nullValue else .ok false) = .ok r := by
    rcases h1 with h1 | ⟨r, h1⟩
    · exact ⟨false, by simp [allowNull_false h1]⟩
    · cases b.allowNull
      · exact ⟨false, rfl⟩
      · exact ⟨r, h1⟩
  obtain ⟨r, hx⟩ := hx
  rw [hx] at h
  simp only at h
  have hw : (if r = true then Value.none else v) = v ∨ (if r = true then Value.none else v) = .none := by
    cases r
    · exact Or.inl rfl
    · exact Or.inr rfl
  generalize (if r = true then Value.none else v) = w at h hw
  have hy : ∃ r, (if b.const ≠ .undefined then eq w b.const else .ok true) = .ok r := by
    rcases h2 with h2 | h2
    · exact ⟨true, by simp [h2]⟩
    · by_cases hc : b.const ≠ .undefined
      · rw [if_pos hc]; exact h2 w hw
      · rw [if_neg hc]; exact ⟨true, rfl⟩
  obtain ⟨r, hy⟩ := hy
  rw [hy] at h
  cases r with
  | false => simp only [Except.error.injEq] at h; rw [← h]; exact Or.inr (Or.inl ⟨_, rfl⟩)
  | true =>
    simp only at h
    split at h
    · rename_i hv; simp only [Except.error.injEq] at h; rw [← h]; exact runValidators_documented hb hv
    · simp at h

/-- The attributes of a leaf. -/
theorem Spec.Robust.steady {Γ : Classes} {E : Err → Prop} {pre : List Field} {b : FieldBase} {k : Leaf}
    (h : Robust Γ E pre (.leaf b k)) : Steady E pre b ∧ ∀ ops, k ≠ .custom ops := by
  cases h <;> exact ⟨by assumption, by simp⟩

theorem Spec.Robust.calm {Γ : Classes} {E : Err → Prop} {pre : List Field} {f : Field} (h : Robust Γ E pre f) : Calm E f.base := by
  cases h <;> first | assumption | exact Steady.toCalm (by assumption)

/-- Given the exceptions of `_do_load`, those of `from_stream`. -/
theorem fieldFromStream_error {Γ : Classes} {E : Err → Prop} {P : Err → Prop} {pre : List Field} {f : Field} (hr : Robust Γ E pre f)
    {loaded : Dict} (hl : LoadedSoFar pre loaded) {n : Nat} {s t : Stream} {ctx : Value} {e : Err} (hP : ∀ e, Documented E e → P e)
    (hS : ∀ e name, P e → P (setErrField name e))
    (hd : ∀ e t, fieldDoLoad Γ n f s ctx loaded = (.error e, t) → P e)
    (h : fieldFromStream Γ (n + 1) f s ctx loaded = (.error e, t)) : P e := by
  rw [fieldFromStream] at h
  have hnull : f.base.nullValue = .undefined ∨ ∃ r, fieldNullRepr Γ n f loaded = .ok r := by
    cases f with
    | leaf b k =>
      rcases hr.steady.1.null with h | ⟨bs, h⟩ | ⟨h, hs⟩
      · exact Or.inl h
      · refine Or.inr ⟨bs, ?_⟩
        show leafNullRepr b k loaded = _
        simp [leafNullRepr, FieldBase.nullReprWith, h]
      · obtain ⟨m, hm⟩ := leafExpectedSize_sized (k := k) hs hl
        refine Or.inr ⟨List.replicate m.toNat 0, ?_⟩
        show leafNullRepr b k loaded = _
        simp [leafNullRepr, FieldBase.nullReprWith, h, hm]
    | array b comp count halt => cases hr; exact Or.inl (by assumption)
    | nested b cls => cases hr; exact Or.inl (by assumption)
    | union b ch ld dd => cases hr; exact Or.inl (by assumption)
  refine fromStreamWith_error hr.calm hP hnull (fun e t h => hS _ _ (hd e t h)) ?_ h
  intro v e t hv hfin
  cases n with
  | zero => simp [fieldDoLoad] at hv
  | succ n =>
  refine hP _ ?_
  cases f with
  | leaf b k =>
    have hst := hr.steady
    have hat : Atomic v := by
      simp only [fieldDoLoad] at hv
      exact leafLoad_atomic hst.2 hv
    refine finishLoad_error hr.calm ?_ ?_ hfin
    · rcases hst.1.null with h | ⟨bs, h⟩ | ⟨h, hs⟩
      · exact Or.inl h
      · exact Or.inr (pyEq_atomic (Or.inl hat) (by show ∀ c vals, b.nullValue ≠ _; rw [h]; simp))
      · exact Or.inr (pyEq_atomic (Or.inl hat) (by show ∀ c vals, b.nullValue ≠ _; rw [h]; simp))
    · refine Or.inr fun w hw => pyEq_atomic ?_ hst.1.const
      rcases hw with rfl | rfl
      · exact Or.inl hat
      · exact Or.inr rfl
  | array b comp count halt => cases hr; exact finishLoad_error (by assumption) (Or.inl (by assumption)) (Or.inl (by assumption)) hfin
  | nested b cls => cases hr; exact finishLoad_error (by assumption) (Or.inl (by assumption)) (Or.inl (by assumption)) hfin
  | union b ch ld dd => cases hr; exact finishLoad_error (by assumption) (Or.inl (by assumption)) (Or.inl (by assumption)) hfin

/-- The value of a field that is used as a size or a count is a number. -/
theorem counter_int {Γ : Classes} {f : Field} (hc : Counter f) {n : Nat} {s t : Stream} {ctx v : Value} {loaded : Dict}
    (h : fieldFromStream Γ n f s ctx loaded = (.ok v, t)) : ∃ i, v = .int i := by
  obtain ⟨b, k, rfl, hk, hp, hn⟩ := hc
  cases n with
  | zero => simp [fieldFromStream] at h
  | succ n =>
  rcases fieldFromStream_ok h with ⟨h1, -, -⟩ | ⟨-, -, h1⟩
  · have h2 : b.present loaded.view ctx (some s) = .ok false := h1
    rw [hp] at h2; simp at h2
  · have hnull : (Field.leaf b k).base.allowNull = false := allowNull_false hn
    rw [hnull] at h1
    rcases h1 with ⟨h1, -⟩ | ⟨w, h1, h2⟩
    · simp at h1
    · have h3 : v = w := by
        rcases h2 with h2 | ⟨-, h2⟩
        · exact h2
        · simp at h2
      subst h3
      cases n with
      | zero => simp [fieldDoLoad] at h1
      | succ n =>
      simp only [fieldDoLoad] at h1
      rcases hk with ⟨sg, en, rfl⟩ | ⟨enc, m, rfl⟩
      · simp only [leafLoad] at h1
        split at h1
        · obtain ⟨a, -, rfl⟩ := R.map_ok h1; exact ⟨a, rfl⟩
        · simp at h1
      · obtain ⟨a, -, rfl⟩ := R.map_ok h1; exact ⟨a, rfl⟩

/-- What is known about the loaded fields after one more. -/
theorem LoadedSoFar.step {Γ : Classes} {pre : List Field} {f : Field} {acc : Dict} (hl : LoadedSoFar pre acc)
    (hu : f.name ∉ pre.map Field.name) {n : Nat} {s t : Stream} {ctx v : Value}
    (h : fieldFromStream Γ n f s ctx acc = (.ok v, t)) : LoadedSoFar (pre ++ [f]) (acc.setDefault f.name v) := by
  have hnone : Dict.get? acc f.name = none := by
    rw [Dict.get?_none_iff]; exact fun hk => hu (hl.2 _ hk)
  rw [setDefault_eq, if_pos hnone, ← set_of_not_mem hnone]
  constructor
  · rintro r ⟨g, hg, hgn, hgc⟩
    rw [Dict.get?_set]
    rw [List.mem_append, List.mem_singleton] at hg
    rcases hg with hg | rfl
    · have hne : f.name ≠ r := by
        intro he; exact hu (he ▸ hgn ▸ List.mem_map.2 ⟨g, hg, rfl⟩)
      rw [if_neg hne]
      exact hl.1 r ⟨g, hg, hgn, hgc⟩
    · rw [if_pos hgn]
      obtain ⟨i, rfl⟩ := counter_int hgc h
      exact ⟨i, rfl⟩
  · intro k hk
    rw [set_of_not_mem hnone] at hk
    simp only [Dict.keys, List.map_append, List.mem_append, List.map_cons, List.map_nil, List.mem_singleton] at hk ⊢
    rcases hk with hk | rfl
    · exact Or.inl (hl.2 k hk)
    · exact Or.inr rfl

theorem unique_step {d : StructDesc} (hu : UniqueNames d) {pre post : List Field} {f : Field}
    (h : d.components = pre ++ f :: post) : f.name ∉ pre.map Field.name := by
  unfold UniqueNames names at hu
  rw [h, List.map_append, List.nodup_append] at hu
  intro hm
  exact hu.2.2 f.name hm f.name (by simp) rfl

theorem runAll_error {α : Type} {check : α → Except Err Unit} {l : List α} {e : Err} (h : runAll check l = .error e) :
    ∃ a ∈ l, check a = .error e := by
  induction l with
  | nil => simp [runAll] at h
  | cons a r ih =>
    simp only [runAll] at h
    split at h
    · rename_i e' hc
      simp only [Except.error.injEq] at h
      exact ⟨a, List.mem_cons_self, by rw [hc, h]⟩
    · obtain ⟨x, hx, h⟩ := ih h
      exact ⟨x, List.mem_cons_of_mem _ hx, h⟩

/-- The validators of a robust class only raise what is documented, if every field has a value. -/
theorem validateContents_documented {Γ : Classes} {E : Err → Prop} {d : StructDesc} (hd : RobustClass Γ E d) {vals : Dict}
    (hv : ∀ f ∈ d.components, Dict.get? vals f.name ≠ none) {e : Err} (h : validateContents d vals = .error e) :
    Documented E e := by
  unfold validateContents at h
  split at h
  · rename_i e' hr
    simp only [Except.error.injEq] at h; subst h
    obtain ⟨p, hp, he⟩ := runAll_error hr
    obtain ⟨hn, hm⟩ := hd.methods p hp
    obtain ⟨f, hf, hfn⟩ := List.mem_map.1 hn
    unfold validateField at he
    rw [← hfn, find?_of_mem hd.unique hf] at he
    cases hg : Dict.get? vals f.name with
    | none => exact absurd hg (hv f hf)
    | some v =>
    rw [structGetItem_some (List.mem_map.2 ⟨f, hf, rfl⟩) hg] at he
    simp only at he
    split at he
    · rename_i hrv
      simp only [Except.error.injEq] at he; subst he
      obtain ⟨pre, post, hpp⟩ := List.append_of_mem hf
      exact runValidators_documented (hd.fields pre f post hpp).calm hrv
    · obtain ⟨m, hmm, he⟩ := runAll_error he
      exact hm m hmm _ _ _ he
  · obtain ⟨m, hmm, he⟩ := runAll_error h
    exact hd.validators m hmm _ _ he

theorem loadFields_error {Γ : Classes} {E : Err → Prop} {P : Err → Prop} {d : StructDesc} (hd : RobustClass Γ E d) {n : Nat} {ctx : Value}
    (hf : ∀ pre f, Robust Γ E pre f → ∀ s loaded, LoadedSoFar pre loaded → ∀ e t,
      fieldFromStream Γ n f s ctx loaded = (.error e, t) → P e) :
    ∀ (post pre : List Field) (acc : Dict) (s t : Stream) (e : Err), d.components = pre ++ post → LoadedSoFar pre acc →
      loadFields (fun f s loaded => fieldFromStream Γ n f s ctx loaded) post acc s = (.error e, t) → P e := by
  intro post
  induction post with
  | nil => intro pre acc s t e _ _ h; simp [loadFields] at h
  | cons f fs ih =>
    intro pre acc s t e hpp hl h
    simp only [loadFields] at h
    split at h
    · rename_i e' u he
      simp only [Prod.mk.injEq, Except.error.injEq] at h
      rw [← h.1]
      exact hf pre f (hd.fields pre f fs hpp) s acc hl _ _ he
    · rename_i v u hv
      exact ih (pre ++ [f]) _ u t e (by simp [hpp]) (hl.step (unique_step hd.unique hpp) hv) h

/-- After all fields have been loaded, every field has a value and nothing else has. -/
theorem loadFields_all {Γ : Classes} {n : Nat} {ctx : Value} {d : StructDesc} {s t : Stream} {r : Dict}
    (h : loadFields (fun f s loaded => fieldFromStream Γ n f s ctx loaded) d.components [] s = (.ok r, t)) :
    (∀ f ∈ d.components, Dict.get? r f.name ≠ none) ∧ structInit d r = .ok r := by
  have hk := (loadFields_ok_iff.1 h).keys
  constructor
  · intro f hf hn
    rw [Dict.get?_none_iff] at hn
    exact hn ((hk f.name).2 (Or.inr (List.mem_map.2 ⟨f, hf, rfl⟩)))
  · rw [structInit_ok_iff]
    refine ⟨rfl, fun k hm => ?_⟩
    rcases (hk k).1 hm with h | h
    · simp [Dict.keys] at h
    · exact h

theorem structFromStreamWith_error {Γ : Classes} {E : Err → Prop} {P : Err → Prop} {d : StructDesc} (hd : RobustClass Γ E d) {n : Nat}
    {ctx : Value} {s t : Stream} {e : Err} (hP : ∀ e, Documented E e → P e)
    (hf : ∀ e t, loadFields (fun f s loaded => fieldFromStream Γ n f s ctx loaded) d.components [] s = (.error e, t) → P e)
    (h : structFromStreamWith (fun f s loaded => fieldFromStream Γ n f s ctx loaded) d s [] = (.error e, t)) : P e := by
  unfold structFromStreamWith at h
  rcases hr : loadFields (fun f s loaded => fieldFromStream Γ n f s ctx loaded) d.components [] s with ⟨r, u⟩
  rw [hr] at h
  cases r with
  | error e' => simp only [Prod.mk.injEq, Except.error.injEq] at h; rw [← h.1]; exact hf _ _ hr
  | ok r =>
    obtain ⟨h1, h2⟩ := loadFields_all hr
    simp only [h2] at h
    split at h
    · rename_i e' hv
      simp only [Prod.mk.injEq, Except.error.injEq] at h; rw [← h.1]
      exact hP _ (validateContents_documented hd h1 hv)
    · simp at h

theorem LoadedSoFar.nil : LoadedSoFar [] [] :=
  ⟨fun _ ⟨_, h, _⟩ => by simp at h, fun k h => by simp [Dict.keys] at h⟩

theorem arrayLoop_error {P : Err → Prop} {halt : Stream → List Value → Except Err (Bool × List Value)} {load : Stream → R Value}
    (hh : ∀ s vs e, halt s vs = .error e → P e) (hl : ∀ s e t, load s = (.error e, t) → P e) (hP : P .outOfFuel) :
    ∀ fuel acc s e t, arrayLoop halt load fuel acc s = (.error e, t) → P e := by
  intro fuel
  induction fuel with
  | zero =>
    intro acc s e t h
    unfold arrayLoop at h
    split at h
    · rename_i e' he; simp only [Prod.mk.injEq, Except.error.injEq] at h; rw [← h.1]; exact hh _ _ _ he
    · simp at h
    · split at h
      · rename_i e' u he; simp only [Prod.mk.injEq, Except.error.injEq] at h; rw [← h.1]; exact hl _ _ _ he
      · simp only [Prod.mk.injEq, Except.error.injEq] at h; rw [← h.1]; exact hP
  | succ fuel ih =>
    intro acc s e t h
    unfold arrayLoop at h
    split at h
    · rename_i e' he; simp only [Prod.mk.injEq, Except.error.injEq] at h; rw [← h.1]; exact hh _ _ _ he
    · simp at h
    · split at h
      · rename_i e' u he; simp only [Prod.mk.injEq, Except.error.injEq] at h; rw [← h.1]; exact hl _ _ _ he
      · exact ih _ _ _ _ h

/-- The count of an array is known by the time it is needed. -/
theorem haltCheck_ok {pre : List Field} {loaded : Dict} (hl : LoadedSoFar pre loaded) {count : Count}
    (hc : ∀ r, count = .ref r → r ≠ "" ∧ Countable pre r) {name : String} {ctx : Value} (s : Stream) (vs : List Value) :
    ∃ b, haltCheck name count none ctx loaded s vs = .ok b := by
  unfold haltCheck shouldHalt
  cases count with
  | none => exact ⟨_, rfl⟩
  | fixed m => exact ⟨_, rfl⟩
  | ref r =>
    obtain ⟨h1, h2⟩ := hc r rfl
    obtain ⟨i, hi⟩ := hl.1 r h2
    exact ⟨(decide (i ≤ vs.length), vs), by simp [finalElementCount, h1, hi, Except.map]⟩

theorem loadStruct_error {Γ : Classes} {P : Err → Prop} {load : StructDesc → Stream → Value → R Dict} {cls : String} {s t : Stream}
    {ctx : Value} {e : Err} (hc : (Γ cls).isSome = true) (hl : ∀ d, Γ cls = some d → ∀ e t, load d s ctx = (.error e, t) → P e)
    (h : loadStruct Γ load cls s ctx = (.error e, t)) : P e := by
  unfold loadStruct at h
  cases hd : Γ cls with
  | none => rw [hd] at hc; simp at hc
  | some d =>
    rw [hd] at h
    exact hl d hd e t (R.map_error h)

/-- Which exceptions loading arbitrary bytes can end with. -/
theorem load_documented {Γ : Classes} {E : Err → Prop} (hΓ : ∀ c d, Γ c = some d → RobustClass Γ E d) (n : Nat) :
    (∀ pre f, Robust Γ E pre f → ∀ s ctx loaded, LoadedSoFar pre loaded → ∀ e t,
      fieldFromStream Γ n f s ctx loaded = (.error e, t) → Documented E e ∨ e = .outOfFuel) ∧
    (∀ pre f, Robust Γ E pre f → ∀ s ctx loaded, LoadedSoFar pre loaded → ∀ e t,
      fieldDoLoad Γ n f s ctx loaded = (.error e, t) → Documented E e ∨ e = .outOfFuel) ∧
    (∀ d, RobustClass Γ E d → ∀ s ctx e t,
      structFromStream Γ n d s ctx [] = (.error e, t) → Documented E e ∨ e = .outOfFuel) := by
  induction n with
  | zero =>
    refine ⟨fun pre f _ s ctx l _ e t h => ?_, fun pre f _ s ctx l _ e t h => ?_, fun d _ s ctx e t h => ?_⟩
    · simp [fieldFromStream] at h; exact Or.inr h.1.symm
    · simp [fieldDoLoad] at h; exact Or.inr h.1.symm
    · simp [structFromStream] at h; exact Or.inr h.1.symm
  | succ n ih =>
    obtain ⟨ihf, ihd, ihs⟩ := ih
    refine ⟨fun pre f hr s ctx l hl e t h => ?_, fun pre f hr s ctx l hl e t h => ?_, fun d hd s ctx e t h => ?_⟩
    · refine fieldFromStream_error (P := fun e => Documented E e ∨ e = .outOfFuel) hr hl (fun e h => Or.inl h) ?_
        (ihd pre f hr s ctx l hl) h
      rintro e name (h | rfl)
      · exact Or.inl (h.setErrField name)
      · exact Or.inr rfl
    · cases f with
      | leaf b k =>
        simp only [fieldDoLoad] at h
        exact Or.inl (leafLoad_documented hr hl h)
      | array b comp count halt =>
        cases hr with
        | array hb h1 h2 hc hcomp =>
        rw [fieldDoLoad_array] at h
        refine arrayLoop_error (P := fun e => Documented E e ∨ e = .outOfFuel) ?_ ?_ (Or.inr rfl) _ _ _ _ _ (R.map_error h)
        · intro s vs e he
          obtain ⟨x, hx⟩ := haltCheck_ok hl hc (name := b.name) (ctx := ctx) s vs
          rw [hx] at he; simp at he
        · exact fun s e t he => ihf pre comp hcomp s ctx l hl e t he
      | nested b cls =>
        cases hr with
        | nested hb h1 h2 hc =>
        simp only [fieldDoLoad, containerLoad] at h
        exact loadStruct_error hc (fun d hd e t h => ihs d (hΓ cls d hd) s ctx e t h) h
      | union b choices ld dd =>
        cases hr with
        | union hb h1 h2 hld hlt hch hcc =>
        simp only [fieldDoLoad, containerLoad] at h
        split at h
        · rename_i e' he
          simp only [Prod.mk.injEq, Except.error.injEq] at h; rw [← h.1]
          exact Or.inl (hld _ _ _ _ he)
        · rename_i i hi
          have hlti := hlt _ _ _ _ hi
          split at h
          · rename_i hx; rw [List.getElem?_eq_none_iff] at hx; omega
          · rename_i g hx
            exact ihd pre g (hch g (List.mem_of_getElem? hx)) s ctx l hl e t h
          · rename_i cls hx
            exact loadStruct_error (hcc cls (List.mem_of_getElem? hx)) (fun d hd e t h => ihs d (hΓ cls d hd) s ctx e t h) h
    · rw [structFromStream] at h
      exact structFromStreamWith_error (P := fun e => Documented E e ∨ e = .outOfFuel) hd (fun e h => Or.inl h)
        (fun e t h => loadFields_error hd (P := fun e => Documented E e ∨ e = .outOfFuel)
          (fun pre f hr s l hl e t h => ihf pre f hr s ctx l hl e t h) d.components [] [] s t e rfl LoadedSoFar.nil h) h

/-! ## Termination -/

theorem Spec.Robust.forward {Γ : Classes} {E : Err → Prop} {pre : List Field} {f : Field} (h : Robust Γ E pre f) : LoadsForward f := by
  induction h with
  | array _ _ _ _ _ ih => exact .array ih
  | nested => exact .nested
  | union _ _ _ _ _ _ _ ih => exact .union ih
  | _ => exact .leaf (by simp)

theorem Spec.RobustClass.forward {Γ : Classes} {E : Err → Prop} {d : StructDesc} (h : RobustClass Γ E d) :
    ∀ f ∈ d.components, LoadsForward f := by
  intro f hf
  obtain ⟨pre, post, hpp⟩ := List.append_of_mem hf
  exact (h.fields pre f post hpp).forward

/-- A load that came to an end. -/
def Ended {α : Type} (r : R α) : Prop := r.1 ≠ .error .outOfFuel

theorem Ended.of_error {α : Type} {r : R α} (h : ∀ t, r ≠ (.error .outOfFuel, t)) : Ended r := by
  obtain ⟨a, s⟩ := r
  intro he
  simp only at he
  exact h s (by rw [he])

theorem Ended.mono {α : Type} {a b : R α} (h : Ended a) (hle : RLe a b) : b = a := by
  rcases hle with h' | h'
  · exact absurd h' h
  · exact h'.symm

theorem Ended.map {α β : Type} {r : R α} (h : Ended r) (g : α → β) : Ended (R.map r g) := by
  obtain ⟨a, s⟩ := r
  cases a with
  | ok a => simp [Ended, R.map, Except.map]
  | error e => simpa [Ended, R.map, Except.map] using h

theorem not_oof {E : Err → Prop} (hE : ¬ E .outOfFuel) : ¬ Documented E .outOfFuel := by
  rintro (h | ⟨_, h⟩ | h)
  · simp [Err.isDeserialization] at h
  · simp at h
  · exact hE h

theorem arrayLoop_mono {halt : Stream → List Value → Except Err (Bool × List Value)} {l l' : Stream → R Value}
    (hl : ∀ s, RLe (l s) (l' s)) : ∀ n m acc s, n ≤ m → RLe (arrayLoop halt l n acc s) (arrayLoop halt l' m acc s) := by
  intro n
  induction n with
  | zero =>
    intro m acc s _
    rw [arrayLoop.eq_def, arrayLoop.eq_def]
    simp only
    split
    · exact RLe.refl _
    · exact RLe.refl _
    · rcases hl s with h | h
      · left
        generalize l s = x at h
        obtain ⟨x, t⟩ := x
        simp only at h; subst h; rfl
      · rw [← h]
        split
        · exact RLe.refl _
        · left; rfl
  | succ n ih =>
    intro m acc s hm
    obtain ⟨m, rfl⟩ : ∃ k, m = k + 1 := ⟨m - 1, by omega⟩
    rw [arrayLoop.eq_def, arrayLoop.eq_def]
    simp only
    split
    · exact RLe.refl _
    · exact RLe.refl _
    · rcases hl s with h | h
      · left
        generalize l s = x at h
        obtain ⟨x, t⟩ := x
        simp only at h; subst h; rfl
      · rw [← h]
        split
        · exact RLe.refl _
        · exact ih _ _ _ (by omega)

/-- One step of an array: if the element can be loaded and the rest can, the whole can. -/
theorem arrayLoop_step {halt : Stream → List Value → Except Err (Bool × List Value)} {load : Nat → Stream → R Value}
    (hmono : ∀ n m, n ≤ m → ∀ s, RLe (load n s) (load m s)) (hh : ∀ s vs, halt s vs ≠ .error .outOfFuel)
    (hkeep : ∀ s vs b vs', halt s vs = .ok (b, vs') → vs' = vs) {acc : List Value} {s : Stream} (h1 : ∃ n, Ended (load n s))
    (h2 : halt s acc = .ok (false, acc) → ∀ n v t, load n s = (.ok v, t) →
      ∃ N, Ended (arrayLoop halt (load N) N (if v = .notPresent then acc else acc ++ [v]) t)) :
    ∃ N, Ended (arrayLoop halt (load N) N acc s) := by
  cases hx : halt s acc with
  | error e =>
    refine ⟨0, ?_⟩
    unfold arrayLoop
    rw [hx]
    intro he; simp at he; subst he; exact hh _ _ hx
  | ok b =>
  obtain ⟨b, acc'⟩ := b
  have := hkeep _ _ _ _ hx
  subst this
  cases b with
  | true => refine ⟨0, ?_⟩; unfold arrayLoop; rw [hx]; simp [Ended]
  | false =>
    obtain ⟨n, hn⟩ := h1
    rcases hl : load n s with ⟨r, t⟩
    rw [hl] at hn
    cases r with
    | error e =>
      refine ⟨n, ?_⟩
      unfold arrayLoop
      simp only [hx, hl]
      simpa [Ended] using hn
    | ok v =>
      obtain ⟨N, hN⟩ := h2 hx n v t hl
      refine ⟨max n N + 1, ?_⟩
      have h3 : load (max n N + 1) s = (.ok v, t) := by
        have := Ended.mono (by rw [hl]; exact hn) (hmono n (max n N + 1) (by omega) s)
        rw [this, hl]
      unfold arrayLoop
      simp only [hx, h3]
      have h4 := arrayLoop_mono (halt := halt) (hmono N (max n N + 1) (by omega)) N (max n N)
        (if v = .notPresent then acc' else acc' ++ [v]) t (by omega)
      have h5 := hN.mono h4
      intro he
      rw [h5] at he
      exact hN he

/-- A value that was loaded from the stream is not `NOT_PRESENT`. -/
theorem doLoad_present {Γ : Classes} {E : Err → Prop} {pre : List Field} {f : Field} (hr : Robust Γ E pre f) :
    ∀ n s ctx loaded v t, fieldDoLoad Γ n f s ctx loaded = (.ok v, t) → v ≠ .notPresent := by
  have hstruct : ∀ (load : StructDesc → Stream → Value → R Dict) cls s ctx v t,
      loadStruct Γ load cls s ctx = (.ok v, t) → v ≠ .notPresent := by
    intro load cls s ctx v t h
    unfold loadStruct at h
    split at h
    · simp at h
    · obtain ⟨a, -, rfl⟩ := R.map_ok h; simp
  have hleaf : ∀ b k, (∀ ops, k ≠ .custom ops) → ∀ n s ctx loaded v t,
      fieldDoLoad Γ n (.leaf b k) s ctx loaded = (.ok v, t) → v ≠ .notPresent := by
    intro b k hk n s ctx loaded v t h
    cases n with
    | zero => simp [fieldDoLoad] at h
    | succ n =>
      simp only [fieldDoLoad] at h
      have := leafLoad_atomic hk h
      rintro rfl
      exact this
  induction hr with
  | array _ _ _ _ _ ih =>
    intro n s ctx loaded v t h
    cases n with
    | zero => simp [fieldDoLoad] at h
    | succ n =>
      rw [fieldDoLoad_array] at h
      obtain ⟨a, -, rfl⟩ := R.map_ok h; simp
  | nested =>
    intro n s ctx loaded v t h
    cases n with
    | zero => simp [fieldDoLoad] at h
    | succ n =>
      simp only [fieldDoLoad, containerLoad] at h
      exact hstruct _ _ _ _ _ _ h
  | union _ _ _ _ _ _ _ ih =>
    intro n s ctx loaded v t h
    cases n with
    | zero => simp [fieldDoLoad] at h
    | succ n =>
      simp only [fieldDoLoad, containerLoad] at h
      split at h
      · simp at h
      · split at h
        · simp at h
        · rename_i g hx
          exact ih g (List.mem_of_getElem? hx) _ _ _ _ _ _ h
        · exact hstruct _ _ _ _ _ _ h
  | _ => exact hleaf _ _ (by simp)

theorem fromStream_present {Γ : Classes} {E : Err → Prop} {pre : List Field} {f : Field} (hr : Robust Γ E pre f)
    (hp : ∀ w ctx s, f.base.present w ctx s = .ok true) {n : Nat} {s t : Stream} {ctx v : Value} {loaded : Dict}
    (h : fieldFromStream Γ n f s ctx loaded = (.ok v, t)) : v ≠ .notPresent := by
  cases n with
  | zero => simp [fieldFromStream] at h
  | succ n =>
  rcases fieldFromStream_ok h with ⟨h1, -, -⟩ | ⟨-, -, ⟨-, h1, -⟩ | ⟨w, h1, h2⟩⟩
  · rw [hp] at h1; simp at h1
  · rw [h1]; simp
  · rcases h2 with rfl | ⟨rfl, -⟩
    · exact doLoad_present hr _ _ _ _ _ _ h1
    · simp

theorem fieldFromStream_ends {Γ : Classes} {E : Err → Prop} (hE : ¬ E .outOfFuel) {pre : List Field} {f : Field} (hr : Robust Γ E pre f)
    {loaded : Dict} (hl : LoadedSoFar pre loaded) {n : Nat} {s : Stream} {ctx : Value} (h : Ended (fieldDoLoad Γ n f s ctx loaded)) :
    Ended (fieldFromStream Γ (n + 1) f s ctx loaded) := by
  refine Ended.of_error fun t ht => ?_
  have := fieldFromStream_error (P := fun e => e ≠ .outOfFuel) hr hl (fun e he => by rintro rfl; exact not_oof hE he) ?_ ?_ ht
  · exact this rfl
  · intro e name he
    cases e <;> simp_all [setErrField]
  · intro e t he
    rw [he] at h
    rintro rfl
    exact h rfl

/-- Streams over the same data, not before this one. -/
def Later (s t : Stream) : Prop := t.data = s.data ∧ s.pos ≤ t.pos ∧ t.pos ≤ s.data.length

theorem Later.trans {s t u : Stream} (h : Later s t) (h' : Later t u) : Later s u := by
  obtain ⟨h1, h2, h3⟩ := h
  obtain ⟨h4, h5, h6⟩ := h'
  exact ⟨h4.trans h1, by omega, by rw [h1] at h6; exact h6⟩

theorem later_of_load {Γ : Classes} (hΓ : ∀ c d, Γ c = some d → ∀ f ∈ d.components, LoadsForward f) {f : Field} (hf : LoadsForward f)
    {n : Nat} {s t : Stream} {ctx : Value} {loaded : Dict} {r : Except Err Value} (hs : s.pos ≤ s.data.length)
    (h : fieldFromStream Γ n f s ctx loaded = (r, t)) : Later s t := by
  have := (load_forward Γ hΓ n).1 f hf ctx loaded s hs
  simp only [h] at this
  exact this

/-- `_do_load` comes to an end if loading the classes the field refers to does. -/
theorem fieldDoLoad_ends {Γ : Classes} {E : Err → Prop} (hE : ¬ E .outOfFuel) (hΓ : ∀ c d, Γ c = some d → RobustClass Γ E d)
    {pre : List Field} {f : Field} (hr : Robust Γ E pre f) (hb : Bounded Γ f) {loaded : Dict} (hl : LoadedSoFar pre loaded) :
    ∀ (s : Stream) (ctx : Value), s.pos ≤ s.data.length →
      (∀ c d, Mentions f c → Γ c = some d → ∀ t, Later s t → ∃ n, Ended (structFromStream Γ n d t ctx [])) →
      ∃ n, Ended (fieldDoLoad Γ n f s ctx loaded) := by
  have hfwd : ∀ c d, Γ c = some d → ∀ f ∈ d.components, LoadsForward f := fun c d h => (hΓ c d h).forward
  have hleaf : ∀ b k, Robust Γ E pre (.leaf b k) → ∀ (s : Stream) (ctx : Value), ∃ n, Ended (fieldDoLoad Γ n (.leaf b k) s ctx loaded) := by
    intro b k hr s ctx
    refine ⟨1, Ended.of_error fun t ht => ?_⟩
    simp only [fieldDoLoad] at ht
    exact not_oof hE (leafLoad_documented hr hl ht)
  have hstruct : ∀ cls, (Γ cls).isSome = true → ∀ s ctx, (∀ d, Γ cls = some d → ∃ n, Ended (structFromStream Γ n d s ctx [])) →
      ∃ n, Ended (loadStruct Γ (fun d s ctx => structFromStream Γ n d s ctx []) cls s ctx) := by
    intro cls hc s ctx h
    cases hd : Γ cls with
    | none => rw [hd] at hc; simp at hc
    | some d =>
      obtain ⟨n, hn⟩ := h d hd
      refine ⟨n, ?_⟩
      unfold loadStruct
      rw [hd]
      exact hn.map _
  induction hr with
  | @array b comp count hcalm hconst hnull hcount hcomp ih =>
    intro s ctx hs hm
    have hbc : Bounded Γ comp := by cases hb <;> assumption
    have hload : ∀ t, Later s t → ∃ n, Ended (fieldFromStream Γ n comp t ctx loaded) := by
      intro t ht
      obtain ⟨n, hn⟩ := ih hbc t ctx (by rw [ht.1]; exact ht.2.2) fun c d hc hd u hu => hm c d (.array hc) hd u (ht.trans hu)
      exact ⟨n + 1, fieldFromStream_ends hE hcomp hl hn⟩
    have hhalt : ∀ s vs, haltCheck b.name count none ctx loaded s vs ≠ .error .outOfFuel := by
      intro s vs
      obtain ⟨x, hx⟩ := haltCheck_ok hl hcount (name := b.name) (ctx := ctx) s vs
      rw [hx]; simp
    have hmono : ∀ n m, n ≤ m → ∀ s, RLe (fieldFromStream Γ n comp s ctx loaded) (fieldFromStream Γ m comp s ctx loaded) :=
      fun n m h s => fieldFromStream_mono Γ h comp s ctx loaded
    have key : ∀ (M : Nat) (acc : List Value) (t : Stream), Later s t →
        ((count = .none ∧ t.data.length - t.pos ≤ M) ∨ (∃ k : Int, count ≠ .none ∧ finalElementCount count loaded = .ok (some k) ∧
          k ≤ (acc.length : Int) + M)) →
        ∃ N, Ended (arrayLoop (haltCheck b.name count none ctx loaded) (fun s => fieldFromStream Γ N comp s ctx loaded) N acc t) := by
      intro M
      induction M with
      | zero =>
        intro acc t ht hM
        refine arrayLoop_step (load := fun n s => fieldFromStream Γ n comp s ctx loaded) hmono hhalt haltCheck_keeps (hload t ht) fun hx => ?_
        exfalso
        rcases hM with ⟨rfl, hM⟩ | ⟨k, hc, hk, hM⟩
        · simp only [haltCheck, shouldHalt_none, Except.map] at hx
          have : t.rest = [] := by simp [Stream.rest]; omega
          simp [this] at hx
        · unfold haltCheck shouldHalt at hx
          cases count with
          | none => exact hc rfl
          | fixed m => simp [hk, Except.map] at hx; omega
          | ref r => simp [hk, Except.map] at hx; omega
      | succ M ihM =>
        intro acc t ht hM
        refine arrayLoop_step (load := fun n s => fieldFromStream Γ n comp s ctx loaded) hmono hhalt haltCheck_keeps (hload t ht) fun hx n v u hv => ?_
        have htu : Later t u := later_of_load hfwd hcomp.forward (by rw [ht.1]; exact ht.2.2) hv
        refine ihM _ u (ht.trans htu) ?_
        rcases hM with ⟨rfl, hM⟩ | ⟨k, hc, hk, hM⟩
        · refine Or.inl ⟨rfl, ?_⟩
          have heats : Eats Γ comp := by cases hb with
            | counted _ h _ => exact absurd rfl h
            | unsized _ h => exact h
          have := heats n t ctx loaded v u (by rw [ht.1]; exact ht.2.2) hv
          rw [htu.1]; omega
        · refine Or.inr ⟨k, hc, hk, ?_⟩
          have hpres : ∀ w ctx s, comp.base.present w ctx s = .ok true := by cases hb with
            | counted _ _ h => exact h
            | unsized => exact absurd rfl hc
          rw [if_neg (fromStream_present hcomp hpres hv)]
          simp; omega
    have hN : ∃ M, (count = .none ∧ s.data.length - s.pos ≤ M) ∨ (∃ k : Int, count ≠ .none ∧ finalElementCount count loaded = .ok (some k) ∧
          k ≤ (([] : List Value).length : Int) + M) := by
      cases count with
      | none => exact ⟨_, Or.inl ⟨rfl, Nat.le_refl _⟩⟩
      | fixed m => exact ⟨m.toNat, Or.inr ⟨m, by simp, rfl, by simp⟩⟩
      | ref r =>
        obtain ⟨h1, h2⟩ := hcount r rfl
        obtain ⟨i, hi⟩ := hl.1 r h2
        exact ⟨i.toNat, Or.inr ⟨i, by simp, by simp [finalElementCount, h1, hi], by simp⟩⟩
    obtain ⟨M, hM⟩ := hN
    obtain ⟨N, hN⟩ := key M [] s ⟨rfl, Nat.le_refl _, hs⟩ hM
    refine ⟨N + 1, ?_⟩
    rw [fieldDoLoad_array]
    exact hN.map _
  | nested hcalm hconst hnull hc =>
    intro s ctx hs hm
    obtain ⟨n, hn⟩ := hstruct _ hc s ctx fun d hd => hm _ d .nested hd s ⟨rfl, Nat.le_refl _, hs⟩
    refine ⟨n + 1, ?_⟩
    simp only [fieldDoLoad, containerLoad]
    exact hn
  | @union b choices ld dd hcalm hconst hnull hld hlt hch hcc ih =>
    intro s ctx hs hm
    cases hi : ld s ctx loaded with
    | error e =>
      refine ⟨1, ?_⟩
      simp only [fieldDoLoad, containerLoad, hi]
      intro he
      simp only [Except.error.injEq] at he
      subst he
      exact not_oof hE (hld _ _ _ _ hi)
    | ok i =>
      have hlti := hlt _ _ _ _ hi
      cases hx : choices[i]? with
      | none => rw [List.getElem?_eq_none_iff] at hx; omega
      | some x =>
      cases x with
      | inl g =>
        have hg := List.mem_of_getElem? hx
        have hbg : Bounded Γ g := by cases hb with | union h => exact h g hg
        obtain ⟨n, hn⟩ := ih g hg hbg s ctx hs fun c d hc hd t ht => hm c d (.field hg hc) hd t ht
        refine ⟨n + 1, ?_⟩
        simp only [fieldDoLoad, containerLoad, hi, hx]
        exact hn
      | inr cls =>
        have hg := List.mem_of_getElem? hx
        obtain ⟨n, hn⟩ := hstruct _ (hcc cls hg) s ctx fun d hd => hm _ d (.struct hg) hd s ⟨rfl, Nat.le_refl _, hs⟩
        refine ⟨n + 1, ?_⟩
        simp only [fieldDoLoad, containerLoad, hi, hx]
        exact hn
  | integer h1 h2 => intro s ctx _ _; exact hleaf _ _ (.integer h1 h2) s ctx
  | varint h1 => intro s ctx _ _; exact hleaf _ _ (.varint h1) s ctx
  | float h1 h2 => intro s ctx _ _; exact hleaf _ _ (.float h1 h2) s ctx
  | timestamp h1 h2 h3 => intro s ctx _ _; exact hleaf _ _ (.timestamp h1 h2 h3) s ctx
  | bytes h1 h2 => intro s ctx _ _; exact hleaf _ _ (.bytes h1 h2) s ctx
  | string h1 h2 h3 => intro s ctx _ _; exact hleaf _ _ (.string h1 h2 h3) s ctx
  | stringz h1 h2 h3 => intro s ctx _ _; exact hleaf _ _ (.stringz h1 h2 h3) s ctx
  | uuid h1 h2 => intro s ctx _ _; exact hleaf _ _ (.uuid h1 h2) s ctx

theorem loadFields_mono {load load' : Field → Stream → Dict → R Value} (h : ∀ f s l, RLe (load f s l) (load' f s l)) :
    ∀ fs acc s, RLe (loadFields load fs acc s) (loadFields load' fs acc s) := by
  intro fs
  induction fs with
  | nil => intro acc s; exact RLe.refl _
  | cons f fs ih =>
    intro acc s
    simp only [loadFields]
    rcases h f s acc with h1 | h1
    · left
      generalize load f s acc = x at h1
      obtain ⟨x, t⟩ := x
      simp only at h1; subst h1; rfl
    · rw [← h1]
      split
      · exact RLe.refl _
      · exact ih _ _

/-- A class comes to an end if the classes its fields refer to do: all of them after something was eaten, those of lower rank before. -/
theorem structFromStream_ends {Γ : Classes} {E : Err → Prop} (hE : ¬ E .outOfFuel) (hΓ : ∀ c d, Γ c = some d → RobustClass Γ E d)
    {rank : String → Nat} {k : Nat} {d : StructDesc} (hd : RobustClass Γ E d) (hg : Guarded Γ rank k d) {s : Stream} {ctx : Value}
    (hs : s.pos ≤ s.data.length)
    (hA : ∀ c e, Γ c = some e → ∀ t, Later s t → s.pos < t.pos → ∃ n, Ended (structFromStream Γ n e t ctx []))
    (hB : ∀ c e, Γ c = some e → rank c < k → ∀ t, Later s t → ∃ n, Ended (structFromStream Γ n e t ctx [])) :
    ∃ n, Ended (structFromStream Γ n d s ctx []) := by
  have hfwd : ∀ c d, Γ c = some d → ∀ f ∈ d.components, LoadsForward f := fun c d h => (hΓ c d h).forward
  have key : ∀ (post pre : List Field) (acc : Dict) (t : Stream), d.components = pre ++ post → LoadedSoFar pre acc → Later s t →
      ((∃ g ∈ pre, Eats Γ g) → s.pos < t.pos) →
      ∃ n, Ended (loadFields (fun f s loaded => fieldFromStream Γ n f s ctx loaded) post acc t) := by
    intro post
    induction post with
    | nil => intro pre acc t _ _ _ _; exact ⟨0, by simp [Ended, loadFields]⟩
    | cons f fs ih =>
      intro pre acc t hpp hl ht heat
      obtain ⟨hbf, hgf⟩ := hg pre f fs hpp
      have hrf := hd.fields pre f fs hpp
      obtain ⟨n, hn⟩ := fieldDoLoad_ends hE hΓ hrf hbf hl t ctx (by rw [ht.1]; exact ht.2.2) (by
        intro c e hc he u hu
        rcases hgf with hgf | hgf
        · have h1 := heat hgf
          exact hA c e he u (ht.trans hu) (by have := hu.2.1; omega)
        · exact hB c e he (hgf c hc) u (ht.trans hu))
      have hn := fieldFromStream_ends hE hrf hl hn
      rcases hx : fieldFromStream Γ (n + 1) f t ctx acc with ⟨r, u⟩
      rw [hx] at hn
      cases r with
      | error e =>
        refine ⟨n + 1, ?_⟩
        simp only [loadFields, hx]
        simpa [Ended] using hn
      | ok v =>
        have htu : Later t u := later_of_load hfwd hrf.forward (by rw [ht.1]; exact ht.2.2) hx
        obtain ⟨m, hm⟩ := ih (pre ++ [f]) (acc.setDefault f.name v) u (by simp [hpp]) (hl.step (unique_step hd.unique hpp) hx)
          (ht.trans htu) (by
            rintro ⟨g, hgm, hge⟩
            rw [List.mem_append, List.mem_singleton] at hgm
            have := htu.2.1
            rcases hgm with hgm | rfl
            · have := heat ⟨g, hgm, hge⟩; omega
            · have := hge _ t ctx acc v u (by rw [ht.1]; exact ht.2.2) hx
              have := ht.2.1
              omega)
        refine ⟨max (n + 1) m, ?_⟩
        have h1 : fieldFromStream Γ (max (n + 1) m) f t ctx acc = (.ok v, u) := by
          have := Ended.mono (by rw [hx]; exact hn) (fieldFromStream_mono Γ (Nat.le_max_left (n + 1) m) f t ctx acc)
          rw [this, hx]
        simp only [loadFields, h1]
        have h2 := loadFields_mono (fun f s l => fieldFromStream_mono Γ (Nat.le_max_right (n + 1) m) f s ctx l) fs
          (acc.setDefault f.name v) u
        intro he
        rw [hm.mono h2] at he
        exact hm he
  obtain ⟨n, hn⟩ := key d.components [] [] s rfl LoadedSoFar.nil ⟨rfl, Nat.le_refl _, hs⟩ (by rintro ⟨g, h, -⟩; simp at h)
  refine ⟨n + 1, Ended.of_error fun t ht => ?_⟩
  rw [structFromStream] at ht
  refine structFromStreamWith_error (P := fun e => e ≠ .outOfFuel) hd (fun e he => by rintro rfl; exact not_oof hE he) ?_ ht rfl
  intro e u he
  rw [he] at hn
  rintro rfl
  exact hn rfl

/-- Every class of a table comes to an end, on every input. -/
theorem classes_end {Γ : Classes} {E : Err → Prop} (hE : ¬ E .outOfFuel) {rank : String → Nat}
    (hΓ : ∀ c d, Γ c = some d → RobustClass Γ E d ∧ Guarded Γ rank (rank c) d) (ctx : Value) :
    ∀ (L : Nat) (s : Stream), s.pos ≤ s.data.length → s.data.length - s.pos ≤ L → ∀ (k : Nat) (c : String) (d : StructDesc),
      Γ c = some d → rank c ≤ k → ∃ n, Ended (structFromStream Γ n d s ctx []) := by
  have hΓ' : ∀ c d, Γ c = some d → RobustClass Γ E d := fun c d h => (hΓ c d h).1
  intro L
  induction L with
  | zero =>
    intro s hs hL k
    induction k generalizing s with
    | zero =>
      intro c d hd hk
      refine structFromStream_ends hE hΓ' (hΓ c d hd).1 (hΓ c d hd).2 hs ?_ ?_
      · intro c' e he t ht hlt; have := ht.2.2; omega
      · intro c' e he hr; omega
    | succ k ih =>
      intro c d hd hk
      refine structFromStream_ends hE hΓ' (hΓ c d hd).1 (hΓ c d hd).2 hs ?_ ?_
      · intro c' e he t ht hlt; have := ht.2.2; omega
      · intro c' e he hr t ht
        exact ih t (by rw [ht.1]; exact ht.2.2) (by rw [ht.1]; have := ht.2.1; omega) c' e he (by omega)
  | succ L ihL =>
    intro s hs hL k
    induction k generalizing s with
    | zero =>
      intro c d hd hk
      refine structFromStream_ends hE hΓ' (hΓ c d hd).1 (hΓ c d hd).2 hs ?_ ?_
      · intro c' e he t ht hlt
        exact ihL t (by rw [ht.1]; exact ht.2.2) (by rw [ht.1]; have := ht.2.2; omega) (rank c') c' e he (Nat.le_refl _)
      · intro c' e he hr; omega
    | succ k ih =>
      intro c d hd hk
      refine structFromStream_ends hE hΓ' (hΓ c d hd).1 (hΓ c d hd).2 hs ?_ ?_
      · intro c' e he t ht hlt
        exact ihL t (by rw [ht.1]; exact ht.2.2) (by rw [ht.1]; have := ht.2.2; omega) (rank c') c' e he (Nat.le_refl _)
      · intro c' e he hr t ht
        exact ih t (by rw [ht.1]; exact ht.2.2) (by rw [ht.1]; have := ht.2.1; omega) c' e he (by omega)

/-! ## Fields that take at least one byte -/

/-- `from_stream` of a field that is always there ends where its `_do_load` does. -/
theorem always_doLoad {Γ : Classes} {f : Field} (ha : Always f.base) {n : Nat} {s t : Stream} {ctx v : Value} {loaded : Dict}
    (h : fieldFromStream Γ n f s ctx loaded = (.ok v, t)) : ∃ m, n = m + 1 ∧ fieldDoLoad Γ m f s ctx loaded = (.ok v, t) := by
  cases n with
  | zero => simp [fieldFromStream] at h
  | succ n =>
  refine ⟨n, rfl, ?_⟩
  rcases fieldFromStream_ok h with ⟨h1, -, -⟩ | ⟨-, -, h1⟩
  · rw [ha.1] at h1; simp at h1
  · rw [allowNull_false ha.2] at h1
    rcases h1 with ⟨h1, -⟩ | ⟨w, h1, h2⟩
    · simp at h1
    · rcases h2 with rfl | ⟨-, h2⟩
      · exact h1
      · simp at h2

theorem eats_leaf {Γ : Classes} {b : FieldBase} {k : Leaf} (ha : Always b)
    (h : ∀ s ctx loaded v t, s.pos ≤ s.data.length → leafLoad b k (leafExpectedSize b k loaded) s ctx loaded = (.ok v, t) → s.pos < t.pos) :
    Eats Γ (.leaf b k) := by
  intro n s ctx loaded v t hs hl
  obtain ⟨m, -, h1⟩ := always_doLoad (f := .leaf b k) ha hl
  cases m with
  | zero => simp [fieldDoLoad] at h1
  | succ m =>
    simp only [fieldDoLoad] at h1
    exact h s ctx loaded v t hs h1

theorem eats_fixed {Γ : Classes} {b : FieldBase} {k : Leaf} {n : Int} (ha : Always b) (hk : ReadsExactly k) (hs : b.size = .fixed n)
    (hn : 0 < n) (hu : ∀ fmt, k = .uuid fmt → (fmt.size : Int) = n) : Eats Γ (.leaf b k) :=
  eats_leaf ha fun s ctx loaded v t _ h => by
    have := leafLoad_moves hk hs (by omega) hu h
    omega

theorem eats_varint {Γ : Classes} {b : FieldBase} {enc : VarIntEncoding} {m : Option Int} (ha : Always b) :
    Eats Γ (.leaf b (.varint enc m)) :=
  eats_leaf ha fun s ctx loaded v t _ h => by
    obtain ⟨a, h1, -⟩ := R.map_ok h
    rcases C07_decode_exhaustive s with ⟨code, post, hr, hd⟩ | hh
    · rw [C07_decode_delimited enc s code post hd hr] at h1
      simp only [Prod.mk.injEq] at h1
      obtain ⟨x, y, rfl, -, -⟩ := hd
      rw [← h1.2]; simp
    · rw [C07_decode_truncated enc s hh] at h1; simp at h1

theorem eats_stringz {Γ : Classes} {b : FieldBase} {c : CharCodec} {p : Option UInt8} (ha : Always b) (hc : Supported c) :
    Eats Γ (.leaf b (.stringz c p)) :=
  eats_leaf ha fun s ctx loaded v t _ h => by
    have key : ∀ max, R.map (stringzLoop b.name c max s.rest.length 0 [] [] s) Value.str = (.ok v, t) → s.pos < t.pos := by
      intro max h
      obtain ⟨a, h1, -⟩ := R.map_ok h
      obtain ⟨x, used, rest, -, -, he, -, rfl, -⟩ := stringzLoop_ok (supported_lawful hc) _ _ _ _ _ _ _ (Or.inl rfl) h1
      have : used ≠ [] := by
        rintro rfl
        rw [encode_append] at he
        cases hx : c.encode x with
        | error e => simp [hx, Except.bind] at he
        | ok a =>
          have hz := (supported_lawful hc).enc_nul
          cases h0 : c.enc 0 with
          | none => simp [h0] at hz
          | some z =>
            have hne := (supported_lawful hc).enc_ne h0
            simp [hx, Except.bind, Except.map, CharCodec.encode, h0] at he
            exact hne he.2
      have := List.length_pos_iff.2 this
      simp only; omega
    simp only [leafLoad] at h
    split at h
    · exact key _ h
    · exact key _ h
    · simp at h

/-- A struct one of whose fields takes at least one byte. -/
theorem eats_nested {Γ : Classes} (hΓ : ∀ c d, Γ c = some d → ∀ f ∈ d.components, LoadsForward f) {b : FieldBase} {cls : String}
    {d : StructDesc} {f : Field} (ha : Always b) (hd : Γ cls = some d) (hf : f ∈ d.components) (he : Eats Γ f) : Eats Γ (.nested b cls) := by
  intro n s ctx loaded v t hs hl
  obtain ⟨m, -, h1⟩ := always_doLoad (f := .nested b cls) ha hl
  cases m with
  | zero => simp [fieldDoLoad] at h1
  | succ m =>
    simp only [fieldDoLoad, containerLoad, loadStruct, hd] at h1
    obtain ⟨r, h1, -⟩ := R.map_ok h1
    cases m with
    | zero => simp [structFromStream] at h1
    | succ m =>
      obtain ⟨res, h2, -⟩ := structFromStream_ok_iff.1 h1
      obtain ⟨pre, post, hpp⟩ := List.append_of_mem hf
      rw [hpp] at h2
      obtain ⟨acc, u, h3, h4⟩ := Loads.append.1 h2
      have hmem : ∀ g ∈ pre ++ f :: post, LoadsForward g := fun g hg => hΓ cls d hd g (hpp ▸ hg)
      have hfw : ∀ (fs : List Field) (acc r : Dict) (a b : Stream), (∀ g ∈ fs, LoadsForward g) → a.pos ≤ a.data.length →
          Loads Γ m ctx fs acc a r b → Later a b := by
        intro fs acc r a b hg ha h
        have := loadFields_forward (load := fun f s loaded => fieldFromStream Γ m f s ctx loaded) (fs := fs)
          (fun f hf loaded => (load_forward Γ hΓ m).1 f (hg f hf) ctx loaded) acc a ha
        rw [loadFields_ok_iff.2 h] at this
        exact this
      have l1 := hfw pre [] acc s u (fun g hg => hmem g (by simp [hg])) hs h3
      cases h4 with
      | @cons _ _ _ _ w _ u1 _ h5 h6 =>
        have hu : u.pos ≤ u.data.length := by rw [l1.1]; exact l1.2.2
        have l2 := later_of_load hΓ (hmem f (by simp)) hu h5
        have l3 := hfw post _ _ u1 t (fun g hg => hmem g (by simp [hg])) (by rw [l2.1]; exact l2.2.2) h6
        have := he m u ctx acc w u1 hu h5
        have := l1.2.1
        have := l3.2.1
        omega

/-! ## What the conversions raise -/

theorem decodeSome_error {c : CharCodec} : ∀ (n : Nat) (bs : Bytes) (e : Err), c.decodeSome n bs = .error e → e = .unicodeErr := by
  intro n
  induction n with
  | zero => intro bs e h; cases bs <;> simp [CharCodec.decodeSome] at h
  | succ n ih =>
    intro bs e h
    cases bs with
    | nil => simp [CharCodec.decodeSome] at h
    | cons b r =>
      simp only [CharCodec.decodeSome] at h
      split at h
      · simpa using h.symm
      · simp at h
      · split at h
        · rename_i he; simp only [Except.error.injEq] at h; subst h; exact ih _ _ he
        · simp at h

theorem codec_error {c : CharCodec} {bs : Bytes} {e : Err} (h : c.decode bs = .error e) : e = .unicodeErr := by
  unfold CharCodec.decode at h
  split at h
  · rename_i hf; simp only [Except.error.injEq] at h; subst h; exact decodeSome_error _ _ _ hf
  · simp at h
  · simpa using h.symm

theorem latin1_decodes (n : Nat) (bs : Bytes) (h : bs.length ≤ n) : ∃ cs, latin1Codec.decodeSome n bs = .ok (cs, []) := by
  induction n generalizing bs with
  | zero =>
    have : bs = [] := List.length_eq_zero_iff.1 (by omega)
    subst this; exact ⟨[], rfl⟩
  | succ n ih =>
    cases bs with
    | nil => exact ⟨[], rfl⟩
    | cons b r =>
      obtain ⟨cs, hcs⟩ := ih r (by simp at h; omega)
      refine ⟨b.toNat :: cs, ?_⟩
      simp [CharCodec.decodeSome, latin1Codec] at hcs ⊢
      simp [hcs]

theorem uuid_error {fmt : UUIDFormat} {raw : Bytes} {e : Err} (h : uuidParse fmt raw = .error e) : e = .valueErr ∨ e = .unicodeErr := by
  unfold uuidParse at h
  split at h
  · simp at h
  · simp at h
  all_goals
    split at h
    · split at h
      · simp at h
      · left; simpa using h.symm
    · right; simpa using h.symm

theorem ts_error {res : Resolution} {aware : Bool} {i : Int} {e : Err} (h : tsLoad res aware i = .error e) :
    e = .valueErr ∨ e = .overflowErr := by
  unfold tsLoad at h
  cases hx : (tsQuotient res i).bind fromTimestamp with
  | ok us =>
    rw [hx] at h
    simp only [Except.bind, localTime] at h
    split at h
    · left; simpa using h.symm
    · cases h
  | error e' =>
  rw [hx] at h
  have h : (tsQuotient res i).bind fromTimestamp = .error e := by rw [hx]; cases h; rfl
  clear hx
  unfold tsQuotient at h
  split at h
  · right; simpa [Except.bind] using h.symm
  · simp only [Except.bind] at h
    unfold fromTimestamp at h
    split at h
    · right; simpa using h.symm
    · left; simpa using h.symm
    · simp only at h
      split at h
      · right; simpa using h.symm
      · generalize (if _ = true then (_ : Int) else _) = total at h
        split at h
        · simp at h
        · left; simpa using h.symm

end Verif
