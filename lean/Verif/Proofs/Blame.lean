import Verif.Spec.Blame
import Verif.Proofs.Robust

/-! Helper lemmas: what load errors say. -/

namespace Verif
open Spec

/-- True, and not about extraneous data. -/
def FairErr (data : Bytes) (p : Nat) (e : Err) : Prop := Truthful data p e ∧ e ≠ .extraneous

theorem FairErr.other {data : Bytes} {p : Nat} {e : Err} (h : e.isDeserialization = false) : FairErr data p e := by
  refine ⟨fun f size off he => ?_, fun he => ?_⟩ <;> subst he <;> simp [Err.isDeserialization] at h

theorem FairErr.deser {data : Bytes} {p : Nat} {f : Option String} : FairErr data p (.deser f) :=
  ⟨fun _ _ _ h => (by cases h), by simp⟩

theorem FairErr.setErrField {data : Bytes} {p : Nat} {e : Err} (h : FairErr data p e) (name : String) :
    FairErr data p (setErrField name e) := by
  cases e with
  | eof f size off =>
    refine ⟨fun _ _ _ he => ?_, by simp [Verif.setErrField]⟩
    simp only [Verif.setErrField, Err.eof.injEq] at he
    obtain ⟨-, rfl, rfl⟩ := he
    exact h.1 _ _ _ rfl
  | deser f => exact FairErr.deser
  | _ => exact h

theorem FairErr.eof {s : Stream} {p : Nat} {f : Option String} {size : Int} {off : Nat} (hs : s.pos ≤ s.data.length) (hp : p ≤ s.pos)
    (hoff : off = s.pos ∨ off = s.data.length) (hz : 0 < size) (h : (s.rest.length : Int) < size) : FairErr s.data p (.eof f size off) := by
  refine ⟨fun _ _ _ he => ?_, by simp⟩
  simp only [Err.eof.injEq] at he
  obtain ⟨-, rfl, rfl⟩ := he
  have : s.rest.length = s.data.length - s.pos := by simp [Stream.rest]
  rcases hoff with h' | h' <;> omega

theorem read_short {s : Stream} {n : Int} (h : ((s.read n).1.length : Int) < n) :
    0 < n ∧ (s.rest.length : Int) < n ∧ (s.read n).2.pos = s.pos + s.rest.length := by
  simp only [Stream.read] at h ⊢
  have hn : ¬ n < 0 := by omega
  simp only [if_neg hn, List.length_take] at h ⊢
  simp only [Stream.rest]
  omega

theorem readExactSize_fair {name : String} {n : Int} {s t : Stream} {p : Nat} {e : Err} (hs : s.pos ≤ s.data.length) (hp : p ≤ s.pos)
    (h : readExactSize name (.ok n) s = (.error e, t)) : FairErr s.data p e ∧ ∃ f size, e = .eof f size s.pos := by
  simp only [readExactSize] at h
  split at h
  · rename_i hlt
    simp only [Prod.mk.injEq, Except.error.injEq] at h
    obtain ⟨h0, h1, -⟩ := read_short hlt
    rw [← h.1]; exact ⟨.eof hs hp (Or.inl rfl) h0 h1, _, _, rfl⟩
  · simp at h

theorem readInt_fair {n : Int} {sg : Bool} {en : Endian} {s t : Stream} {p : Nat} {e : Err} (hs : s.pos ≤ s.data.length) (hp : p ≤ s.pos)
    (h : readInt s n sg en = (.error e, t)) : FairErr s.data p e ∧ ∃ f size, e = .eof f size s.pos := by
  simp only [readInt] at h
  split at h
  · rename_i hlt
    simp only [Prod.mk.injEq, Except.error.injEq] at h
    obtain ⟨h0, h1, -⟩ := read_short hlt
    rw [← h.1]; exact ⟨.eof hs hp (Or.inl rfl) h0 h1, _, _, rfl⟩
  · simp at h

theorem decode_fair {enc : VarIntEncoding} {s t : Stream} {p : Nat} {e : Err} (hs : s.pos ≤ s.data.length) (hp : p ≤ s.pos)
    (h : enc.decode s = (.error e, t)) : FairErr s.data p e := by
  rcases C07_decode_exhaustive s with ⟨code, post, hr, hd⟩ | hh
  · rw [C07_decode_delimited enc s code post hd hr] at h; simp at h
  · rw [C07_decode_truncated enc s hh] at h
    simp only [Prod.mk.injEq, Except.error.injEq] at h; rw [← h.1]
    have hl : s.rest.length = s.data.length - s.pos := by simp [Stream.rest]
    refine ⟨fun _ _ _ he => ?_, by simp⟩
    simp only [Err.eof.injEq] at he
    obtain ⟨-, rfl, rfl⟩ := he
    omega

theorem stringzLoop_fair {data : Bytes} {p : Nat} {c : CharCodec} {name : String} {max : Option Int} {s t : Stream} {e : Err}
    (h : stringzLoop name c max s.rest.length 0 [] [] s = (.error e, t)) : FairErr data p e := by
  suffices key : ∀ (fuel nRead : Nat) (buf : Bytes) (acc : List Nat) (s t : Stream) (e : Err), s.rest.length ≤ fuel →
      stringzLoop name c max fuel nRead buf acc s = (.error e, t) → e = .deser (some name) ∨ e = .unicodeErr by
    rcases key _ _ _ _ _ _ _ (Nat.le_refl _) h with rfl | rfl
    · exact .deser
    · exact .other rfl
  have hend : ∀ (buf : Bytes) (e : Err), zEnd name buf = .error e → e = .deser (some name) ∨ e = .unicodeErr := by
    intro buf e h
    unfold zEnd at h
    split at h
    · simp only [Except.error.injEq] at h; exact Or.inl h.symm
    · simp only [Except.error.injEq] at h; exact Or.inr h.symm
  intro fuel
  induction fuel with
  | zero =>
    intro nRead buf acc s t e hs h
    have hr : s.rest = [] := List.length_eq_zero_iff.1 (by omega)
    rw [stringzLoop_eof hr] at h
    simp only [Prod.mk.injEq] at h
    exact hend buf e h.1
  | succ fuel ih =>
    intro nRead buf acc s t e hle h
    cases hs : zStop max nRead with
    | true =>
      rw [stringzLoop_stop hs] at h
      simp only [Prod.mk.injEq] at h
      exact hend buf e h.1
    | false =>
      cases hr : s.rest with
      | nil =>
        rw [stringzLoop_eof hr] at h
        simp only [Prod.mk.injEq] at h
        exact hend buf e h.1
      | cons x r =>
        rw [stringzLoop_step hs hr] at h
        cases hf : c.feed (buf ++ [x]) with
        | error e' =>
          rw [hf] at h
          simp only [Prod.mk.injEq, Except.error.injEq] at h
          rw [← h.1]
          exact Or.inr (codec_error (feed_decode_error hf))
        | ok o =>
          obtain ⟨out, buf'⟩ := o
          rw [hf] at h
          simp only at h
          by_cases ho : out = [0]
          · rw [if_pos ho] at h; simp at h
          · rw [if_neg ho] at h
            have h1 : (⟨s.data, s.pos + 1⟩ : Stream).rest = r := by
              simp only [Stream.rest] at hr ⊢
              rw [← List.drop_drop, hr]; rfl
            refine ih (nRead + 1) buf' (acc ++ out) _ t e ?_ h
            rw [h1]; rw [hr] at hle; simp at hle; omega

/-- The kinds of fields that report the position at which they begin. -/
def ReportsStart : Leaf → Prop
  | .float .. | .integer .. | .timestamp .. | .bytes | .string .. => True
  | _ => False

theorem leafLoad_fair {Γ : Classes} {E : Err → Prop} {pre : List Field} {b : FieldBase} {k : Leaf}
    (hr : Robust Γ E pre (.leaf b k)) {loaded : Dict} (hl : LoadedSoFar pre loaded) {s t : Stream} {ctx : Value} {p : Nat} {e : Err}
    (hs : s.pos ≤ s.data.length) (hp : p ≤ s.pos)
    (h : leafLoad b k (leafExpectedSize b k loaded) s ctx loaded = (.error e, t)) :
    FairErr s.data p e ∧ (ReportsStart k → ∀ f size off, e = .eof f size off → off = s.pos) := by
  have hstart : ∀ {e : Err}, (∃ f size, e = .eof f size s.pos) → ∀ f size off, e = .eof f size off → off = s.pos := by
    rintro e ⟨f, size, rfl⟩ f' size' off he
    simp only [Err.eof.injEq] at he; exact he.2.2.symm
  have hnot : ∀ {e : Err}, e.isDeserialization = false → ∀ f size off, e = .eof f size off → off = s.pos := by
    rintro e he f size off rfl; simp [Err.isDeserialization] at he
  cases hr with
  | integer hst hsz =>
    simp only [leafLoad, hsz] at h
    exact ⟨(readInt_fair hs hp (R.map_error h)).1, fun _ => hstart (readInt_fair hs hp (R.map_error h)).2⟩
  | varint hst => exact ⟨decode_fair hs hp (R.map_error h), fun h => h.elim⟩
  | float hst hsz =>
    obtain ⟨n, hn⟩ := leafExpectedSize_sized (k := .float _ _) hsz hl
    rw [hn] at h
    simp only [leafLoad] at h
    rcases R.andThen_error h with h | ⟨a, -, h⟩
    · exact ⟨(readExactSize_fair hs hp h).1, fun _ => hstart (readExactSize_fair hs hp h).2⟩
    · split at h
      · simp at h
      · simp only [Except.error.injEq] at h; rw [← h]; exact ⟨.deser, fun _ _ _ _ h => by cases h⟩
  | timestamp hst hsz hc =>
    obtain ⟨n, hn⟩ := leafExpectedSize_sized (k := .timestamp _ _ _ _) hsz hl
    rw [hn] at h
    simp only [leafLoad] at h
    rcases R.andThen_error h with h | ⟨a, -, h⟩
    · exact ⟨(readInt_fair hs hp h).1, fun _ => hstart (readInt_fair hs hp h).2⟩
    · have he : e.isDeserialization = false := by rcases ts_error (Except.map_error h) with rfl | rfl <;> rfl
      exact ⟨.other he, fun _ => hnot he⟩
  | bytes hst hsz =>
    obtain ⟨n, hn⟩ := leafExpectedSize_sized (k := .bytes) hsz hl
    rw [hn] at h
    exact ⟨(readExactSize_fair hs hp (R.map_error h)).1, fun _ => hstart (readExactSize_fair hs hp (R.map_error h)).2⟩
  | string hst hsz hc =>
    obtain ⟨n, hn⟩ := leafExpectedSize_sized (k := .string _ _) hsz hl
    rw [hn] at h
    simp only [leafLoad] at h
    rcases R.andThen_error h with h | ⟨a, -, h⟩
    · exact ⟨(readExactSize_fair hs hp h).1, fun _ => hstart (readExactSize_fair hs hp h).2⟩
    · have he : e.isDeserialization = false := by rw [codec_error (Except.map_error h)]; rfl
      exact ⟨.other he, fun _ => hnot he⟩
  | @stringz _ c q hst hsz hc =>
    refine ⟨?_, fun h => h.elim⟩
    have hstep : ∀ max, R.map (stringzLoop b.name c max s.rest.length 0 [] [] s) Value.str = (.error e, t) → FairErr s.data p e :=
      fun max h => stringzLoop_fair (R.map_error h)
    rcases hsz with hsz | ⟨hsz, hd, hn⟩
    · obtain ⟨n, hn⟩ := leafExpectedSize_sized (k := .stringz c q) hsz hl
      rw [hn] at h
      exact hstep _ h
    · have hnone : Dict.get? loaded b.name = none := by
        rw [Dict.get?_none_iff]
        exact fun hk => hn (hl.2 _ hk)
      have he : leafExpectedSize b (.stringz c q) loaded = .error (.undefinedSize b.name) := by
        simp [leafExpectedSize, FieldBase.expectedSizeWith, hsz, FieldBase.sizingValue, hnone, hd]
      rw [he] at h
      exact hstep _ h
  | @uuid _ fmt hst hc =>
    refine ⟨?_, fun h => h.elim⟩
    simp only [leafLoad] at h
    split at h
    · rename_i hlt
      obtain ⟨h0, h1, h2⟩ := read_short hlt
      simp only [Prod.mk.injEq, Except.error.injEq] at h; rw [← h.1]
      refine .eof hs hp (Or.inr ?_) h0 h1
      have hl : s.rest.length = s.data.length - s.pos := by simp [Stream.rest]
      show (s.read _).2.pos = _
      omega
    · simp only [Prod.mk.injEq] at h
      rcases uuid_error (Except.map_error h.1) with rfl | rfl <;> exact .other rfl

theorem runValidators_discreet {b : FieldBase} (h : Discreet b) {v : Value} {e : Err}
    (he : runValidators b.validators v = .error e) : e.isDeserialization = false := by
  by_cases hall : ∀ c ∈ b.validators, c v = .ok ()
  · rw [(runValidators_ok_iff _ _).2 hall] at he; simp at he
  · obtain ⟨c, hc, e', h1, h2⟩ := runValidators_error _ _ hall
    rw [h2] at he; simp only [Except.error.injEq] at he; rw [← he]
    exact h.validators c hc v e' h1

theorem Spec.DiscreetField.base {f : Field} (h : DiscreetField f) : Discreet f.base := by cases h <;> assumption

theorem finishLoad_discreet {b : FieldBase} {eq : Value → Value → Except Err Bool} {v : Value} {e : Err} (hb : Discreet b)
    (h1 : b.nullValue = .undefined ∨ ∃ r, eq v b.nullValue = .ok r)
    (h2 : b.const = .undefined ∨ ∀ w, w = v ∨ w = .none → ∃ r, eq w b.const = .ok r)
    (h : finishLoad b eq v = .error e) : e.isDeserialization = false := by
  unfold finishLoad at h
  have hx : ∃ r, (if b.allowNull then eq v b.nullValue else .ok false) = .ok r := by
    rcases h1 with h1 | ⟨r, h1⟩
    · exact ⟨false, by simp [allowNull_false h1]⟩
    · cases b.allowNull
      · exact ⟨false, rfl⟩
      · exact ⟨r, h1⟩
  obtain ⟨r, hx⟩ := hx
  rw [hx] at h
  simp only at h
  have hw : (if r = true then Value.none else v) = v ∨ (if r = true then Value.none else v) = .none := by
    cases r
    · exact Or.inl rfl
    · exact Or.inr rfl
  generalize (if r = true then Value.none else v) = w at h hw
  have hy : ∃ r, (if b.const ≠ .undefined then eq w b.const else .ok true) = .ok r := by
    rcases h2 with h2 | h2
    · exact ⟨true, by simp [h2]⟩
    · by_cases hc : b.const ≠ .undefined
      · rw [if_pos hc]; exact h2 w hw
      · rw [if_neg hc]; exact ⟨true, rfl⟩
  obtain ⟨r, hy⟩ := hy
  rw [hy] at h
  cases r with
  | false => simp only [Except.error.injEq] at h; rw [← h]; rfl
  | true =>
    simp only at h
    split at h
    · rename_i hv; simp only [Except.error.injEq] at h; rw [← h]; exact runValidators_discreet hb hv
    · simp at h

/-- A `DeserializationError` of a field comes from its `_do_load`. -/
theorem fieldFromStream_blame {Γ : Classes} {E : Err → Prop} {pre : List Field} {f : Field} (hr : Robust Γ E pre f)
    (hd : DiscreetField f) {loaded : Dict} (hl : LoadedSoFar pre loaded) {n : Nat} {s t : Stream} {ctx : Value} {e : Err}
    (h : fieldFromStream Γ (n + 1) f s ctx loaded = (.error e, t)) :
    e.isDeserialization = false ∨ ∃ e' u, fieldDoLoad Γ n f s ctx loaded = (.error e', u) ∧ e = setErrField f.name e' := by
  rw [fieldFromStream] at h
  have hnull : f.base.nullValue = .undefined ∨ ∃ r, fieldNullRepr Γ n f loaded = .ok r := by
    cases f with
    | leaf b k =>
      rcases hr.steady.1.null with h | ⟨bs, h⟩ | ⟨h, hs⟩
      · exact Or.inl h
      · refine Or.inr ⟨bs, ?_⟩
        show leafNullRepr b k loaded = _
        simp [leafNullRepr, FieldBase.nullReprWith, h]
      · obtain ⟨m, hm⟩ := leafExpectedSize_sized (k := k) hs hl
        refine Or.inr ⟨List.replicate m.toNat 0, ?_⟩
        show leafNullRepr b k loaded = _
        simp [leafNullRepr, FieldBase.nullReprWith, h, hm]
    | array b comp count halt => cases hr; exact Or.inl (by assumption)
    | nested b cls => cases hr; exact Or.inl (by assumption)
    | union b ch ld dd => cases hr; exact Or.inl (by assumption)
  have hfin : ∀ v e t, fieldDoLoad Γ n f s ctx loaded = (.ok v, t) → finishLoad f.base (pyEq Γ n) v = .error e →
      e.isDeserialization = false := by
    intro v e t hv hfin
    cases n with
    | zero => simp [fieldDoLoad] at hv
    | succ n =>
    cases f with
    | leaf b k =>
      have hst := hr.steady
      have hat : Atomic v := by
        simp only [fieldDoLoad] at hv
        exact leafLoad_atomic hst.2 hv
      refine finishLoad_discreet hd.base ?_ ?_ hfin
      · rcases hst.1.null with h | ⟨bs, h⟩ | ⟨h, hs⟩
        · exact Or.inl h
        · exact Or.inr (pyEq_atomic (Or.inl hat) (by show ∀ c vals, b.nullValue ≠ _; rw [h]; simp))
        · exact Or.inr (pyEq_atomic (Or.inl hat) (by show ∀ c vals, b.nullValue ≠ _; rw [h]; simp))
      · refine Or.inr fun w hw => pyEq_atomic ?_ hst.1.const
        rcases hw with rfl | rfl
        · exact Or.inl hat
        · exact Or.inr rfl
    | array b comp count halt => cases hr; exact finishLoad_discreet hd.base (Or.inl (by assumption)) (Or.inl (by assumption)) hfin
    | nested b cls => cases hr; exact finishLoad_discreet hd.base (Or.inl (by assumption)) (Or.inl (by assumption)) hfin
    | union b ch ld dd => cases hr; exact finishLoad_discreet hd.base (Or.inl (by assumption)) (Or.inl (by assumption)) hfin
  have hlf : ∀ e t, loadAndFinish f.base (pyEq Γ n) (fun s => fieldDoLoad Γ n f s ctx loaded) s = (.error e, t) →
      e.isDeserialization = false ∨ ∃ e' u, fieldDoLoad Γ n f s ctx loaded = (.error e', u) ∧ e = setErrField f.name e' := by
    intro e t h
    unfold loadAndFinish at h
    rcases hx : fieldDoLoad Γ n f s ctx loaded with ⟨r, u⟩
    simp only [hx] at h
    cases r with
    | error e' => simp only [Prod.mk.injEq, Except.error.injEq] at h; exact Or.inr ⟨e', u, rfl, h.1.symm⟩
    | ok v => simp only [Prod.mk.injEq] at h; exact Or.inl (hfin v e u hx h.1)
  unfold fromStreamWith at h
  split at h
  · rename_i e' hp
    simp only [Prod.mk.injEq, Except.error.injEq] at h; rw [← h.1]
    exact Or.inl (hd.base.present _ _ _ _ hp)
  · simp at h
  · rcases hnull with hn | ⟨repr, hrep⟩
    · rw [allowNull_false hn] at h
      exact hlf e t h
    · rw [hrep] at h
      split at h
      · simp only [peekBytes_eq] at h
        split at h
        · split at h
          · rename_i e' hv
            simp only [Prod.mk.injEq, Except.error.injEq] at h; rw [← h.1]
            exact Or.inl (runValidators_discreet hd.base hv)
          · simp at h
        · exact hlf e t h
      · exact hlf e t h

theorem validateContents_discreet {Γ : Classes} {E : Err → Prop} {d : StructDesc} (hr : RobustClass Γ E d) (hd : DiscreetClass d) {vals : Dict}
    (hv : ∀ f ∈ d.components, Dict.get? vals f.name ≠ none) {e : Err} (h : validateContents d vals = .error e) :
    e.isDeserialization = false := by
  unfold validateContents at h
  split at h
  · rename_i e' hx
    simp only [Except.error.injEq] at h; subst h
    obtain ⟨p, hp, he⟩ := runAll_error hx
    obtain ⟨hn, -⟩ := hr.methods p hp
    obtain ⟨f, hf, hfn⟩ := List.mem_map.1 hn
    unfold validateField at he
    rw [← hfn, find?_of_mem hr.unique hf] at he
    cases hg : Dict.get? vals f.name with
    | none => exact absurd hg (hv f hf)
    | some v =>
    rw [structGetItem_some (List.mem_map.2 ⟨f, hf, rfl⟩) hg] at he
    simp only at he
    split at he
    · rename_i hrv
      simp only [Except.error.injEq] at he; subst he
      exact runValidators_discreet (hd.fields f hf).base hrv
    · obtain ⟨m, hmm, he⟩ := runAll_error he
      exact hd.methods p hp m hmm _ _ _ he
  · obtain ⟨m, hmm, he⟩ := runAll_error h
    exact hd.validators m hmm _ _ he

theorem loadFields_blame {Γ : Classes} {E : Err → Prop} {d : StructDesc} (hr : RobustClass Γ E d) {n : Nat} {ctx : Value} :
    ∀ (post pre : List Field) (acc : Dict) (s t : Stream) (e : Err), d.components = pre ++ post → LoadedSoFar pre acc →
      loadFields (fun f s loaded => fieldFromStream Γ n f s ctx loaded) post acc s = (.error e, t) →
      ∃ mid f post' r u, post = mid ++ f :: post' ∧ Loads Γ n ctx mid acc s r u ∧ LoadedSoFar (pre ++ mid) r ∧
        fieldFromStream Γ n f u ctx r = (.error e, t) := by
  intro post
  induction post with
  | nil => intro pre acc s t e _ _ h; simp [loadFields] at h
  | cons f fs ih =>
    intro pre acc s t e hpp hl h
    simp only [loadFields] at h
    split at h
    · rename_i e' u he
      simp only [Prod.mk.injEq, Except.error.injEq] at h
      obtain ⟨rfl, rfl⟩ := h
      exact ⟨[], f, fs, acc, s, rfl, .nil _ _, by simpa using hl, he⟩
    · rename_i v u hv
      obtain ⟨mid, g, post', r, w, h1, h2, h3, h4⟩ :=
        ih (pre ++ [f]) _ u t e (by simp [hpp]) (hl.step (unique_step hr.unique hpp) hv) h
      refine ⟨f :: mid, g, post', r, w, by rw [h1]; rfl, .cons hv ?_, by simpa using h3, h4⟩
      rw [← setDefault_eq]; exact h2

/-- A `DeserializationError` of a struct comes from the first field that cannot be loaded. -/
theorem structFromStream_blame {Γ : Classes} {E : Err → Prop} {d : StructDesc} (hr : RobustClass Γ E d) (hd : DiscreetClass d) {n : Nat}
    {s t : Stream} {ctx : Value} {e : Err} (h : structFromStream Γ (n + 1) d s ctx [] = (.error e, t)) :
    e.isDeserialization = false ∨ ∃ pre f post r u, d.components = pre ++ f :: post ∧ Loads Γ n ctx pre [] s r u ∧ LoadedSoFar pre r ∧
      fieldFromStream Γ n f u ctx r = (.error e, t) := by
  rw [structFromStream] at h
  unfold structFromStreamWith at h
  rcases hx : loadFields (fun f s loaded => fieldFromStream Γ n f s ctx loaded) d.components [] s with ⟨r, u⟩
  rw [hx] at h
  cases r with
  | error e' =>
    simp only [Prod.mk.injEq, Except.error.injEq] at h
    obtain ⟨rfl, rfl⟩ := h
    obtain ⟨mid, f, post', r, w, h1, h2, h3, h4⟩ := loadFields_blame hr d.components [] [] s _ _ rfl LoadedSoFar.nil hx
    exact Or.inr ⟨mid, f, post', r, w, h1, h2, by simpa using h3, h4⟩
  | ok r =>
    obtain ⟨h1, h2⟩ := loadFields_all hx
    simp only [h2] at h
    split at h
    · rename_i e' hv
      simp only [Prod.mk.injEq, Except.error.injEq] at h; rw [← h.1]
      exact Or.inl (validateContents_discreet hr hd h1 hv)
    · simp at h

theorem later_of_loads {Γ : Classes} (hΓ : ∀ c d, Γ c = some d → ∀ f ∈ d.components, LoadsForward f) {n : Nat} {ctx : Value}
    {fs : List Field} {acc r : Dict} {s t : Stream} (h : Loads Γ n ctx fs acc s r t) (hf : ∀ f ∈ fs, LoadsForward f)
    (hs : s.pos ≤ s.data.length) : Later s t := by
  induction h with
  | nil acc s => exact ⟨rfl, Nat.le_refl _, hs⟩
  | cons h1 _ ih =>
    have hl := later_of_load hΓ (hf _ List.mem_cons_self) hs h1
    exact hl.trans (ih (fun f h => hf f (List.mem_cons_of_mem _ h)) (by rw [hl.1]; exact hl.2.2))

theorem arrayLoop_blame {Q : Stream → Prop} {P : Err → Prop} {halt : Stream → List Value → Except Err (Bool × List Value)}
    {load : Stream → R Value} (hh : ∀ s vs e, halt s vs = .error e → P e) (hl : ∀ s e t, Q s → load s = (.error e, t) → P e)
    (hq : ∀ s v t, Q s → load s = (.ok v, t) → Q t) (hP : P .outOfFuel) :
    ∀ fuel acc s e t, Q s → arrayLoop halt load fuel acc s = (.error e, t) → P e := by
  intro fuel
  induction fuel with
  | zero =>
    intro acc s e t hs h
    unfold arrayLoop at h
    split at h
    · rename_i e' he; simp only [Prod.mk.injEq, Except.error.injEq] at h; rw [← h.1]; exact hh _ _ _ he
    · simp at h
    · split at h
      · rename_i e' u he; simp only [Prod.mk.injEq, Except.error.injEq] at h; rw [← h.1]; exact hl _ _ _ hs he
      · simp only [Prod.mk.injEq, Except.error.injEq] at h; rw [← h.1]; exact hP
  | succ fuel ih =>
    intro acc s e t hs h
    unfold arrayLoop at h
    split at h
    · rename_i e' he; simp only [Prod.mk.injEq, Except.error.injEq] at h; rw [← h.1]; exact hh _ _ _ he
    · simp at h
    · split at h
      · rename_i e' u he; simp only [Prod.mk.injEq, Except.error.injEq] at h; rw [← h.1]; exact hl _ _ _ hs he
      · rename_i v u hv
        exact ih _ _ _ _ (hq _ _ _ hs hv) h

/-- What load errors say is true. -/
theorem load_fair {Γ : Classes} {E : Err → Prop} (hΓ : ∀ c d, Γ c = some d → RobustClass Γ E d ∧ DiscreetClass d) (data : Bytes) (p : Nat)
    (n : Nat) :
    (∀ pre f, Robust Γ E pre f → DiscreetField f → ∀ s ctx loaded, LoadedSoFar pre loaded → Later ⟨data, p⟩ s → ∀ e t,
      fieldFromStream Γ n f s ctx loaded = (.error e, t) → FairErr data p e) ∧
    (∀ pre f, Robust Γ E pre f → DiscreetField f → ∀ s ctx loaded, LoadedSoFar pre loaded → Later ⟨data, p⟩ s → ∀ e t,
      fieldDoLoad Γ n f s ctx loaded = (.error e, t) → FairErr data p e) ∧
    (∀ d, RobustClass Γ E d → DiscreetClass d → ∀ s ctx, Later ⟨data, p⟩ s → ∀ e t,
      structFromStream Γ n d s ctx [] = (.error e, t) → FairErr data p e) := by
  have hfw : ∀ c d, Γ c = some d → ∀ f ∈ d.components, LoadsForward f := fun c d h => (hΓ c d h).1.forward
  induction n with
  | zero =>
    refine ⟨fun pre f _ _ s ctx l _ _ e t h => ?_, fun pre f _ _ s ctx l _ _ e t h => ?_, fun d _ _ s ctx _ e t h => ?_⟩
    · simp [fieldFromStream] at h; rw [← h.1]; exact .other rfl
    · simp [fieldDoLoad] at h; rw [← h.1]; exact .other rfl
    · simp [structFromStream] at h; rw [← h.1]; exact .other rfl
  | succ n ih =>
    obtain ⟨ihf, ihd, ihs⟩ := ih
    have hstr : ∀ {cls : String} {s t : Stream} {ctx : Value} {e : Err}, Later ⟨data, p⟩ s → (Γ cls).isSome = true →
        loadStruct Γ (fun d s ctx => structFromStream Γ n d s ctx []) cls s ctx = (.error e, t) → FairErr data p e :=
      fun hp hc h => loadStruct_error hc (fun d hd e t h => ihs d (hΓ _ d hd).1 (hΓ _ d hd).2 _ _ hp e t h) h
    refine ⟨fun pre f hr hq s ctx l hl hp e t h => ?_, fun pre f hr hq s ctx l hl hp e t h => ?_, fun d hr hq s ctx hp e t h => ?_⟩
    · rcases fieldFromStream_blame hr hq hl h with he | ⟨e', u, he, rfl⟩
      · exact .other he
      · exact (ihd pre f hr hq s ctx l hl hp e' u he).setErrField _
    · cases f with
      | leaf b k =>
        simp only [fieldDoLoad] at h
        have hp' := hp
        obtain ⟨h1, h2, h3⟩ := hp
        have := (leafLoad_fair hr hl (p := p) (by rw [h1]; exact h3) h2 h).1
        rwa [h1] at this
      | array b comp count halt =>
        cases hr with
        | array hb h1 h2 hc hcomp =>
        cases hq with
        | array hqb hqc =>
        rw [fieldDoLoad_array] at h
        refine arrayLoop_blame (Q := Later ⟨data, p⟩) (P := FairErr data p) ?_ ?_ ?_ (.other rfl) _ _ _ _ _ hp (R.map_error h)
        · intro s vs e he
          obtain ⟨x, hx⟩ := haltCheck_ok hl hc (name := b.name) (ctx := ctx) s vs
          rw [hx] at he; simp at he
        · exact fun s e t hs he => ihf pre comp hcomp hqc s ctx l hl hs e t he
        · exact fun s v t hs hv => hs.trans (later_of_load hfw hcomp.forward (by rw [hs.1]; exact hs.2.2) hv)
      | nested b cls =>
        cases hr with
        | nested hb h1 h2 hc =>
        simp only [fieldDoLoad, containerLoad] at h
        exact hstr hp hc h
      | union b choices ld dd =>
        cases hr with
        | union hb h1 h2 hld hlt hch hcc =>
        cases hq with
        | union hqb hqd hqc =>
        simp only [fieldDoLoad, containerLoad] at h
        split at h
        · rename_i e' he
          simp only [Prod.mk.injEq, Except.error.injEq] at h; rw [← h.1]
          exact .other (hqd _ _ _ _ he)
        · rename_i i hi
          have hlti := hlt _ _ _ _ hi
          split at h
          · rename_i hx; rw [List.getElem?_eq_none_iff] at hx; omega
          · rename_i g hx
            exact ihd pre g (hch g (List.mem_of_getElem? hx)) (hqc g (List.mem_of_getElem? hx)) s ctx l hl hp e t h
          · rename_i cls hx
            exact hstr hp (hcc cls (List.mem_of_getElem? hx)) h
    · rcases structFromStream_blame hr hq h with he | ⟨pre, f, post, r, u, h1, h2, h3, h4⟩
      · exact .other he
      · have hmem : f ∈ d.components := by rw [h1]; simp
        refine ihf pre f (hr.fields pre f post h1) (hq.fields f hmem) u ctx r h3 ?_ e t h4
        exact hp.trans (later_of_loads hfw h2 (fun g hg => hr.forward g (by rw [h1]; simp [hg])) (by rw [hp.1]; exact hp.2.2))

end Verif
