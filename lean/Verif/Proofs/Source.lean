import Verif.Spec.Source

/-!
# Loading from arbitrary streams: helper lemmas
-/

namespace Verif

variable {τ : Type} {view : τ → Stream} {Cut : Err → Prop}

theorem LikeBytesIO.cases {α : Type} {out : Except Err α × τ} {ref : Except Err α × Stream} (h : LikeBytesIO view Cut out ref) :
    (∃ e t', out = (.error e, t') ∧ Cut e) ∨ (∃ e t', out = (.error e, t') ∧ ref = (.error e, view t')) ∨
      (∃ a t', out = (.ok a, t') ∧ ref = (.ok a, view t')) := by
  obtain ⟨r, t'⟩ := out
  obtain ⟨r', s'⟩ := ref
  rcases h with ⟨h1, h2⟩ | ⟨e, h1, h2⟩
  · simp only at h1 h2
    subst h1; subst h2
    cases r with
    | error e => exact .inr (.inl ⟨e, t', rfl, rfl⟩)
    | ok a => exact .inr (.inr ⟨a, t', rfl, rfl⟩)
  · simp only at h1
    subst h1
    exact .inl ⟨e, t', rfl, h2⟩

theorem LikeBytesIO.same {α : Type} (r : Except Err α) (t : τ) : LikeBytesIO view Cut (r, t) (r, view t) := .inl ⟨rfl, rfl⟩

theorem LikeBytesIO.cut {α : Type} {e : Err} (h : Cut e) (t : τ) (ref : Except Err α × Stream) : LikeBytesIO view Cut (.error e, t) ref :=
  .inr ⟨e, rfl, h⟩

theorem LikeBytesIO.mono {α : Type} {Cut' : Err → Prop} (hc : ∀ e, Cut e → Cut' e) {out : Except Err α × τ} {ref : Except Err α × Stream}
    (h : LikeBytesIO view Cut out ref) : LikeBytesIO view Cut' out ref := by
  rcases h with h | ⟨e, h1, h2⟩
  · exact .inl h
  · exact .inr ⟨e, h1, hc e h2⟩

theorem LikeBytesIO.thenCalc {α β : Type} {m : τ → Except Err α × τ} {g : α → Except Err β} {t : τ} {ref : Except Err α × Stream}
    (h : LikeBytesIO view Cut (m t) ref) : LikeBytesIO view Cut (thenCalc m g t) (ref.1.bind g, ref.2) := by
  unfold Verif.thenCalc Verif.andNext
  rcases h.cases with ⟨e, t', h1, hc⟩ | ⟨e, t', h1, h2⟩ | ⟨a, t', h1, h2⟩
  · rw [h1]; exact .cut hc t' _
  · rw [h1]; subst h2; exact .same _ _
  · rw [h1]; subst h2; exact .same _ _

theorem LikeBytesIO.thenMap {α β : Type} {m : τ → Except Err α × τ} {g : α → β} {t : τ} {ref : R α}
    (h : LikeBytesIO view Cut (m t) ref) : LikeBytesIO view Cut (Verif.thenCalc m (fun a => .ok (g a)) t) (R.map ref g) := by
  have := h.thenCalc (g := fun a => .ok (g a))
  obtain ⟨r, s⟩ := ref
  cases r <;> exact this

/-- Exceptions that end a load early. -/
def CutShort (Fault : Err → Prop) (short : Bool) (e : Err) : Prop := Fault e ∨ (short = true ∧ e.isEOF = true)

namespace Source

variable {k : Source τ} {Fault : Err → Prop} {short : Bool}

theorem Lawful.tell' (h : k.Lawful Fault short) (t : τ) : LikeBytesIO k.view (CutShort Fault short) (k.tell t) (.ok (k.view t).tell, k.view t) :=
  (h.tell t).mono fun _ => .inl

theorem Lawful.seek' (h : k.Lawful Fault short) (p : Nat) (t : τ) :
    LikeBytesIO k.view (CutShort Fault short) (k.seek p t) (.ok (), (k.view t).seek p) := by
  have := (h.seek p t).mono (Cut' := CutShort Fault short) fun _ => .inl
  have h0 : ¬ ((p : Int) < 0) := by omega
  simpa [bytesIOSource, seekInt, h0] using this

theorem Lawful.seekInt (h : k.Lawful Fault short) (p : Int) (t : τ) :
    LikeBytesIO k.view (CutShort Fault short) (k.seek p t) (Verif.seekInt (k.view t) p) :=
  (h.seek p t).mono fun _ => .inl

theorem Lawful.skip' (h : k.Lawful Fault short) (p : Nat) (t : τ) :
    LikeBytesIO k.view (CutShort Fault short) (k.skip p t) (.ok (), (k.view t).seek ((k.view t).pos + p)) :=
  (h.skip p t).mono fun _ => .inl

theorem Lawful.read_cases (h : k.Lawful Fault short) (n : Int) (t : τ) :
    (∃ e t', k.read n t = (.error e, t') ∧ CutShort Fault short e) ∨
      (∃ d t', k.read n t = (.ok d, t') ∧ (k.view t).read n = (d, k.view t')) ∨
      (short = true ∧ ∃ d t', k.read n t = (.ok d, t') ∧ (d.length : Int) < n ∧ 2 ≤ n) := by
  rcases h.read n t with h1 | ⟨hs, d, h1, h2⟩
  · rcases h1.cases with ⟨e, t', h1, hc⟩ | ⟨e, t', h1, h2⟩ | ⟨a, t', h1, h2⟩
    · exact .inl ⟨e, t', h1, .inl hc⟩
    · simp [bytesIOSource] at h2
    · refine .inr (.inl ⟨a, t', h1, ?_⟩)
      simp only [bytesIOSource, Prod.mk.injEq, Except.ok.injEq] at h2
      exact Prod.ext h2.1 h2.2
  · refine .inr (.inr ⟨hs, d, (k.read n t).2, ?_, h2.2.2.1, ?_⟩)
    · rw [← h1]
    · have h3 := h2.2.2.1
      have h4 : 0 < d.length := List.length_pos_iff.mpr h2.2.1
      omega

/-- A read of one byte at most is never short. -/
theorem Lawful.read_small (h : k.Lawful Fault short) {n : Int} (hn : n ≤ 1) (t : τ) :
    LikeBytesIO k.view (CutShort Fault short) (k.read n t) (.ok ((k.view t).read n).1, ((k.view t).read n).2) := by
  rcases h.read_cases n t with ⟨e, t', h1, hc⟩ | ⟨d, t', h1, h2⟩ | ⟨_, d, t', _, _, h2⟩
  · rw [h1]; exact .cut hc _ _
  · rw [h1, h2]; exact .same _ _
  · omega

theorem cutShort_eof (hs : short = true) (a : Option String) (b : Int) (c : Nat) : CutShort Fault short (.eof a b c) := .inr ⟨hs, rfl⟩

theorem Lawful.readInt (h : k.Lawful Fault short) (n : Int) (sg : Bool) (en : Endian) (t : τ) :
    LikeBytesIO k.view (CutShort Fault short) (k.readInt n sg en t) (Verif.readInt (k.view t) n sg en) := by
  unfold Source.readInt Verif.readInt
  simp only [andNext, pureResult]
  rcases (h.tell' t).cases with ⟨e, t', h1, hc⟩ | ⟨e, t', h1, h2⟩ | ⟨a, t', h1, h2⟩
  · rw [h1]; exact .cut hc _ _
  · simp at h2
  · rw [h1]
    simp only [Prod.mk.injEq, Except.ok.injEq] at h2
    obtain ⟨rfl, h2⟩ := h2
    simp only
    rw [h2]
    rcases h.read_cases n t' with ⟨e, t2, h3, hc⟩ | ⟨d, t2, h3, h4⟩ | ⟨hs, d, t2, h3, h4, _⟩
    · rw [h3]; exact .cut hc _ _
    · rw [h3, h4]
      simp only
      split <;> exact .same _ _
    · rw [h3]
      simp only [h4, if_true]
      exact .cut (cutShort_eof hs _ _ _) _ _

theorem Lawful.readExactSize (h : k.Lawful Fault short) (name : String) (ex : Except Err Int) (t : τ) :
    LikeBytesIO k.view (CutShort Fault short) (k.readExactSize name ex t) (Verif.readExactSize name ex (k.view t)) := by
  unfold Source.readExactSize Verif.readExactSize
  simp only [andNext]
  rcases (h.tell' t).cases with ⟨e, t', h1, hc⟩ | ⟨e, t', h1, h2⟩ | ⟨a, t', h1, h2⟩
  · rw [h1]; exact .cut hc _ _
  · simp at h2
  · rw [h1]
    simp only [Prod.mk.injEq, Except.ok.injEq] at h2
    obtain ⟨rfl, h2⟩ := h2
    simp only
    rw [h2]
    cases ex with
    | error e => exact .same _ _
    | ok n =>
      simp only [andNext, pureResult]
      rcases h.read_cases n t' with ⟨e, t2, h3, hc⟩ | ⟨d, t2, h3, h4⟩ | ⟨hs, d, t2, h3, h4, _⟩
      · rw [h3]; exact .cut hc _ _
      · rw [h3, h4]
        simp only
        split <;> exact .same _ _
      · rw [h3]
        simp only [h4, if_true]
        exact .cut (cutShort_eof hs _ _ _) _ _

theorem Lawful.loadUuid (h : k.Lawful Fault short) (b : FieldBase) (fmt : UUIDFormat) (ex : Except Err Int) (ctx : Value) (loaded : Dict) (t : τ) :
    LikeBytesIO k.view (CutShort Fault short) (k.loadUuid b.name fmt t) (Verif.leafLoad b (.uuid fmt) ex (k.view t) ctx loaded) := by
  unfold Source.loadUuid Verif.leafLoad
  simp only [andNext]
  rcases h.read_cases fmt.size t with ⟨e, t2, h3, hc⟩ | ⟨d, t2, h3, h4⟩ | ⟨hs, d, t2, h3, h4, _⟩
  · rw [h3]; exact .cut hc _ _
  · rw [h3, h4]
    simp only
    split
    · simp only [andNext]
      rcases (h.tell' t2).cases with ⟨e, t', h1, hc⟩ | ⟨e, t', h1, h2⟩ | ⟨a, t', h1, h2⟩
      · rw [h1]; exact .cut hc _ _
      · simp at h2
      · rw [h1]
        simp only [Prod.mk.injEq, Except.ok.injEq] at h2
        obtain ⟨rfl, h2⟩ := h2
        rw [h2]; exact .same _ _
    · exact .same _ _
  · rw [h3]
    simp only [h4, if_true, andNext]
    rcases (h.tell' t2).cases with ⟨e, t', h1, hc⟩ | ⟨e, t', h1, h2⟩ | ⟨a, t', h1, h2⟩
    · rw [h1]; exact .cut hc _ _
    · simp at h2
    · rw [h1]
      exact .cut (cutShort_eof hs _ _ _) _ _

theorem Lawful.readUInt8 (h : k.Lawful Fault short) (t : τ) :
    LikeBytesIO k.view (CutShort Fault short) (k.readUInt8 t) (Verif.readUInt8 (k.view t)) := by
  have := (h.readInt 1 false .little t).thenCalc (g := fun v => .ok v.toNat)
  unfold Source.readUInt8 Verif.readUInt8
  rcases hr : Verif.readInt (k.view t) 1 false .little with ⟨_ | _, _⟩ <;> rw [hr] at this <;> exact this

theorem Lawful.decodeCompactLoop (h : k.Lawful Fault short) (fuel : Nat) : ∀ (sg : Option Int) (v : Nat) (t : τ),
    LikeBytesIO k.view (CutShort Fault short) (k.decodeCompactLoop fuel sg v t) (Verif.decodeCompactLoop fuel sg v (k.view t)) := by
  induction fuel with
  | zero => intro sg v t; exact .same _ _
  | succ fuel ih =>
    intro sg v t
    unfold Source.decodeCompactLoop Verif.decodeCompactLoop
    simp only [andNext]
    rcases (h.readUInt8 t).cases with ⟨e, t', h1, hc⟩ | ⟨e, t', h1, h2⟩ | ⟨a, t', h1, h2⟩
    · rw [h1]; exact .cut hc _ _
    · rw [h1, h2]; exact .same _ _
    · rw [h1, h2]
      cases sg <;> simp only <;> split
      · exact .same _ _
      · exact ih _ _ _
      · exact .same _ _
      · exact ih _ _ _

theorem Lawful.decodeVlqLoop (h : k.Lawful Fault short) (fuel : Nat) : ∀ (v : Nat) (t : τ),
    LikeBytesIO k.view (CutShort Fault short) (k.decodeVlqLoop fuel v t) (Verif.decodeVlqLoop fuel v (k.view t)) := by
  induction fuel with
  | zero => intro v t; exact .same _ _
  | succ fuel ih =>
    intro v t
    unfold Source.decodeVlqLoop Verif.decodeVlqLoop
    simp only [andNext]
    rcases (h.readUInt8 t).cases with ⟨e, t', h1, hc⟩ | ⟨e, t', h1, h2⟩ | ⟨a, t', h1, h2⟩
    · rw [h1]; exact .cut hc _ _
    · rw [h1, h2]; exact .same _ _
    · rw [h1, h2]
      simp only
      split
      · exact .same _ _
      · exact ih _ _

theorem Lawful.decodeUleb128Loop (h : k.Lawful Fault short) (fuel : Nat) : ∀ (v bits : Nat) (t : τ),
    LikeBytesIO k.view (CutShort Fault short) (k.decodeUleb128Loop fuel v bits t) (Verif.decodeUleb128Loop fuel v bits (k.view t)) := by
  induction fuel with
  | zero => intro v bits t; exact .same _ _
  | succ fuel ih =>
    intro v bits t
    unfold Source.decodeUleb128Loop Verif.decodeUleb128Loop
    simp only [andNext]
    rcases (h.readUInt8 t).cases with ⟨e, t', h1, hc⟩ | ⟨e, t', h1, h2⟩ | ⟨a, t', h1, h2⟩
    · rw [h1]; exact .cut hc _ _
    · rw [h1, h2]; exact .same _ _
    · rw [h1, h2]
      simp only
      split
      · exact .same _ _
      · exact ih _ _ _

theorem Lawful.decodeLeb128 (h : k.Lawful Fault short) (t : τ) :
    LikeBytesIO k.view (CutShort Fault short) (k.decodeLeb128 (loopFuel (k.view t)) t) (Verif.decodeLeb128 (k.view t)) := by
  unfold Source.decodeLeb128 Verif.decodeLeb128 decodeUleb128Nat
  simp only [andNext]
  generalize hfu : loopFuel (k.view t) = fuel
  rcases (h.tell' t).cases with ⟨e, t', h1, hc⟩ | ⟨e, t', h1, h2⟩ | ⟨a, t', h1, h2⟩
  · rw [h1]; exact .cut hc _ _
  · simp at h2
  · rw [h1]
    simp only [Prod.mk.injEq, Except.ok.injEq] at h2
    obtain ⟨rfl, h2⟩ := h2
    simp only
    rw [h2]
    rcases (h.decodeUleb128Loop fuel 0 0 t').cases with ⟨e, t3, h3, hc⟩ | ⟨e, t3, h3, h4⟩ | ⟨a, t3, h3, h4⟩
    · rw [h3]; exact .cut hc _ _
    · rw [h3, h4]; exact .same _ _
    · rw [h3, h4]
      simp only
      split
      · exact .same _ _
      · simp only [andNext]
        rcases (h.tell' t3).cases with ⟨e, t', h1, hc⟩ | ⟨e, t', h1, h2⟩ | ⟨a, t', h1, h2⟩
        · rw [h1]; exact .cut hc _ _
        · simp at h2
        · rw [h1]
          simp only [Prod.mk.injEq, Except.ok.injEq] at h2
          obtain ⟨rfl, h2⟩ := h2
          simp only
          rw [h2]
          split <;> exact .same _ _

theorem Lawful.decodeVarInt (h : k.Lawful Fault short) (enc : VarIntEncoding) (t : τ) :
    LikeBytesIO k.view (CutShort Fault short) (k.decodeVarInt enc t) (enc.decode (k.view t)) := by
  unfold Source.decodeVarInt VarIntEncoding.decode
  cases enc with
  | compact => exact h.decodeCompactLoop _ _ _ _
  | leb128 => exact h.decodeLeb128 t
  | vlq => exact h.decodeVlqLoop _ _ _
  | uleb128 =>
    have := LikeBytesIO.thenCalc (m := k.decodeUleb128Loop (loopFuel (k.view t)) 0 0) (t := t) (g := fun v => .ok (v : Int))
      (h.decodeUleb128Loop (loopFuel (k.view t)) 0 0 t)
    simp only
    unfold decodeUleb128 decodeUleb128Nat
    rcases hr : Verif.decodeUleb128Loop (loopFuel (k.view t)) 0 0 (k.view t) with ⟨_ | _, _⟩ <;> rw [hr] at this <;> exact this

/-- One byte, or the end. -/
theorem Lawful.readOne (h : k.Lawful Fault short) {α : Type} (r : Except Err α) {F : UInt8 → τ → Except Err α × τ} {G : UInt8 → Stream → Except Err α × Stream}
    (hFG : ∀ b t, LikeBytesIO k.view (CutShort Fault short) (F b t) (G b (k.view t))) (t : τ) :
    LikeBytesIO k.view (CutShort Fault short)
      (andNext (k.read 1) (fun data => match data with
        | [] => pureResult r
        | b :: _ => F b) t)
      (match (k.view t).read 1 with
        | ([], s) => (r, s)
        | (b :: _, s) => G b s) := by
  simp only [andNext]
  rcases (h.read_small (Int.le_refl 1) t).cases with ⟨e, t', h1, hc⟩ | ⟨e, t', h1, h2⟩ | ⟨a, t', h1, h2⟩
  · rw [h1]; exact .cut hc _ _
  · simp at h2
  · simp only [Prod.mk.injEq, Except.ok.injEq] at h2
    rw [h1, show (k.view t).read 1 = (a, k.view t') from Prod.ext h2.1 h2.2]
    cases a with
    | nil => exact .same _ _
    | cons b _ => exact hFG b t'

theorem Lawful.stringzLoop (h : k.Lawful Fault short) (name : String) (codec : CharCodec) (mb : Option Int) (fuel : Nat) :
    ∀ (nr : Nat) (buf : Bytes) (acc : List Nat) (t : τ),
    LikeBytesIO k.view (CutShort Fault short) (k.stringzLoop name codec mb fuel nr buf acc t) (Verif.stringzLoop name codec mb fuel nr buf acc (k.view t)) := by
  induction fuel with
  | zero =>
    intro nr buf acc t
    rw [Source.stringzLoop.eq_def, Verif.stringzLoop.eq_def]
    simp only
    have hgo := h.readOne (if buf = [] then .error (.deser (some name)) else .error .unicodeErr)
      (F := fun b => match codec.feed (buf ++ [b]) with
        | .error e => pureResult (.error e)
        | .ok (out, _) => if out = [0] then pureResult (.ok acc) else pureResult (.error .outOfFuel))
      (G := fun b s => match codec.feed (buf ++ [b]) with
        | .error e => (.error e, s)
        | .ok (out, _) => if out = [0] then (.ok acc, s) else (.error .outOfFuel, s))
      (fun b t' => by
        cases codec.feed (buf ++ [b]) with
        | error e => exact .same _ _
        | ok p => simp only; split <;> exact .same _ _) t
    cases mb with
    | none => simp only [Bool.false_eq_true, if_false]; exact hgo
    | some m =>
      simp only [decide_eq_true_eq]
      by_cases hm : (nr : Int) ≥ m
      · simp only [hm, if_true]; exact .same _ _
      · simp only [hm, if_false]; exact hgo
  | succ fuel ih =>
    intro nr buf acc t
    rw [Source.stringzLoop.eq_def, Verif.stringzLoop.eq_def]
    simp only
    have hgo := h.readOne (if buf = [] then .error (.deser (some name)) else .error .unicodeErr)
      (F := fun b => match codec.feed (buf ++ [b]) with
        | .error e => pureResult (.error e)
        | .ok (out, buf') => if out = [0] then pureResult (.ok acc) else k.stringzLoop name codec mb fuel (nr + 1) buf' (acc ++ out))
      (G := fun b s => match codec.feed (buf ++ [b]) with
        | .error e => (.error e, s)
        | .ok (out, buf') => if out = [0] then (.ok acc, s) else Verif.stringzLoop name codec mb fuel (nr + 1) buf' (acc ++ out) s)
      (fun b t' => by
        cases codec.feed (buf ++ [b]) with
        | error e => exact .same _ _
        | ok p =>
          simp only
          split
          · exact .same _ _
          · exact ih _ _ _ _) t
    cases mb with
    | none => simp only [Bool.false_eq_true, if_false]; exact hgo
    | some m =>
      simp only [decide_eq_true_eq]
      by_cases hm : (nr : Int) ≥ m
      · simp only [hm, if_true]; exact .same _ _
      · simp only [hm, if_false]; exact hgo

theorem Lawful.leafLoad (h : k.Lawful Fault short) (b : FieldBase) (l : Leaf) (ex : Except Err Int) (ctx : Value) (loaded : Dict) (t : τ) :
    LikeBytesIO k.view (CutShort Fault short) (k.leafLoad b l ex ctx loaded t) (Verif.leafLoad b l ex (k.view t) ctx loaded) := by
  cases l with
  | float fmt en => exact (h.readExactSize _ _ _).thenCalc
  | integer sg en =>
    unfold Source.leafLoad Verif.leafLoad
    cases b.size with
    | fixed n => exact (h.readInt _ _ _ _).thenMap
    | _ => exact .same _ _
  | varint enc mb => exact (h.decodeVarInt _ _).thenMap
  | timestamp res tz sg en =>
    unfold Source.leafLoad Verif.leafLoad
    cases ex with
    | error e => exact .same _ _
    | ok n => exact (h.readInt _ _ _ _).thenCalc
  | bytes => exact (h.readExactSize _ _ _).thenMap
  | string codec pad => exact (h.readExactSize _ _ _).thenCalc
  | stringz codec pad =>
    unfold Source.leafLoad Verif.leafLoad
    simp only
    cases ex with
    | ok n => exact (h.stringzLoop _ _ _ _ _ _ _ _).thenMap
    | error e => cases e <;> first | exact (h.stringzLoop _ _ _ _ _ _ _ _).thenMap | exact .same _ _
  | uuid fmt => exact h.loadUuid b fmt ex ctx loaded t
  | custom ops => exact h.custom _ t

/-- Look, and go back. -/
theorem Lawful.peek (h : k.Lawful Fault short) {α : Type} {m : τ → Except Err α × τ} {t : τ} {here : Nat} {ref : Except Err α × Stream}
    (hm : LikeBytesIO k.view (CutShort Fault short) (m t) ref) (hd : ref.2.seek here = k.view t) :
    LikeBytesIO k.view (CutShort Fault short) (tryFinally m (k.seek here) t) (ref.1, k.view t) := by
  unfold tryFinally
  have key : ∀ r t', LikeBytesIO k.view (CutShort Fault short) (r, t') ref →
      LikeBytesIO k.view (CutShort Fault short) (match k.seek here t' with
        | (.error e, t) => (.error e, t)
        | (.ok _, t) => (r, t)) (ref.1, k.view t) := by
    intro r t' hr
    rcases (h.seek' here t').cases with ⟨e, t3, h3, hc⟩ | ⟨e, t3, h3, h4⟩ | ⟨a, t3, h3, h4⟩
    · rw [h3]; exact .cut hc _ _
    · simp at h4
    · rw [h3]
      rcases hr with ⟨h5, h6⟩ | ⟨e, h5, hc⟩
      · simp only [Prod.mk.injEq] at h4
        refine .inl ⟨h5, ?_⟩
        simp only at h6
        rw [← h4.2, h6, hd]
      · exact .inr ⟨e, h5, hc⟩
  exact key _ _ hm

theorem Lawful.peekBytes (h : k.Lawful Fault short) {n : Int} (hn : short = true → n ≤ 1) (t : τ) :
    LikeBytesIO k.view (CutShort Fault short) (k.peekBytes n t) (Verif.peekBytes (k.view t) n) := by
  have hread : ∀ t, LikeBytesIO k.view (CutShort Fault short) (k.read n t) (.ok ((k.view t).read n).1, ((k.view t).read n).2) := by
    intro t
    rcases h.read_cases n t with ⟨e, t', h1, hc⟩ | ⟨d, t', h1, h2⟩ | ⟨hs, d, t', _, _, h2⟩
    · rw [h1]; exact .cut hc _ _
    · rw [h1, h2]; exact .same _ _
    · have := hn hs; omega
  unfold Source.peekBytes Verif.peekBytes
  simp only [andNext]
  rcases (h.tell' t).cases with ⟨e, t', h1, hc⟩ | ⟨e, t', h1, h2⟩ | ⟨a, t', h1, h2⟩
  · rw [h1]; exact .cut hc _ _
  · simp at h2
  · rw [h1]
    simp only [Prod.mk.injEq, Except.ok.injEq] at h2
    obtain ⟨rfl, h2⟩ := h2
    have := h.peek (here := (k.view t).tell) (hread t') (by rw [h2]; rfl)
    simp only
    rw [← h2] at this
    exact this

theorem Lawful.shouldHalt (h : k.Lawful Fault short) (name : String) (count : Count) (vs : List Value) (loaded : Dict) (t : τ) :
    LikeBytesIO k.view (CutShort Fault short) (k.shouldHalt name count vs loaded t) (Verif.shouldHalt name count (k.view t) vs loaded, k.view t) := by
  unfold Source.shouldHalt Verif.shouldHalt
  cases count with
  | none =>
    simp only [andNext]
    rcases (h.tell' t).cases with ⟨e, t', h1, hc⟩ | ⟨e, t', h1, h2⟩ | ⟨a, t', h1, h2⟩
    · rw [h1]; exact .cut hc _ _
    · simp at h2
    · rw [h1]
      simp only [Prod.mk.injEq, Except.ok.injEq] at h2
      obtain ⟨rfl, h2⟩ := h2
      have := h.peek (here := (k.view t).tell)
        ((h.read_small (Int.le_refl 1) t').thenCalc (g := fun d => .ok (decide (d = [])))) (by rw [h2]; rfl)
      simp only
      rw [← h2] at this
      exact this
  | _ => exact .same _ _

theorem Lawful.haltCheck (h : k.Lawful Fault short) (name : String) (count : Count)
    (halt : Option (Stream → List Value → Value → Dict → Except Err (Bool × List Value))) (ctx : Value) (loaded : Dict) (vs : List Value) (t : τ) :
    LikeBytesIO k.view (CutShort Fault short) (k.haltCheck name count halt ctx loaded vs t) (Verif.haltCheck name count halt ctx loaded (k.view t) vs, k.view t) := by
  cases halt with
  | none => exact (h.shouldHalt name count vs loaded t).thenMap
  | some g => exact .same _ _

theorem arrayLoop_like {Cut : Err → Prop} {halt : List Value → τ → Except Err (Bool × List Value) × τ} {load : τ → Except Err Value × τ}
    {halt' : Stream → List Value → Except Err (Bool × List Value)} {load' : Stream → R Value}
    (hh : ∀ vs t, LikeBytesIO view Cut (halt vs t) (halt' (view t) vs, view t)) (hl : ∀ t, LikeBytesIO view Cut (load t) (load' (view t))) (fuel : Nat) :
    ∀ acc t, LikeBytesIO view Cut (Source.arrayLoop halt load fuel acc t) (Verif.arrayLoop halt' load' fuel acc (view t)) := by
  induction fuel with
  | zero =>
    intro acc t
    rw [Source.arrayLoop.eq_def, Verif.arrayLoop.eq_def]
    simp only [andNext]
    rcases (hh acc t).cases with ⟨e, t', h1, hc⟩ | ⟨e, t', h1, h2⟩ | ⟨a, t', h1, h2⟩
    · rw [h1]; exact .cut hc _ _
    · simp only [Prod.mk.injEq] at h2
      rw [h1, h2.1, h2.2]; exact .same _ _
    · obtain ⟨stop, vs⟩ := a
      simp only [Prod.mk.injEq] at h2
      rw [h1, h2.1, h2.2]
      cases stop with
      | true => exact .same _ _
      | false =>
        simp only [Bool.false_eq_true, if_false, andNext]
        rcases (hl t').cases with ⟨e, t3, h3, hc⟩ | ⟨e, t3, h3, h4⟩ | ⟨a, t3, h3, h4⟩
        · simp only [h3]; exact .cut hc _ _
        · simp only [h3, h4]; exact .same _ _
        · simp only [h3, h4]; exact .same _ _
  | succ fuel ih =>
    intro acc t
    rw [Source.arrayLoop.eq_def, Verif.arrayLoop.eq_def]
    simp only [andNext]
    rcases (hh acc t).cases with ⟨e, t', h1, hc⟩ | ⟨e, t', h1, h2⟩ | ⟨a, t', h1, h2⟩
    · rw [h1]; exact .cut hc _ _
    · simp only [Prod.mk.injEq] at h2
      rw [h1, h2.1, h2.2]; exact .same _ _
    · obtain ⟨stop, vs⟩ := a
      simp only [Prod.mk.injEq] at h2
      rw [h1, h2.1, h2.2]
      cases stop with
      | true => exact .same _ _
      | false =>
        simp only [Bool.false_eq_true, if_false, andNext]
        rcases (hl t').cases with ⟨e, t3, h3, hc⟩ | ⟨e, t3, h3, h4⟩ | ⟨a, t3, h3, h4⟩
        · simp only [h3]; exact .cut hc _ _
        · simp only [h3, h4]; exact .same _ _
        · simp only [h3, h4]; exact ih _ _

theorem loadFields_like {Cut : Err → Prop} {load : Field → Dict → τ → Except Err Value × τ} {load' : Field → Stream → Dict → R Value} {fs : List Field}
    (hl : ∀ f ∈ fs, ∀ vals t, LikeBytesIO view Cut (load f vals t) (load' f (view t) vals)) :
    ∀ vals t, LikeBytesIO view Cut (Source.loadFields load fs vals t) (Verif.loadFields load' fs vals (view t)) := by
  induction fs with
  | nil => intro vals t; exact .same _ _
  | cons f fs ih =>
    intro vals t
    unfold Source.loadFields Verif.loadFields
    simp only [andNext]
    rcases (hl f List.mem_cons_self vals t).cases with ⟨e, t', h1, hc⟩ | ⟨e, t', h1, h2⟩ | ⟨a, t', h1, h2⟩
    · rw [h1]; exact .cut hc _ _
    · rw [h1, h2]; exact .same _ _
    · rw [h1, h2]
      exact ih (fun g hg => hl g (List.mem_cons_of_mem _ hg)) _ _

theorem structFromSourceWith_like {Cut : Err → Prop} {load : Field → Dict → τ → Except Err Value × τ} {load' : Field → Stream → Dict → R Value}
    {d : StructDesc} (hl : ∀ f ∈ d.components, ∀ vals t, LikeBytesIO view Cut (load f vals t) (load' f (view t) vals)) (kw : Dict) (t : τ) :
    LikeBytesIO view Cut (Source.structFromSourceWith load d kw t) (Verif.structFromStreamWith load' d (view t) kw) := by
  have := (loadFields_like hl kw t).thenCalc (g := fun results =>
    match structInit d results with
    | .error e => .error e
    | .ok vals =>
      match validateContents d vals with
      | .error e => .error e
      | .ok _ => .ok (dropDiscarded d vals))
  unfold Source.structFromSourceWith Verif.structFromStreamWith
  rcases hr : Verif.loadFields load' d.components kw (view t) with ⟨_ | r, _⟩ <;> rw [hr] at this
  · exact this
  · refine cast ?_ this
    congr 1
    simp only [Except.bind]
    cases structInit d r with
    | error e => rfl
    | ok v =>
      simp only
      cases validateContents d v <;> rfl

theorem cutShort_setErrField (hF : Foreign Fault) {e : Err} (name : String) (h : CutShort Fault short e) : CutShort Fault short (setErrField name e) := by
  rcases h with h | ⟨hs, h⟩
  · have := hF e h
    cases e <;> first | exact .inl h | (simp [Err.isDeserialization] at this)
  · cases e <;> first | exact .inr ⟨hs, rfl⟩ | (simp [Err.isEOF] at h)

theorem loadAndFinish_like (hF : Foreign Fault) {b : FieldBase} {eq : Value → Value → Except Err Bool} {load : τ → Except Err Value × τ}
    {load' : Stream → R Value} {t : τ} (hl : LikeBytesIO view (CutShort Fault short) (load t) (load' (view t))) :
    LikeBytesIO view (CutShort Fault short) (Source.loadAndFinish b eq load t) (Verif.loadAndFinish b eq load' (view t)) := by
  unfold Source.loadAndFinish Verif.loadAndFinish
  rcases hl.cases with ⟨e, t', h1, hc⟩ | ⟨e, t', h1, h2⟩ | ⟨a, t', h1, h2⟩
  · rw [h1]; exact .cut (cutShort_setErrField hF _ hc) _ _
  · rw [h1, h2]; exact .same _ _
  · rw [h1, h2]; exact .same _ _

theorem Lawful.fromSourceWith (h : k.Lawful Fault short) (hF : Foreign Fault) {b : FieldBase} {eq : Value → Value → Except Err Bool}
    {nr : Except Err Bytes} {load : τ → Except Err Value × τ} {load' : Stream → R Value}
    (hn : short = true → b.allowNull = true → ∀ repr, nr = .ok repr → repr.length ≤ 1)
    (hl : ∀ t, LikeBytesIO k.view (CutShort Fault short) (load t) (load' (k.view t))) (ctx : Value) (loaded : Dict) (t : τ) :
    LikeBytesIO k.view (CutShort Fault short) (k.fromSourceWith b eq nr load ctx loaded t) (fromStreamWith b eq nr load' (k.view t) ctx loaded) := by
  unfold Source.fromSourceWith fromStreamWith
  cases b.present loaded.view ctx (some (k.view t)) with
  | error e => exact .same _ _
  | ok p =>
    cases p with
    | false => exact .same _ _
    | true =>
      simp only
      cases hnull : b.allowNull with
      | false => exact loadAndFinish_like hF (hl t)
      | true =>
        simp only [if_true]
        cases nr with
        | error e =>
          simp only
          split
          · split
            · exact .same _ _
            · exact loadAndFinish_like hF (hl t)
          · exact .same _ _
        | ok repr =>
          simp only [andNext]
          rcases (h.peekBytes (n := repr.length) (fun hs => by have := hn hs hnull repr rfl; omega) t).cases with
            ⟨e, t', h1, hc⟩ | ⟨e, t', h1, h2⟩ | ⟨a, t', h1, h2⟩
          · rw [h1]; exact .cut hc _ _
          · rw [h1, h2]; exact .same _ _
          · rw [h1, h2]
            simp only
            split
            · simp only [andNext]
              rcases (h.skip' repr.length t').cases with ⟨e, t3, h3, hc⟩ | ⟨e, t3, h3, h4⟩ | ⟨a, t3, h3, h4⟩
              · rw [h3]; exact .cut hc _ _
              · simp at h4
              · rw [h3]
                simp only [Prod.mk.injEq] at h4
                rw [h4.2]
                simp only [pureResult]
                cases runValidators b.validators .none <;> exact .same _ _
            · exact loadAndFinish_like hF (hl t')

end Source

theorem briefChoices_mem {Γ : Classes} {g : Field} : ∀ {cs : List (Field ⊕ String)} {i : Nat}, BriefChoices Γ cs → cs[i]? = some (.inl g) → BriefNulls Γ g
  | [], _, _, hi => by simp at hi
  | c :: cs, 0, h, hi => by
    simp only [List.getElem?_cons_zero, Option.some.injEq] at hi
    subst hi
    unfold BriefChoices at h
    exact h.1
  | c :: cs, i + 1, h, hi => by
    have h' : BriefChoices Γ cs := by
      cases c with
      | inl f => unfold BriefChoices at h; exact h.2
      | inr f => unfold BriefChoices at h; exact h
    exact briefChoices_mem h' (by simpa using hi)

theorem BriefNulls.here {Γ : Classes} {f : Field} (h : BriefNulls Γ f) : BriefNull Γ f := by
  cases f <;> unfold BriefNulls at h
  · exact h
  · exact h.1
  · exact h
  · exact h.1

section Main

variable {k : Source τ} {Fault : Err → Prop} {short : Bool}

theorem source_like (h : k.Lawful Fault short) (hF : Foreign Fault) (Γ : Classes) (hΓ : short = true → BriefClasses Γ) (n : Nat) :
    (∀ f, (short = true → BriefNulls Γ f) → ∀ ctx loaded t,
      LikeBytesIO k.view (CutShort Fault short) (fieldFromSource k Γ n f ctx loaded t) (fieldFromStream Γ n f (k.view t) ctx loaded)) ∧
    (∀ f, (short = true → BriefNulls Γ f) → ∀ ctx loaded t,
      LikeBytesIO k.view (CutShort Fault short) (fieldDoLoadSource k Γ n f ctx loaded t) (fieldDoLoad Γ n f (k.view t) ctx loaded)) ∧
    (∀ d, (short = true → ∀ f ∈ d.components, BriefNulls Γ f) → ∀ ctx kw t,
      LikeBytesIO k.view (CutShort Fault short) (structFromSource k Γ n d ctx kw t) (structFromStream Γ n d (k.view t) ctx kw)) := by
  induction n with
  | zero =>
    refine ⟨?_, ?_, ?_⟩ <;> intros <;> simp only [fieldFromSource, fieldDoLoadSource, structFromSource, fieldFromStream, fieldDoLoad, structFromStream] <;>
      exact .same _ _
  | succ n ih =>
    obtain ⟨ih1, ih2, ih3⟩ := ih
    have hstruct : ∀ cls ctx t, LikeBytesIO k.view (CutShort Fault short) (Source.loadStruct Γ (fun d ctx => structFromSource k Γ n d ctx []) cls ctx t)
        (loadStruct Γ (fun d s ctx => structFromStream Γ n d s ctx []) cls (k.view t) ctx) := by
      intro cls ctx t
      unfold Source.loadStruct loadStruct
      cases hc : Γ cls with
      | none => exact .same _ _
      | some d => exact (ih3 d (fun hs => hΓ hs cls d hc) ctx [] t).thenMap
    refine ⟨?_, ?_, ?_⟩
    · intro f hf ctx loaded t
      rw [fieldFromSource, fieldFromStream]
      exact h.fromSourceWith hF (fun hs ha repr hr => (hf hs).here ha n loaded repr hr) (fun t => ih2 f hf ctx loaded t) ctx loaded t
    · intro f hf ctx loaded t
      cases f with
      | leaf b l =>
        simp only [fieldDoLoadSource, fieldDoLoad]
        exact h.leafLoad b l _ ctx loaded t
      | array b comp count halt =>
        simp only [fieldDoLoadSource, fieldDoLoad]
        refine (Source.arrayLoop_like (fun vs t => h.haltCheck b.name count halt ctx loaded vs t) (fun t => ih1 comp (fun hs => ?_) ctx loaded t) n [] t).thenMap
        have := hf hs
        unfold BriefNulls at this
        exact this.2
      | nested b cls =>
        simp only [fieldDoLoadSource, fieldDoLoad]
        exact hstruct cls ctx t
      | union b choices ld dd =>
        simp only [fieldDoLoadSource, fieldDoLoad, Source.containerLoad, containerLoad]
        cases ld (k.view t) ctx loaded with
        | error e => exact .same _ _
        | ok i =>
          simp only
          cases hi : choices[i]? with
          | none => exact .same _ _
          | some c =>
            cases c with
            | inl g =>
              refine ih2 g (fun hs => ?_) ctx loaded t
              have := hf hs
              unfold BriefNulls at this
              exact briefChoices_mem this.2 hi
            | inr cls => exact hstruct cls ctx t
    · intro d hd ctx kw t
      rw [structFromSource, structFromStream]
      exact Source.structFromSourceWith_like (fun f hf vals t => ih1 f (fun hs => hd hs f hf) ctx vals t) kw t

theorem partialLoadLoop_like (h : k.Lawful Fault short) {load : Field → Dict → τ → Except Err Value × τ} {load' : Field → Stream → Dict → R Value}
    {last : Option String} (hend : ∀ e, CutShort Fault short e → ¬ (e.isEOF = true ∧ last = none)) {fs : List Field}
    (hl : ∀ f ∈ fs, ∀ vals t, LikeBytesIO k.view (CutShort Fault short) (load f vals t) (load' f (k.view t) vals)) :
    ∀ vals t, LikeBytesIO k.view (CutShort Fault short) (partialLoadLoopSource k load last fs vals t) (partialLoadLoop load' last fs vals (k.view t)) := by
  induction fs with
  | nil => intro vals t; exact .same _ _
  | cons f fs ih =>
    intro vals t
    unfold partialLoadLoopSource partialLoadLoop
    simp only [andNext]
    rcases (h.tell' t).cases with ⟨e, t', h1, hc⟩ | ⟨e, t', h1, h2⟩ | ⟨a, t', h1, h2⟩
    · rw [h1]; exact .cut hc _ _
    · simp at h2
    · rw [h1]
      simp only [Prod.mk.injEq, Except.ok.injEq] at h2
      obtain ⟨rfl, h2⟩ := h2
      simp only
      rw [h2]
      rcases (hl f List.mem_cons_self vals t').cases with ⟨e, t3, h3, hc⟩ | ⟨e, t3, h3, h4⟩ | ⟨a, t3, h3, h4⟩
      · rw [h3]
        simp only
        rw [if_neg (hend e hc)]
        exact .cut hc _ _
      · rw [h3, h4]
        simp only
        split
        · rcases (h.seek' (k.view t').tell t3).cases with ⟨e, t5, h5, hc⟩ | ⟨e, t5, h5, h6⟩ | ⟨a, t5, h5, h6⟩
          · rw [h5]; exact .cut hc _ _
          · simp at h6
          · rw [h5]
            simp only [Prod.mk.injEq] at h6
            rw [h6.2]
            exact .same _ _
        · exact .same _ _
      · rw [h3, h4]
        simp only
        split
        · exact .same _ _
        · exact ih (fun g hg => hl g (List.mem_cons_of_mem _ hg)) _ _

theorem structPartialLoad_like (h : k.Lawful Fault short) (hF : Foreign Fault) (Γ : Classes) (hΓ : short = true → BriefClasses Γ) (n : Nat)
    {d : StructDesc} (hd : short = true → ∀ f ∈ d.components, BriefNulls Γ f) {last : Option String} (hend : short = true → last ≠ none)
    (ctx : Value) (t : τ) :
    LikeBytesIO k.view (CutShort Fault short) (structPartialLoadSource k Γ n d last ctx t) (structPartialLoad Γ n d (k.view t) last ctx) := by
  unfold structPartialLoadSource structPartialLoad
  split
  · exact .same _ _
  · have := (partialLoadLoop_like h (last := last) (fs := d.components) (load := fun f loaded => fieldFromSource k Γ n f ctx loaded)
      (load' := fun f s loaded => fieldFromStream Γ n f s ctx loaded)
      (fun e he hh => by
        rcases he with he | ⟨hs, _⟩
        · have := hF e he
          cases e <;> simp_all [Err.isEOF, Err.isDeserialization]
        · exact hend hs hh.2)
      (fun f hf vals t => (source_like h hF Γ hΓ n).1 f (fun hs => hd hs f hf) ctx vals t) [] t).thenCalc (g := structInit d)
    rcases hr : partialLoadLoop (fun f s loaded => fieldFromStream Γ n f s ctx loaded) last d.components [] (k.view t) with ⟨_ | _, _⟩ <;>
      rw [hr] at this <;> exact this

/-- `try: a finally: stream.seek(here)` -/
theorem tryFinally_like (h : k.Lawful Fault short) {α : Type} {m : τ → Except Err α × τ} {t : τ} (here : Nat) {ref : Except Err α × Stream}
    (hm : LikeBytesIO k.view (CutShort Fault short) (m t) ref) :
    LikeBytesIO k.view (CutShort Fault short) (tryFinally m (k.seek here) t) (ref.1, ref.2.seek here) := by
  unfold tryFinally
  have key : ∀ r t', LikeBytesIO k.view (CutShort Fault short) (r, t') ref →
      LikeBytesIO k.view (CutShort Fault short) (match k.seek here t' with
        | (.error e, t) => (.error e, t)
        | (.ok _, t) => (r, t)) (ref.1, ref.2.seek here) := by
    intro r t' hr
    rcases (h.seek' here t').cases with ⟨e, t3, h3, hc⟩ | ⟨e, t3, h3, h4⟩ | ⟨a, t3, h3, h4⟩
    · rw [h3]; exact .cut hc _ _
    · simp at h4
    · rw [h3]
      rcases hr with ⟨h5, h6⟩ | ⟨e, h5, hc⟩
      · simp only [Prod.mk.injEq] at h4
        refine .inl ⟨h5, ?_⟩
        simp only at h6
        rw [← h4.2, h6]
      · exact .inr ⟨e, h5, hc⟩
  exact key _ _ hm

theorem structGetField_like (h : k.Lawful Fault short) (hF : Foreign Fault) (Γ : Classes) (hΓ : short = true → BriefClasses Γ) (n : Nat)
    {d : StructDesc} (hd : short = true → ∀ f ∈ d.components, BriefNulls Γ f) (name : String) (ctx : Value) (t : τ) :
    LikeBytesIO k.view (CutShort Fault short) (structGetFieldSource k Γ n d name ctx t) (structGetField Γ n d (k.view t) name ctx) := by
  unfold structGetFieldSource structGetField
  cases hf : d.find? name with
  | none => exact .same _ _
  | some f =>
    have hmem : f ∈ d.components := List.mem_of_find?_eq_some hf
    simp only [andNext]
    rcases (h.tell' t).cases with ⟨e, t', h1, hc⟩ | ⟨e, t', h1, h2⟩ | ⟨a, t', h1, h2⟩
    · rw [h1]; exact .cut hc _ _
    · simp at h2
    · rw [h1]
      simp only [Prod.mk.injEq, Except.ok.injEq] at h2
      obtain ⟨rfl, h2⟩ := h2
      simp only
      rw [h2]
      generalize (k.view t').tell = here
      cases f.base.offset with
      | some off =>
        simp only
        have hin : LikeBytesIO k.view (CutShort Fault short) (andNext (k.seek (here + off)) (fun _ => fieldFromSource k Γ n f ctx []) t')
            (match seekInt (k.view t') (here + off) with
              | (.error e, s) => (.error e, s)
              | (.ok _, s) => fieldFromStream Γ n f s ctx []) := by
          simp only [andNext]
          rcases (h.seekInt (here + off) t').cases with ⟨e, t3, h3, hc⟩ | ⟨e, t3, h3, h4⟩ | ⟨a, t3, h3, h4⟩
          · rw [h3]; exact .cut hc _ _
          · rw [h3, h4]; exact .same _ _
          · rw [h3, h4]
            exact (source_like h hF Γ hΓ n).1 f (fun hs => hd hs f hmem) ctx [] t3
        have := tryFinally_like h here hin
        rcases hr : seekInt (k.view t') (here + off) with ⟨_ | _, _⟩ <;> rw [hr] at this <;> exact this
      | none =>
        simp only
        have := (tryFinally_like h here (structPartialLoad_like h hF Γ hΓ n hd (last := some name) (fun _ => by simp) ctx t')).thenCalc
          (g := fun vals => structGetItem d vals name)
        rcases hr : structPartialLoad Γ n d (k.view t') (some name) ctx with ⟨_ | _, _⟩ <;> rw [hr] at this <;> exact this

end Main

/-! ## `bytesIOSource` and `scripted` are streams of this kind -/

theorem bytesIOSource_lawful : bytesIOSource.Lawful (fun _ => False) false where
  tell _ := .inl ⟨rfl, rfl⟩
  seek _ _ := .inl ⟨rfl, rfl⟩
  skip _ _ := .inl ⟨rfl, rfl⟩
  read _ _ := .inl (.inl ⟨rfl, rfl⟩)
  custom _ _ := .inl ⟨rfl, rfl⟩

theorem shortRead_of_read {s : Stream} {n : Int} {k : Nat} (hk : (k : Int) + 1 < n) :
    s.read (k + 1) = s.read n ∨ ShortRead s n (s.read (k + 1)).1 (s.read (k + 1)).2 := by
  have h0 : ¬ ((k : Int) + 1 < 0) := by omega
  have h1 : ¬ (n < 0) := by omega
  have h2 : ((k : Int) + 1).toNat = k + 1 := by omega
  by_cases hl : s.rest.length ≤ k + 1
  · left
    have hl' : (s.data.drop s.pos).length ≤ k + 1 := hl
    have hl2 : (s.data.drop s.pos).length ≤ n.toNat := by omega
    simp only [Stream.read, h0, h1, if_false, h2, List.take_of_length_le hl', List.take_of_length_le hl2]
  · right
    have hl' : ¬ ((s.data.drop s.pos).length ≤ k + 1) := hl
    have hlen : ((s.data.drop s.pos).take (k + 1)).length = k + 1 := by rw [List.length_take]; omega
    refine ⟨by omega, ?_, ?_, ?_, ?_⟩
    · simp only [Stream.read, h0, if_false, h2]
      intro hc
      rw [hc] at hlen
      simp at hlen
    · simp only [Stream.read, h0, if_false, h2, hlen]
      omega
    · simp only [Stream.read, h0, if_false, h2, Stream.rest]
      exact List.take_prefix _ _
    · simp only [Stream.read, h0, if_false, h2]

theorem scripted_lawful (script : List Event) (short : Bool) (hs : short = false → ∀ m, .atMost m ∉ script) :
    (scripted script).Lawful (fun e => .raises e ∈ script) short where
  tell t := by
    simp only [scripted, bytesIOSource]
    cases h : script[t.2]? with
    | none => exact .inl ⟨rfl, rfl⟩
    | some ev =>
      have := List.mem_of_getElem? h
      cases ev with
      | fine => exact .inl ⟨rfl, rfl⟩
      | raises e => exact .inr ⟨e, rfl, this⟩
      | atMost m => exact .inl ⟨rfl, rfl⟩
  seek p t := by
    simp only [scripted, bytesIOSource]
    cases h : script[t.2]? with
    | none => exact .inl ⟨rfl, rfl⟩
    | some ev =>
      have := List.mem_of_getElem? h
      cases ev with
      | fine => exact .inl ⟨rfl, rfl⟩
      | raises e => exact .inr ⟨e, rfl, this⟩
      | atMost m => exact .inl ⟨rfl, rfl⟩
  skip p t := by
    simp only [scripted, bytesIOSource]
    cases h : script[t.2]? with
    | none => exact .inl ⟨rfl, rfl⟩
    | some ev =>
      have := List.mem_of_getElem? h
      cases ev with
      | fine => exact .inl ⟨rfl, rfl⟩
      | raises e => exact .inr ⟨e, rfl, this⟩
      | atMost m => exact .inl ⟨rfl, rfl⟩
  read n t := by
    simp only [scripted, bytesIOSource]
    cases h : script[t.2]? with
    | none => exact .inl (.inl ⟨rfl, rfl⟩)
    | some ev =>
      have := List.mem_of_getElem? h
      cases ev with
      | fine => exact .inl (.inl ⟨rfl, rfl⟩)
      | raises e => exact .inl (.inr ⟨e, rfl, this⟩)
      | atMost m =>
        simp only
        split
        · rename_i hm
          rcases shortRead_of_read (s := t.1) hm with h1 | h1
          · rw [h1]; exact .inl (.inl ⟨rfl, rfl⟩)
          · right
            cases short with
            | false => exact absurd this (hs rfl m)
            | true => exact ⟨rfl, _, rfl, h1⟩
        · exact .inl (.inl ⟨rfl, rfl⟩)
  custom _ _ := .inl ⟨rfl, rfl⟩

end Verif
