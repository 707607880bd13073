import Verif.Spec.Bom
import Verif.Props.Text

/-!
# Lemmas about encodings with a byte order mark
-/

namespace Verif

open Verif.Spec

theorem Spec.Announces.supported {enc : BomEncoding} {m : Bytes} {k : CharCodec} (h : Announces enc m k) : Supported k := by
  cases h <;> constructor

theorem Spec.Announces.lawful {enc : BomEncoding} {m : Bytes} {k : CharCodec} (h : Announces enc m k) : Lawful k :=
  supported_lawful h.supported

theorem base_supported (enc : BomEncoding) : Supported enc.base := by
  cases enc <;> constructor

/-- The mark that is written announces the codec that is used for writing. -/
theorem announces_own (enc : BomEncoding) : Announces enc enc.mark enc.base := by
  cases enc with
  | utf16 n => cases n <;> constructor
  | utf32 n => cases n <;> constructor
  | utf8sig => constructor

theorem mark_ne {enc : BomEncoding} {m : Bytes} {k : CharCodec} (h : Announces enc m k) : m ≠ [] := by
  cases h <;> simp

/-- The decoder finds a mark. -/
theorem sniff_mark {enc : BomEncoding} {m : Bytes} {k : CharCodec} (h : Announces enc m k) (rest : Bytes) :
    enc.sniff (m ++ rest) = .found k m.length := by
  cases h <;> simp [BomEncoding.sniff]

/-- The beginning of a mark could be a mark. -/
theorem sniff_prefix {enc : BomEncoding} {m : Bytes} {k : CharCodec} (h : Announces enc m k) {p q : Bytes} (e : m = p ++ q) (hq : q ≠ []) :
    enc.sniff p = .more := by
  have key : ∀ j, j < m.length → enc.sniff (m.take j) = .more := by
    intro j hj
    cases h with
    | utf16le n => match j, hj with
      | 0, _ | 1, _ => rfl
      | j + 2, hj => exact absurd hj (by simp)
    | utf16be n => match j, hj with
      | 0, _ | 1, _ => rfl
      | j + 2, hj => exact absurd hj (by simp)
    | utf32le n => match j, hj with
      | 0, _ | 1, _ | 2, _ | 3, _ => rfl
      | j + 4, hj => exact absurd hj (by simp)
    | utf32be n => match j, hj with
      | 0, _ | 1, _ | 2, _ | 3, _ => rfl
      | j + 4, hj => exact absurd hj (by simp)
    | utf8 => match j, hj with
      | 0, _ | 1, _ | 2, _ => rfl
      | j + 3, hj => exact absurd hj (by simp)
  have := key p.length (by rw [e]; have := List.length_pos_iff.2 hq; simp; omega)
  rwa [e, List.take_left'] at this
  rfl

/-- What the decoder takes for a mark is one. -/
theorem sniff_found {enc : BomEncoding} {b : Bytes} {k : CharCodec} {n : Nat} (h : enc.sniff b = .found k n) :
    ∃ m rest, Announces enc m k ∧ b = m ++ rest ∧ n = m.length := by
  unfold BomEncoding.sniff at h
  split at h
  · split at h
    · rename_i hc; obtain ⟨rfl, rfl⟩ := hc
      injection h with h1 h2; subst h1 h2
      exact ⟨_, _, .utf16le _, rfl, rfl⟩
    · split at h
      · rename_i hc; obtain ⟨rfl, rfl⟩ := hc
        injection h with h1 h2; subst h1 h2
        exact ⟨_, _, .utf16be _, rfl, rfl⟩
      · cases h
  · cases h
  · split at h
    · rename_i hc; obtain ⟨rfl, rfl, rfl, rfl⟩ := hc
      injection h with h1 h2; subst h1 h2
      exact ⟨_, _, .utf32le _, rfl, rfl⟩
    · split at h
      · rename_i hc; obtain ⟨rfl, rfl, rfl, rfl⟩ := hc
        injection h with h1 h2; subst h1 h2
        exact ⟨_, _, .utf32be _, rfl, rfl⟩
      · cases h
  · cases h
  · split at h
    · rename_i hc; obtain ⟨rfl, rfl, rfl⟩ := hc
      injection h with h1 h2; subst h1 h2
      exact ⟨_, _, .utf8, rfl, rfl⟩
    · cases h
  · split at h <;> cases h
  · split at h <;> cases h
  · cases h

theorem sniff_unmarked {enc : BomEncoding} {b : Bytes} (h : Unmarked enc b) : enc.sniff b = .absent ∨ enc.sniff b = .more := by
  cases hs : enc.sniff b with
  | absent => exact Or.inl rfl
  | more => exact Or.inr rfl
  | found k n =>
    obtain ⟨m, rest, h1, h2, -⟩ := sniff_found hs
    exact absurd ⟨rest, h2.symm⟩ (h m k h1)

/-! ## The incremental decoder -/

theorem step_some (enc : BomEncoding) (k : CharCodec) (b : Bytes) : enc.step (some k) b = (k.feed b).map fun o => (some k, o) := rfl

theorem step_prefix {enc : BomEncoding} {m : Bytes} {k : CharCodec} (h : Announces enc m k) {p q : Bytes} (e : m = p ++ q) (hq : q ≠ []) :
    enc.step none p = .ok (none, [], p) := by
  simp [BomEncoding.step, sniff_prefix h e hq]

theorem step_mark {enc : BomEncoding} {m : Bytes} {k : CharCodec} (h : Announces enc m k) : enc.step none m = .ok (some k, [], []) := by
  have := sniff_mark h []
  rw [List.append_nil] at this
  simp [BomEncoding.step, this, feed_nil, Except.map]

theorem bomFeed_some (enc : BomEncoding) (k : CharCodec) (buf input : Bytes) : bomFeed enc (some k) buf input = feedBytes k buf input := by
  induction input generalizing buf with
  | nil => rfl
  | cons b bs ih =>
    simp only [bomFeed, feedBytes, step_some]
    cases k.feed (buf ++ [b]) with
    | error e => rfl
    | ok o =>
      obtain ⟨out, buf'⟩ := o
      simp only [Except.map, ih]
      cases feedBytes k buf' bs <;> rfl

theorem bomFeed_mark {enc : BomEncoding} {m : Bytes} {k : CharCodec} (h : Announces enc m k) (body : Bytes) :
    ∀ (q p : Bytes), m = p ++ q → q ≠ [] → bomFeed enc none p (q ++ body) = feedBytes k [] body := by
  intro q
  induction q with
  | nil => intro p _ hq; exact absurd rfl hq
  | cons x q ih =>
    intro p e _
    rw [List.cons_append, bomFeed]
    by_cases hq : q = []
    · subst hq
      rw [← e, step_mark h]
      simp only [List.nil_append, bomFeed_some]
      cases feedBytes k [] body with
      | error _ => rfl
      | ok o => rfl
    · rw [step_prefix h (p := p ++ [x]) (q := q) (by simpa using e) hq]
      simp only [ih (p ++ [x]) (by simpa using e) hq]
      cases feedBytes k [] body with
      | error _ => rfl
      | ok o => rfl

/-! ## The loop of `StringZ` -/

theorem bomLoop_stop {name : String} {enc : BomEncoding} {max : Option Int} {fuel nRead : Nat} {st : Option CharCodec} {buf : Bytes}
    {acc : List Nat} {s : Stream} (h : zStop max nRead = true) :
    bomLoop name enc max fuel nRead st buf acc s = (.error (enc.atEnd name st buf), s) := by
  unfold zStop at h
  rw [bomLoop.eq_def]
  cases max with
  | none => simp at h
  | some m => simp only at h; simp only [h, if_true]

theorem bomLoop_eof {name : String} {enc : BomEncoding} {max : Option Int} {fuel nRead : Nat} {st : Option CharCodec} {buf : Bytes}
    {acc : List Nat} {s : Stream} (h : s.rest = []) :
    bomLoop name enc max fuel nRead st buf acc s = (.error (enc.atEnd name st buf), s) := by
  cases hs : zStop max nRead with
  | true => exact bomLoop_stop hs
  | false =>
    unfold zStop at hs
    rw [bomLoop.eq_def]
    cases max with
    | none => simp only [Stream.read_one_nil h, Bool.false_eq_true, if_false]
    | some m => simp only at hs; simp only [hs, Stream.read_one_nil h, Bool.false_eq_true, if_false]

theorem bomLoop_step {name : String} {enc : BomEncoding} {max : Option Int} {fuel nRead : Nat} {st : Option CharCodec} {buf : Bytes}
    {acc : List Nat} {s : Stream} {x : UInt8} {r : Bytes} (hs : zStop max nRead = false) (h : s.rest = x :: r) :
    bomLoop name enc max fuel nRead st buf acc s =
      match enc.step st (buf ++ [x]) with
      | .error e => (.error e, ⟨s.data, s.pos + 1⟩)
      | .ok (st', out, buf') =>
        if out = [0] then (.ok acc, ⟨s.data, s.pos + 1⟩)
        else
          match fuel with
          | 0 => (.error .outOfFuel, ⟨s.data, s.pos + 1⟩)
          | fuel + 1 => bomLoop name enc max fuel (nRead + 1) st' buf' (acc ++ out) ⟨s.data, s.pos + 1⟩ := by
  unfold zStop at hs
  rw [bomLoop.eq_def]
  cases max with
  | none => simp only [Stream.read_one h, Bool.false_eq_true, if_false]; rfl
  | some m => simp only at hs; simp only [hs, Stream.read_one h, Bool.false_eq_true, if_false]; rfl

theorem atEnd_some (enc : BomEncoding) (name : String) (k : CharCodec) (buf : Bytes) :
    .error (enc.atEnd name (some k) buf) = zEnd name buf := by
  unfold BomEncoding.atEnd zEnd
  split
  · rfl
  · cases enc <;> rfl

/-- Once the mark has been read, the decoder is that of the codec it announced. -/
theorem bomLoop_some {name : String} {enc : BomEncoding} {max : Option Int} {k : CharCodec} :
    ∀ (fuel nRead : Nat) (buf : Bytes) (acc : List Nat) (s : Stream),
      bomLoop name enc max fuel nRead (some k) buf acc s = stringzLoop name k max fuel nRead buf acc s := by
  intro fuel
  induction fuel with
  | zero =>
    intro nRead buf acc s
    cases hs : zStop max nRead with
    | true => rw [bomLoop_stop hs, stringzLoop_stop hs, atEnd_some]
    | false =>
      cases hr : s.rest with
      | nil => rw [bomLoop_eof hr, stringzLoop_eof hr, atEnd_some]
      | cons x r =>
        rw [bomLoop_step hs hr, stringzLoop_step hs hr, step_some]
        cases k.feed (buf ++ [x]) with
        | error e => rfl
        | ok o => obtain ⟨out, buf'⟩ := o; rfl
  | succ fuel ih =>
    intro nRead buf acc s
    cases hs : zStop max nRead with
    | true => rw [bomLoop_stop hs, stringzLoop_stop hs, atEnd_some]
    | false =>
      cases hr : s.rest with
      | nil => rw [bomLoop_eof hr, stringzLoop_eof hr, atEnd_some]
      | cons x r =>
        rw [bomLoop_step hs hr, stringzLoop_step hs hr, step_some]
        cases k.feed (buf ++ [x]) with
        | error e => rfl
        | ok o => obtain ⟨out, buf'⟩ := o; simp only [Except.map, ih]

/-- Reading the mark. -/
theorem bomLoop_mark {enc : BomEncoding} {m : Bytes} {k : CharCodec} (h : Announces enc m k) {name : String} {max : Option Int} {acc : List Nat} :
    ∀ (q p : Bytes) (fuel nRead : Nat) (s : Stream) (r : Bytes), m = p ++ q → q ≠ [] → s.rest = q ++ r → q.length ≤ fuel →
      (∀ j, max = some j → (nRead + q.length : Int) ≤ j) →
      bomLoop name enc max fuel nRead none p acc s =
        stringzLoop name k max (fuel - q.length) (nRead + q.length) [] acc ⟨s.data, s.pos + q.length⟩ := by
  intro q
  induction q with
  | nil => intro p _ _ _ _ _ hq; exact absurd rfl hq
  | cons x q ih =>
    intro p fuel nRead s r e _ hr hf hm
    have hs : zStop max nRead = false := zStop_false.2 fun j hj => by have := hm j hj; simp at this; omega
    rw [bomLoop_step hs (r := q ++ r) (by simpa using hr)]
    cases fuel with
    | zero => simp at hf
    | succ fuel =>
      by_cases hq : q = []
      · subst hq
        rw [← e, step_mark h]
        simp [bomLoop_some]
      · rw [step_prefix h (p := p ++ [x]) (q := q) (by simpa using e) hq]
        have hr' := Stream.rest_succ (r := q ++ r) (by simpa using hr)
        have := ih (p ++ [x]) fuel (nRead + 1) ⟨s.data, s.pos + 1⟩ r (by simpa using e) hq hr' (by simpa using hf)
          (by intro j hj; have := hm j hj; simp at this ⊢; omega)
        simp only [List.append_nil]
        rw [if_neg (by simp), this]
        simp [Nat.add_comm, Nat.add_left_comm]

/-- A whole marked and terminated string. -/
theorem bomLoop_reads {enc : BomEncoding} {m : Bytes} {k : CharCodec} (h : Announces enc m k) {name : String} {max : Option Int} {body : Bytes}
    {t : List Nat} {s : Stream} {rest : Bytes} (h0 : 0 ∉ t) (hc : k.encode (t ++ [0]) = .ok body) (hr : s.rest = m ++ body ++ rest)
    (hm : ∀ j, max = some j → ((m ++ body).length : Int) ≤ j) :
    bomLoop name enc max s.rest.length 0 none [] [] s = (.ok t, ⟨s.data, s.pos + (m ++ body).length⟩) := by
  rw [bomLoop_mark h m [] _ _ _ (body ++ rest) rfl (mark_ne h) (by simpa using hr) (by simp [hr])
    (by intro j hj; have := hm j hj; simp at this ⊢; omega)]
  have hne : body ≠ [] := by
    rintro rfl
    obtain ⟨a, c, -, h3, h4⟩ := encode_append_ok hc
    obtain ⟨term, h5, h6, -⟩ := encode_terminated h.supported (t := []) (code := []) rfl
    rw [h3] at h5; simp at h5 h4; exact h6 (h5 ▸ h4.2)
  have hr2 : (⟨s.data, s.pos + m.length⟩ : Stream).rest = body ++ rest := by
    have : s.rest.drop m.length = body ++ rest := by rw [hr]; simp
    rw [← this]; simp [Stream.rest, List.drop_drop]
  rw [stringzLoop_reads h.lawful body _ _ [] [] _ t rest (Or.inl rfl) h0 (by simpa using hc) hr2 (by rw [hr]; simp) hne
    (by intro j hj; have := hm j hj; simp at this ⊢; omega)]
  simp [Nat.add_assoc]

/-- UTF-16 and UTF-32 decoders give no text before a mark. -/
theorem step_unmarked {enc : BomEncoding} (henc : enc ≠ .utf8sig) {b : Bytes} (hu : Unmarked enc b) :
    (∃ e, enc.step none b = .error e) ∨ enc.step none b = .ok (none, [], b) := by
  have hk := supported_lawful (base_supported enc)
  rcases sniff_unmarked hu with hs | hs
  · have hfeed : enc.step none b = match enc.base.feed b with
        | .error e => .error e
        | .ok (out, rest) => if rest.length < b.length then .error .unicodeErr else .ok (none, out, rest) := by
      simp only [BomEncoding.step, hs]
      cases enc with
      | utf8sig => exact absurd rfl henc
      | utf16 n => rfl
      | utf32 n => rfl
    rw [hfeed]
    cases hf : enc.base.feed b with
    | error e => exact Or.inl ⟨e, rfl⟩
    | ok o =>
      obtain ⟨out, rest⟩ := o
      obtain ⟨code, h1, h2⟩ := feed_sound hk b.length b (Nat.le_refl _) _ _ hf
      simp only
      split
      · exact Or.inl ⟨_, rfl⟩
      · rename_i hlt
        right
        have hc : code = [] := by
          apply List.length_eq_zero_iff.1
          have := congrArg List.length h2; rw [List.length_append] at this; omega
        subst hc
        cases out with
        | nil => simp at h2; simp [h2]
        | cons c cs =>
          simp only [CharCodec.encode] at h1
          cases hz : enc.base.enc c with
          | none => simp [hz] at h1
          | some z =>
            cases hcs : enc.base.encode cs with
            | error e => simp [hz, hcs] at h1
            | ok more => simp [hz, hcs] at h1; exact absurd h1.1 (hk.enc_ne hz)
  · right
    simp [BomEncoding.step, hs]

theorem Spec.Unmarked.prefix {enc : BomEncoding} {a b : Bytes} (h : Unmarked enc b) (hp : a <+: b) : Unmarked enc a :=
  fun m k hm hma => h m k hm (hma.trans hp)

/-- So text without a mark is refused by a `StringZ` in UTF-16 or UTF-32. -/
theorem bomLoop_unmarked {enc : BomEncoding} (henc : enc ≠ .utf8sig) {name : String} {max : Option Int} :
    ∀ (fuel nRead : Nat) (buf : Bytes) (acc : List Nat) (s : Stream), Unmarked enc (buf ++ s.rest) →
      ∃ e, (bomLoop name enc max fuel nRead none buf acc s).1 = .error e := by
  intro fuel
  induction fuel with
  | zero =>
    intro nRead buf acc s hu
    cases hs : zStop max nRead with
    | true => rw [bomLoop_stop hs]; exact ⟨_, rfl⟩
    | false =>
      cases hr : s.rest with
      | nil => rw [bomLoop_eof hr]; exact ⟨_, rfl⟩
      | cons x r =>
        rw [bomLoop_step hs hr]
        rcases step_unmarked henc (b := buf ++ [x]) (hu.prefix ⟨r, by simp [hr]⟩) with ⟨e, h⟩ | h
        · rw [h]; exact ⟨_, rfl⟩
        · rw [h]; exact ⟨_, rfl⟩
  | succ fuel ih =>
    intro nRead buf acc s hu
    cases hs : zStop max nRead with
    | true => rw [bomLoop_stop hs]; exact ⟨_, rfl⟩
    | false =>
      cases hr : s.rest with
      | nil => rw [bomLoop_eof hr]; exact ⟨_, rfl⟩
      | cons x r =>
        rw [bomLoop_step hs hr]
        rcases step_unmarked henc (b := buf ++ [x]) (hu.prefix ⟨r, by simp [hr]⟩) with ⟨e, h⟩ | h
        · rw [h]; exact ⟨_, rfl⟩
        · rw [h]
          exact ih _ _ _ _ (by rw [Stream.rest_succ hr]; simpa [hr] using hu)

/-- The `utf-8-sig` decoder on text without a mark: that of UTF-8, except that it may hold back the beginning of a mark. -/
theorem step_utf8 {b : Bytes} (hu : ¬ BomEncoding.mark .utf8sig <+: b) :
    BomEncoding.utf8sig.step none b = (utf8Codec.feed b).map (fun o => (some utf8Codec, o)) ∨
      (BomEncoding.utf8sig.step none b = .ok (none, [], b) ∧ utf8Codec.feed b = .ok ([], b)) := by
  match b with
  | [] => right; exact ⟨rfl, feed_nil _⟩
  | [x] =>
    by_cases hx : x = 0xEF
    · subst hx; right; exact ⟨rfl, rfl⟩
    · left; simp [BomEncoding.step, BomEncoding.sniff, hx]
  | [x, y] =>
    by_cases hx : x = 0xEF ∧ y = 0xBB
    · obtain ⟨rfl, rfl⟩ := hx; right; exact ⟨rfl, rfl⟩
    · left; simp [BomEncoding.step, BomEncoding.sniff, hx]
  | x :: y :: z :: r =>
    by_cases hx : x = 0xEF ∧ y = 0xBB ∧ z = 0xBF
    · obtain ⟨rfl, rfl, rfl⟩ := hx
      exact absurd ⟨r, rfl⟩ hu
    · left; simp [BomEncoding.step, BomEncoding.sniff, hx]

/-- So a `StringZ` in `utf-8-sig` loads text without a mark as one in UTF-8 does. -/
theorem bomLoop_utf8 {name : String} {max : Option Int} {t : List Nat} {s' : Stream} :
    ∀ (fuel nRead : Nat) (buf : Bytes) (acc : List Nat) (s : Stream), ¬ BomEncoding.mark .utf8sig <+: buf ++ s.rest →
      stringzLoop name utf8Codec max fuel nRead buf acc s = (.ok t, s') →
      bomLoop name .utf8sig max fuel nRead none buf acc s = (.ok t, s') := by
  intro fuel
  induction fuel with
  | zero =>
    intro nRead buf acc s hu h
    cases hs : zStop max nRead with
    | true => rw [stringzLoop_stop hs] at h; unfold zEnd at h; split at h <;> simp at h
    | false =>
      cases hr : s.rest with
      | nil => rw [stringzLoop_eof hr] at h; unfold zEnd at h; split at h <;> simp at h
      | cons x r =>
        rw [stringzLoop_step hs hr] at h
        rw [bomLoop_step hs hr]
        have hp : ¬ BomEncoding.mark .utf8sig <+: buf ++ [x] := fun hp => hu (hp.trans ⟨r, by simp [hr]⟩)
        rcases step_utf8 hp with h1 | ⟨h1, h2⟩
        · rw [h1]
          cases hf : utf8Codec.feed (buf ++ [x]) with
          | error e => rw [hf] at h; simp at h
          | ok o => obtain ⟨out, buf'⟩ := o; rw [hf] at h; exact h
        · rw [h2] at h; simp at h
  | succ fuel ih =>
    intro nRead buf acc s hu h
    cases hs : zStop max nRead with
    | true => rw [stringzLoop_stop hs] at h; unfold zEnd at h; split at h <;> simp at h
    | false =>
      cases hr : s.rest with
      | nil => rw [stringzLoop_eof hr] at h; unfold zEnd at h; split at h <;> simp at h
      | cons x r =>
        rw [stringzLoop_step hs hr] at h
        rw [bomLoop_step hs hr]
        have hp : ¬ BomEncoding.mark .utf8sig <+: buf ++ [x] := fun hp => hu (hp.trans ⟨r, by simp [hr]⟩)
        rcases step_utf8 hp with h1 | ⟨h1, h2⟩
        · rw [h1]
          cases hf : utf8Codec.feed (buf ++ [x]) with
          | error e => rw [hf] at h; simp at h
          | ok o => obtain ⟨out, buf'⟩ := o; rw [hf] at h; simp only [Except.map, bomLoop_some]; exact h
        · rw [h2] at h
          rw [h1]
          simp only [List.append_nil] at h ⊢
          rw [if_neg (by simp)] at h ⊢
          exact ih _ _ _ _ (by rw [Stream.rest_succ hr]; simpa [hr] using hu) h

end Verif
