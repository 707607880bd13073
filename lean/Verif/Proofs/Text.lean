import Verif.Proofs.Codec
import Verif.Proofs.Container

/-! Helper lemmas about text: decoding what was encoded, all at once or byte by byte. -/

namespace Verif
open Spec

theorem Spec.Lawful.pos {k : CharCodec} (hk : Lawful k) {b : Bytes} {c n : Nat} (h : k.dec b = .char c n) :
    0 < n ∧ n ≤ b.length := by
  obtain ⟨h1, h2⟩ := hk.dec_canon h
  have h3 := hk.enc_ne h2
  refine ⟨?_, h1⟩
  cases n with
  | zero => simp at h3
  | succ n => omega

theorem decodeSome_fuel {k : CharCodec} (hk : Lawful k) :
    ∀ (m n : Nat) (b : Bytes), b.length ≤ m → b.length ≤ n → k.decodeSome m b = k.decodeSome n b := by
  intro m
  induction m with
  | zero =>
    intro n b hm hn
    have : b = [] := List.length_eq_zero_iff.1 (by omega)
    subst this
    cases n <;> simp [CharCodec.decodeSome]
  | succ m ih =>
    intro n b hm hn
    cases b with
    | nil => cases n <;> simp [CharCodec.decodeSome]
    | cons x r =>
      cases n with
      | zero => simp at hn
      | succ n =>
        simp only [CharCodec.decodeSome]
        cases hd : k.dec (x :: r) with
        | more => rfl
        | bad => rfl
        | char c l =>
          have hl := hk.pos hd
          have : ((x :: r).drop l).length ≤ r.length := by simp; omega
          simp only [List.length_cons] at hm hn
          simp only [ih n ((x :: r).drop l) (by omega) (by omega)]

theorem feed_nil (k : CharCodec) : k.feed [] = .ok ([], []) := by simp [CharCodec.feed, CharCodec.decodeSome]

theorem feed_step {k : CharCodec} (hk : Lawful k) {b : Bytes} (hb : b ≠ []) :
    k.feed b = match k.dec b with
      | .bad => .error .unicodeErr
      | .more => .ok ([], b)
      | .char c n => (k.feed (b.drop n)).map fun r => (c :: r.1, r.2) := by
  cases b with
  | nil => exact absurd rfl hb
  | cons x r =>
    unfold CharCodec.feed
    simp only [List.length_cons, CharCodec.decodeSome]
    cases hd : k.dec (x :: r) with
    | more => rfl
    | bad => rfl
    | char c l =>
      have hl := hk.pos hd
      have : ((x :: r).drop l).length ≤ r.length := by simp; omega
      simp only [decodeSome_fuel hk r.length ((x :: r).drop l).length ((x :: r).drop l) this (Nat.le_refl _)]
      cases k.decodeSome ((x :: r).drop l).length ((x :: r).drop l) <;> rfl

/-- Encoded characters come back, whatever follows. -/
theorem feed_append {k : CharCodec} (hk : Lawful k) {s : List Nat} {b : Bytes} (h : k.encode s = .ok b) (rest : Bytes) :
    k.feed (b ++ rest) = (k.feed rest).map fun r => (s ++ r.1, r.2) := by
  induction s generalizing b with
  | nil =>
    simp [CharCodec.encode] at h
    subst h
    cases hr : k.feed rest <;> simp [hr, Except.map]
  | cons c cs ih =>
    simp only [CharCodec.encode] at h
    cases hc : k.enc c with
    | none => simp [hc] at h
    | some b0 =>
      cases hcs : k.encode cs with
      | error e => simp [hc, hcs] at h
      | ok bs =>
        simp [hc, hcs] at h
        subst h
        have hne : b0 ++ bs ++ rest ≠ [] := by simp [hk.enc_ne hc]
        rw [feed_step hk hne, List.append_assoc, hk.dec_enc hc]
        simp only [List.drop_left, ih hcs]
        cases k.feed rest <;> simp [Except.map]

theorem decode_encode {k : CharCodec} (hk : Lawful k) {s : List Nat} {b : Bytes} (h : k.encode s = .ok b) :
    k.decode b = .ok s := by
  have := feed_append hk h []
  simp only [List.append_nil, feed_nil, Except.map] at this
  simp [CharCodec.decode, this]

theorem feed_sound {k : CharCodec} (hk : Lawful k) : ∀ (n : Nat) (b : Bytes), b.length ≤ n → ∀ s r, k.feed b = .ok (s, r) →
    ∃ b0, k.encode s = .ok b0 ∧ b = b0 ++ r := by
  intro n
  induction n with
  | zero =>
    intro b hn s r h
    have : b = [] := List.length_eq_zero_iff.1 (by omega)
    subst this
    simp [feed_nil] at h
    obtain ⟨rfl, rfl⟩ := h
    exact ⟨[], rfl, by simp⟩
  | succ n ih =>
    intro b hn s r h
    by_cases hb : b = []
    · subst hb
      simp [feed_nil] at h
      obtain ⟨rfl, rfl⟩ := h
      exact ⟨[], rfl, by simp⟩
    · rw [feed_step hk hb] at h
      cases hd : k.dec b with
      | more =>
        simp [hd] at h
        obtain ⟨rfl, rfl⟩ := h
        exact ⟨[], rfl, by simp⟩
      | bad => simp [hd] at h
      | char c l =>
        have hl := hk.pos hd
        have hcan := hk.dec_canon hd
        simp only [hd] at h
        obtain ⟨⟨s', r'⟩, h1, h2⟩ := Except.map_ok h
        simp only [Prod.mk.injEq] at h2
        obtain ⟨h5, h6⟩ := h2
        subst h5 h6
        obtain ⟨b0, h3, h4⟩ := ih (b.drop l) (by simp; omega) s' r h1
        refine ⟨b.take l ++ b0, ?_, ?_⟩
        · simp [CharCodec.encode, hcan.2, h3]
        · rw [List.append_assoc, ← h4, List.take_append_drop]

theorem decode_sound {k : CharCodec} (hk : Lawful k) {b : Bytes} {s : List Nat} (h : k.decode b = .ok s) :
    k.encode s = .ok b := by
  unfold CharCodec.decode at h
  cases hf : k.feed b with
  | error e => simp [hf] at h
  | ok r =>
    obtain ⟨cs, r⟩ := r
    cases r with
    | cons x r => simp [hf] at h
    | nil =>
      simp [hf] at h
      subst h
      obtain ⟨b0, h1, h2⟩ := feed_sound hk b.length b (Nat.le_refl _) cs [] hf
      simp at h2
      rw [h2, h1]

theorem encode_append {k : CharCodec} {s t : List Nat} :
    k.encode (s ++ t) = (k.encode s).bind fun a => (k.encode t).map fun b => a ++ b := by
  induction s with
  | nil => simp only [List.nil_append, CharCodec.encode, Except.bind]; cases k.encode t <;> simp [Except.map]
  | cons c cs ih =>
    simp only [List.cons_append, CharCodec.encode, ih]
    cases k.enc c with
    | none => rfl
    | some b0 =>
      cases k.encode cs with
      | error e => rfl
      | ok a =>
        cases k.encode t <;> simp [Except.bind, Except.map]

theorem encode_append_ok {k : CharCodec} {s t : List Nat} {bs : Bytes} (h : k.encode (s ++ t) = .ok bs) :
    ∃ a b, k.encode s = .ok a ∧ k.encode t = .ok b ∧ bs = a ++ b := by
  rw [encode_append] at h
  cases hs : k.encode s with
  | error e => simp [hs, Except.bind] at h
  | ok a =>
    cases ht : k.encode t with
    | error e => simp [hs, ht, Except.bind, Except.map] at h
    | ok b => simp [hs, ht, Except.bind, Except.map] at h; exact ⟨a, b, rfl, rfl, h.symm⟩

/-- What an incremental decoder may be waiting with: nothing, or the beginning of a character. -/
def Pending (k : CharCodec) (buf : Bytes) : Prop := buf = [] ∨ k.dec buf = .more

/-- One more byte completes at most one character. -/
theorem feed_byte {k : CharCodec} (hk : Lawful k) {buf : Bytes} (hb : Pending k buf) {x : UInt8} {out : List Nat} {buf' : Bytes}
    (h : k.feed (buf ++ [x]) = .ok (out, buf')) :
    (out = [] ∧ buf' = buf ++ [x] ∧ k.dec (buf ++ [x]) = .more) ∨
    (∃ c, out = [c] ∧ buf' = [] ∧ k.enc c = some (buf ++ [x])) := by
  rw [feed_step hk (by simp)] at h
  cases hd : k.dec (buf ++ [x]) with
  | more => simp [hd] at h; exact Or.inl ⟨h.1.symm ▸ rfl, h.2.symm, rfl⟩
  | bad => simp [hd] at h
  | char c l =>
    have hl := hk.pos hd
    have hcan := hk.dec_canon hd
    have hll : l = buf.length + 1 := by
      by_cases hlt : l ≤ buf.length
      · exfalso
        rcases hb with rfl | hb
        · simp at hlt; omega
        · have h1 : k.enc c = some (buf.take l) := by rw [hcan.2, List.take_append_of_le_length hlt]
          have h2 := hk.dec_enc h1 (buf.drop l)
          rw [List.take_append_drop, hb] at h2
          simp at h2
      · simp at hl; omega
    have hdrop : (buf ++ [x]).drop l = [] := by apply List.drop_eq_nil_of_le; simp [hll]
    have htake : (buf ++ [x]).take l = buf ++ [x] := by apply List.take_of_length_le; simp [hll]
    simp only [hd, hdrop, feed_nil, Except.map] at h
    simp at h
    exact Or.inr ⟨c, h.1.symm, h.2, by rw [hcan.2, htake]⟩

theorem feed_more {k : CharCodec} (hk : Lawful k) {buf : Bytes} (hb : Pending k buf) : k.feed buf = .ok ([], buf) := by
  rcases hb with rfl | hb
  · exact feed_nil k
  · by_cases h : buf = []
    · subst h; exact feed_nil k
    · rw [feed_step hk h, hb]

theorem feed_char {k : CharCodec} (hk : Lawful k) {c : Nat} {b : Bytes} (h : k.enc c = some b) : k.feed b = .ok ([c], []) := by
  have := feed_append hk (s := [c]) (b := b) (by simp [CharCodec.encode, h]) []
  simpa [feed_nil, Except.map] using this

/-- Feeding the rest of a character, byte by byte. -/
theorem feedBytes_char {k : CharCodec} (hk : Lawful k) {c : Nat} {b : Bytes} (h : k.enc c = some b) :
    ∀ (q p : Bytes), b = p ++ q → q ≠ [] → ∀ rest, feedBytes k p (q ++ rest) =
      (feedBytes k [] rest).map fun r => (c :: r.1, r.2) := by
  intro q
  induction q with
  | nil => intro p _ h; exact absurd rfl h
  | cons x q ih =>
    intro p hpq _ rest
    by_cases hq : q = []
    · subst hq
      simp only [List.cons_append, List.nil_append, feedBytes]
      rw [← hpq, feed_char hk h]
      cases hr : feedBytes k [] rest with
      | error e => simp [Except.map, hr]
      | ok r => simp [Except.map, hr]
    · have hm : k.dec (p ++ [x]) = .more := hk.dec_prefix h (p ++ [x]) q (by simp [hpq]) (by simp) hq
      simp only [List.cons_append, feedBytes, feed_more hk (Or.inr hm)]
      rw [ih (p ++ [x]) (by simp [hpq]) hq rest]
      cases hr : feedBytes k [] rest with
      | error e => simp [Except.map]
      | ok r => simp [Except.map]

theorem feedBytes_encode {k : CharCodec} (hk : Lawful k) {s : List Nat} {b : Bytes} (h : k.encode s = .ok b) :
    feedBytes k [] b = .ok (s, []) := by
  induction s generalizing b with
  | nil => simp [CharCodec.encode] at h; subst h; rfl
  | cons c cs ih =>
    simp only [CharCodec.encode] at h
    cases hc : k.enc c with
    | none => simp [hc] at h
    | some b0 =>
      cases hcs : k.encode cs with
      | error e => simp [hc, hcs] at h
      | ok bs =>
        simp [hc, hcs] at h
        subst h
        rw [feedBytes_char hk hc b0 [] rfl (hk.enc_ne hc), ih hcs]
        rfl

/-! ### `StringZ` -/

theorem Stream.read_nat (s : Stream) (n : Nat) :
    s.read n = (s.rest.take n, ⟨s.data, s.pos + min n s.rest.length⟩) := by
  unfold Stream.read Stream.rest
  simp only
  rw [if_neg (by omega)]
  simp

/-- `_read_exact_size` for a size that is not negative. -/
theorem readExactSize_nat (name : String) (n : Nat) (s : Stream) :
    readExactSize name (.ok n) s =
      if s.rest.length < n then (.error (.eof (some name) n s.pos), ⟨s.data, s.pos + s.rest.length⟩)
      else (.ok (s.rest.take n), ⟨s.data, s.pos + n⟩) := by
  unfold readExactSize
  simp only [Stream.read_nat, Stream.tell]
  by_cases h : s.rest.length < n
  · rw [if_pos h, if_pos (by simp; omega)]
    simp only [Prod.mk.injEq, true_and, Stream.mk.injEq]; omega
  · rw [if_neg h, if_neg (by simp; omega)]
    simp only [Prod.mk.injEq, true_and, Stream.mk.injEq]; omega

theorem readExactSize_here (name : String) (pre data rest : Bytes) :
    readExactSize name (.ok (data.length : Int)) ⟨pre ++ data ++ rest, pre.length⟩ =
      (.ok data, ⟨pre ++ data ++ rest, pre.length + data.length⟩) := by
  have hr : (⟨pre ++ data ++ rest, pre.length⟩ : Stream).rest = data ++ rest := by simp [Stream.rest, List.append_assoc]
  rw [readExactSize_nat, hr, if_neg (by simp)]
  simp

theorem Stream.read_one {s : Stream} {x : UInt8} {r : Bytes} (h : s.rest = x :: r) :
    s.read 1 = ([x], ⟨s.data, s.pos + 1⟩) := by
  unfold Stream.rest at h
  simp [Stream.read, h]

theorem Stream.read_one_nil {s : Stream} (h : s.rest = []) : s.read 1 = ([], s) := by
  unfold Stream.rest at h
  simp [Stream.read, h]

theorem Stream.rest_succ {s : Stream} {x : UInt8} {r : Bytes} (h : s.rest = x :: r) :
    (⟨s.data, s.pos + 1⟩ : Stream).rest = r := by
  unfold Stream.rest at h ⊢
  rw [← List.drop_drop, h]
  rfl

/-- What `StringZ` raises when the input ends. -/
def zEnd (name : String) (buf : Bytes) : Except Err (List Nat) :=
  if buf = [] then .error (.deser (some name)) else .error .unicodeErr

/-- `max` bytes have been read. -/
def zStop (max : Option Int) (nRead : Nat) : Bool :=
  match max with
  | some m => decide ((nRead : Int) ≥ m)
  | none => false

theorem zEnd_cases (name : String) (buf : Bytes) : zEnd name buf = .error (.deser (some name)) ∨ zEnd name buf = .error .unicodeErr := by
  unfold zEnd; split
  · exact Or.inl rfl
  · exact Or.inr rfl

theorem zStop_false {max : Option Int} {nRead : Nat} : zStop max nRead = false ↔ ∀ m, max = some m → (nRead + 1 : Int) ≤ m := by
  cases max with
  | none => simp [zStop]
  | some m => simp [zStop]; omega

theorem stringzLoop_stop {name : String} {k : CharCodec} {max : Option Int} {fuel nRead : Nat} {buf : Bytes} {acc : List Nat}
    {s : Stream} (h : zStop max nRead = true) : stringzLoop name k max fuel nRead buf acc s = (zEnd name buf, s) := by
  unfold zStop at h
  rw [stringzLoop.eq_def]
  cases max with
  | none => simp at h
  | some m => simp only at h; simp only [h, if_true]; rfl

theorem stringzLoop_eof {name : String} {k : CharCodec} {max : Option Int} {fuel nRead : Nat} {buf : Bytes} {acc : List Nat}
    {s : Stream} (h : s.rest = []) : stringzLoop name k max fuel nRead buf acc s = (zEnd name buf, s) := by
  cases hs : zStop max nRead with
  | true => exact stringzLoop_stop hs
  | false =>
    unfold zStop at hs
    rw [stringzLoop.eq_def]
    cases max with
    | none => simp only [Stream.read_one_nil h, zEnd, Bool.false_eq_true, if_false]
    | some m => simp only at hs; simp only [hs, Stream.read_one_nil h, zEnd, Bool.false_eq_true, if_false]

theorem stringzLoop_step {name : String} {k : CharCodec} {max : Option Int} {fuel nRead : Nat} {buf : Bytes} {acc : List Nat}
    {s : Stream} {x : UInt8} {r : Bytes} (hs : zStop max nRead = false) (h : s.rest = x :: r) :
    stringzLoop name k max fuel nRead buf acc s =
      match k.feed (buf ++ [x]) with
      | .error e => (.error e, ⟨s.data, s.pos + 1⟩)
      | .ok (out, buf') =>
        if out = [0] then (.ok acc, ⟨s.data, s.pos + 1⟩)
        else
          match fuel with
          | 0 => (.error .outOfFuel, ⟨s.data, s.pos + 1⟩)
          | fuel + 1 => stringzLoop name k max fuel (nRead + 1) buf' (acc ++ out) ⟨s.data, s.pos + 1⟩ := by
  unfold zStop at hs
  rw [stringzLoop.eq_def]
  cases max with
  | none => simp only [Stream.read_one h, Bool.false_eq_true, if_false]; rfl
  | some m => simp only at hs; simp only [hs, Stream.read_one h, Bool.false_eq_true, if_false]; rfl

/-- What a successful `StringZ` load read: the encoded text, then the terminator. -/
theorem stringzLoop_ok {k : CharCodec} (hk : Lawful k) {name : String} {max : Option Int} :
    ∀ (fuel nRead : Nat) (buf : Bytes) (acc : List Nat) (s s' : Stream) (txt : List Nat), Pending k buf →
      stringzLoop name k max fuel nRead buf acc s = (.ok txt, s') →
      ∃ (t : List Nat) (used rest : Bytes), txt = acc ++ t ∧ 0 ∉ t ∧ k.encode (t ++ [0]) = .ok (buf ++ used) ∧
        s.rest = used ++ rest ∧ s' = ⟨s.data, s.pos + used.length⟩ ∧ ∀ m, max = some m → (nRead + used.length : Int) ≤ m := by
  intro fuel
  induction fuel with
  | zero =>
    intro nRead buf acc s s' txt hb h
    cases hs : zStop max nRead with
    | true => rw [stringzLoop_stop hs] at h; rcases zEnd_cases name buf with h1 | h1 <;> simp [h1] at h
    | false =>
      cases hr : s.rest with
      | nil => rw [stringzLoop_eof hr] at h; rcases zEnd_cases name buf with h1 | h1 <;> simp [h1] at h
      | cons x r =>
        rw [stringzLoop_step hs hr] at h
        cases hf : k.feed (buf ++ [x]) with
        | error e => simp [hf] at h
        | ok o =>
          obtain ⟨out, buf'⟩ := o
          simp only [hf] at h
          by_cases ho : out = [0]
          · simp [ho] at h
            obtain ⟨rfl, rfl⟩ := h
            rcases feed_byte hk hb hf with ⟨h1, -, -⟩ | ⟨c, h1, h2, h3⟩
            · rw [ho] at h1; simp at h1
            · rw [ho] at h1; simp at h1; subst h1
              exact ⟨[], [x], r, by simp, by simp, by simp [CharCodec.encode, h3], by simp, by simp, zStop_false.1 hs⟩
          · simp [ho] at h
  | succ fuel ih =>
    intro nRead buf acc s s' txt hb h
    cases hs : zStop max nRead with
    | true => rw [stringzLoop_stop hs] at h; rcases zEnd_cases name buf with h1 | h1 <;> simp [h1] at h
    | false =>
      cases hr : s.rest with
      | nil => rw [stringzLoop_eof hr] at h; rcases zEnd_cases name buf with h1 | h1 <;> simp [h1] at h
      | cons x r =>
        rw [stringzLoop_step hs hr] at h
        cases hf : k.feed (buf ++ [x]) with
        | error e => simp [hf] at h
        | ok o =>
          obtain ⟨out, buf'⟩ := o
          simp only [hf] at h
          by_cases ho : out = [0]
          · simp [ho] at h
            obtain ⟨rfl, rfl⟩ := h
            rcases feed_byte hk hb hf with ⟨h1, -, -⟩ | ⟨c, h1, h2, h3⟩
            · rw [ho] at h1; simp at h1
            · rw [ho] at h1; simp at h1; subst h1
              exact ⟨[], [x], r, by simp, by simp, by simp [CharCodec.encode, h3], by simp, by simp, zStop_false.1 hs⟩
          · rw [if_neg ho] at h
            have hrest := Stream.rest_succ hr
            have hb' : Pending k buf' := by
              rcases feed_byte hk hb hf with ⟨-, h2, h3⟩ | ⟨c, -, h2, -⟩
              · right; rw [h2]; exact h3
              · left; exact h2
            obtain ⟨t, used, rest, h1, h2, h3, h4, h5, h6⟩ := ih _ _ _ _ _ _ hb' h
            rw [hrest] at h4
            refine ⟨out ++ t, x :: used, rest, ?_, ?_, ?_, ?_, ?_, ?_⟩
            · rw [h1, List.append_assoc]
            · rcases feed_byte hk hb hf with ⟨h7, -, -⟩ | ⟨c, h7, -, -⟩
              · simpa [h7] using h2
              · subst h7
                simp at ho
                simp only [List.mem_append, List.mem_singleton, not_or]
                exact ⟨fun h => ho h.symm, h2⟩
            · rcases feed_byte hk hb hf with ⟨h7, h8, -⟩ | ⟨c, h7, h8, h9⟩
              · subst h7 h8
                simpa using h3
              · subst h7 h8
                simp only [List.cons_append, List.nil_append, CharCodec.encode, h9]
                simp only [List.nil_append] at h3
                simp [h3]
            · simp [h4]
            · rw [h5]; simp; omega
            · intro m hm
              have := h6 m hm
              simp at this ⊢; omega

/-- Reading up to the terminator, from the middle of a character on. -/
theorem stringzLoop_reads {k : CharCodec} (hk : Lawful k) {name : String} {max : Option Int} :
    ∀ (used : Bytes) (fuel nRead : Nat) (buf : Bytes) (acc : List Nat) (s : Stream) (t : List Nat) (rest : Bytes),
      Pending k buf → 0 ∉ t → k.encode (t ++ [0]) = .ok (buf ++ used) → s.rest = used ++ rest → used.length ≤ fuel →
      used ≠ [] → (∀ m, max = some m → (nRead + used.length : Int) ≤ m) →
      stringzLoop name k max fuel nRead buf acc s = (.ok (acc ++ t), ⟨s.data, s.pos + used.length⟩) := by
  intro used
  induction used with
  | nil => intro _ _ _ _ _ _ _ _ _ _ _ _ h; exact absurd rfl h
  | cons x used ih =>
    intro fuel nRead buf acc s t rest hb h0 henc hrest hfuel _ hmax
    cases fuel with
    | zero => simp at hfuel
    | succ fuel =>
    have hs : zStop max nRead = false :=
      zStop_false.2 fun m hm => by have := hmax m hm; simp at this; omega
    rw [stringzLoop_step hs (r := used ++ rest) (by simpa using hrest)]
    have hrest' := Stream.rest_succ (r := used ++ rest) (by simpa using hrest)
    -- the first character of the text and its code
    have key : ∃ c cs code more, t ++ [0] = c :: cs ∧ k.enc c = some code ∧ k.encode cs = .ok more ∧ code ++ more = buf ++ x :: used := by
      cases t with
      | nil =>
        simp only [List.nil_append, CharCodec.encode] at henc
        cases hz : k.enc 0 with
        | none => simp [hz] at henc
        | some z => simp [hz] at henc; exact ⟨0, [], z, [], rfl, hz, rfl, by simpa using henc⟩
      | cons c cs =>
        simp only [List.cons_append, CharCodec.encode] at henc
        cases hz : k.enc c with
        | none => simp [hz] at henc
        | some z =>
          cases hcs : k.encode (cs ++ [0]) with
          | error e => simp [hz, hcs] at henc
          | ok more => simp [hz, hcs] at henc; exact ⟨c, cs ++ [0], z, more, rfl, hz, hcs, henc⟩
    obtain ⟨c, cs, code, more, h1, h2, h3, h4⟩ := key
    -- `buf` is a proper prefix of the code
    have hpre : ∃ q, code = buf ++ q ∧ q ≠ [] := by
      rcases Nat.lt_or_ge buf.length code.length with hlt | hge
      · have : buf <+: code := by
          refine List.prefix_of_prefix_length_le (l₃ := code ++ more) (by rw [h4]; exact List.prefix_append _ _)
            (List.prefix_append _ _) (by omega)
        obtain ⟨q, hq⟩ := this
        refine ⟨q, hq.symm, ?_⟩
        rintro rfl
        simp at hq
        subst hq
        omega
      · exfalso
        have : code <+: buf := by
          refine List.prefix_of_prefix_length_le (l₃ := code ++ more) (List.prefix_append _ _)
            (by rw [h4]; exact List.prefix_append _ _) (by omega)
        obtain ⟨q, hq⟩ := this
        have h5 := hk.dec_enc h2 q
        rw [hq] at h5
        rcases hb with rfl | hb
        · have := hk.enc_ne h2
          simp at hq; exact this hq.1
        · rw [hb] at h5; simp at h5
    obtain ⟨q, hq, hqne⟩ := hpre
    rw [hq, List.append_assoc, List.append_cancel_left_eq] at h4
    cases q with
    | nil => exact absurd rfl hqne
    | cons y q =>
    simp at h4
    obtain ⟨rfl, rfl⟩ := h4
    by_cases hq2 : q = []
    · -- the character is complete
      subst hq2
      rw [hq] at h2
      rw [feed_char hk h2]
      simp only
      cases t with
      | nil =>
        simp at h1
        obtain ⟨rfl, rfl⟩ := h1
        simp [CharCodec.encode] at h3
        subst h3
        simp
      | cons c' t' =>
        simp at h1
        obtain ⟨rfl, rfl⟩ := h1
        have hc : c' ≠ 0 := fun h => h0 (by simp [h])
        rw [if_neg (by simp [hc])]
        have hmore : more ≠ [] := by
          rintro rfl
          obtain ⟨a, b, -, h6, h7⟩ := encode_append_ok h3
          simp only [CharCodec.encode] at h6
          cases hz : k.enc 0 with
          | none => simp [hz] at h6
          | some z => have := hk.enc_ne hz; simp [hz] at h6; simp at h7; exact this (h6 ▸ h7.2)
        have := ih fuel (nRead + 1) [] (acc ++ [c']) ⟨s.data, s.pos + 1⟩ t' rest (Or.inl rfl)
          (fun h => h0 (by simp [h])) (by simpa using h3) (by simpa using hrest') (by simp at hfuel ⊢; omega) (by simpa using hmore)
          (by intro m hm; have := hmax m hm; simp at this ⊢; omega)
        simp only [List.nil_append] at this ⊢
        rw [this]
        simp; omega
    · have hm : k.dec (buf ++ [y]) = .more := hk.dec_prefix h2 (buf ++ [y]) q (by simp [hq]) (by simp) hq2
      rw [feed_more hk (Or.inr hm)]
      simp only
      rw [if_neg (by simp)]
      have := ih fuel (nRead + 1) (buf ++ [y]) acc ⟨s.data, s.pos + 1⟩ t rest (Or.inr hm) h0
        (by rw [henc]; simp) (by simpa using hrest') (by simp at hfuel ⊢; omega) (by simp [hq2])
        (by intro m hm; have := hmax m hm; simp at this ⊢; omega)
      simp only [List.append_nil] at this ⊢
      rw [this]
      simp; omega

/-- Whatever happens, a `StringZ` load takes at most `max` bytes, stays inside the data, and ends. -/
theorem stringzLoop_bound {k : CharCodec} {name : String} {max : Option Int} :
    ∀ (fuel nRead : Nat) (buf : Bytes) (acc : List Nat) (s : Stream), s.rest.length ≤ fuel →
      ∃ used rest, s.rest = used ++ rest ∧
        (stringzLoop name k max fuel nRead buf acc s).2 = ⟨s.data, s.pos + used.length⟩ ∧
        (∀ m, max = some m → (nRead + used.length : Int) ≤ m ∨ used = []) ∧
        ((∀ c, k.feed c ≠ .error .outOfFuel) → (stringzLoop name k max fuel nRead buf acc s).1 ≠ .error .outOfFuel) := by
  intro fuel
  induction fuel with
  | zero =>
    intro nRead buf acc s hs
    have hr : s.rest = [] := List.length_eq_zero_iff.1 (by omega)
    rw [stringzLoop_eof hr]
    exact ⟨[], [], by simp [hr], by simp, by simp, fun _ => by rcases zEnd_cases name buf with h | h <;> simp [h]⟩
  | succ fuel ih =>
    intro nRead buf acc s hle
    cases hs : zStop max nRead with
    | true =>
      rw [stringzLoop_stop hs]
      exact ⟨[], s.rest, by simp, by simp, by simp, fun _ => by rcases zEnd_cases name buf with h | h <;> simp [h]⟩
    | false =>
      cases hr : s.rest with
      | nil =>
        rw [stringzLoop_eof hr]
        exact ⟨[], [], by simp, by simp, by simp, fun _ => by rcases zEnd_cases name buf with h | h <;> simp [h]⟩
      | cons x r =>
        rw [stringzLoop_step hs hr]
        have hbound : ∀ m, max = some m → (nRead + [x].length : Int) ≤ m := zStop_false.1 hs
        cases hf : k.feed (buf ++ [x]) with
        | error e =>
          refine ⟨[x], r, by simp, by simp, fun m hm => Or.inl (hbound m hm), ?_⟩
          intro h; simp only; intro h2; simp at h2; exact h _ (hf.trans (by rw [h2]))
        | ok o =>
          obtain ⟨out, buf'⟩ := o
          simp only
          by_cases ho : out = [0]
          · rw [if_pos ho]
            exact ⟨[x], r, by simp, by simp, fun m hm => Or.inl (hbound m hm), by simp⟩
          · rw [if_neg ho]
            have hrest := Stream.rest_succ hr
            obtain ⟨used, rest, h1, h2, h3, h4⟩ := ih (nRead + 1) buf' (acc ++ out) ⟨s.data, s.pos + 1⟩ (by
              rw [hrest]; rw [hr] at hle; simp at hle; omega)
            rw [hrest] at h1
            refine ⟨x :: used, rest, by simp [h1], ?_, ?_, h4⟩
            · rw [h2]; simp; omega
            · intro m hm
              left
              rcases h3 m hm with h5 | h5
              · simp at h5 ⊢; omega
              · subst h5
                simpa using hbound m hm

theorem feed_ne_outOfFuel {k : CharCodec} (c : Bytes) : k.feed c ≠ .error .outOfFuel := by
  have : ∀ n b, k.decodeSome n b ≠ .error .outOfFuel := by
    intro n
    induction n with
    | zero => intro b; cases b <;> simp [CharCodec.decodeSome]
    | succ n ih =>
      intro b
      cases b with
      | nil => simp [CharCodec.decodeSome]
      | cons x r =>
        simp only [CharCodec.decodeSome]
        cases k.dec (x :: r) with
        | more => simp
        | bad => simp
        | char c l =>
          simp only
          cases h : k.decodeSome n ((x :: r).drop l) with
          | error e => simp only; intro h2; simp at h2; exact ih _ (h.trans (by rw [h2]))
          | ok o => simp
  exact this _ _

end Verif
