import Verif.Spec.Work
import Verif.Proofs.Source
import Verif.Proofs.Locality
import Verif.Proofs.Memory

/-!
# How often a load calls the stream: helper lemmas
-/

namespace Verif
open Spec

/-- `w` calls for `c` bytes: at most `X` if no byte was taken, and otherwise at most `K` per byte and `X` more, less `D`. -/
def Owes (K X D c w : Nat) : Prop := (c = 0 → w ≤ X) ∧ (0 < c → w + D ≤ K * c + X)

/-- At most two calls for each byte and `a` more. -/
def Lin (a c w : Nat) : Prop := w ≤ 2 * c + a

/-- Whatever the outcome, the stream goes forwards, and the number of calls is as `P` says. -/
def Costs {α : Type} (P : Nat → Nat → Prop) (m : Stream × Nat → Except Err α × (Stream × Nat)) : Prop :=
  ∀ t, t.1.pos ≤ t.1.data.length → (m t).2.1.data = t.1.data ∧ t.1.pos ≤ (m t).2.1.pos ∧ (m t).2.1.pos ≤ t.1.data.length ∧
    ∃ w, (m t).2.2 = t.2 + w ∧ P ((m t).2.1.pos - t.1.pos) w

theorem counting_lawful : counting.Lawful (fun _ => False) false where
  tell _ := .inl ⟨rfl, rfl⟩
  seek _ _ := .inl ⟨rfl, rfl⟩
  skip _ _ := .inl ⟨rfl, rfl⟩
  read _ _ := .inl (.inl ⟨rfl, rfl⟩)
  custom _ _ := .inl ⟨rfl, rfl⟩

theorem Costs.imp {α : Type} {P Q : Nat → Nat → Prop} {m : Stream × Nat → Except Err α × (Stream × Nat)} (h : Costs P m)
    (hpq : ∀ c w, P c w → Q c w) : Costs Q m := fun t ht => by
  obtain ⟨h1, h2, h3, w, h4, h5⟩ := h t ht
  exact ⟨h1, h2, h3, w, h4, hpq _ _ h5⟩

theorem costs_pure {α : Type} {P : Nat → Nat → Prop} (h : P 0 0) (r : Except Err α) : Costs P (pureResult r) := fun t ht =>
  ⟨rfl, Nat.le_refl _, ht, 0, rfl, by simpa [pureResult] using h⟩

theorem lin_pure {α : Type} {a : Nat} (r : Except Err α) : Costs (Lin a) (pureResult r) := costs_pure (by simp [Lin]) r

theorem owes_pure {α : Type} {K X D : Nat} (r : Except Err α) : Costs (Owes K X D) (pureResult r) := costs_pure ⟨fun _ => by omega, fun h => by omega⟩ r

/-- One thing after the other. -/
theorem Costs.andNext {α β : Type} {P Q R : Nat → Nat → Prop} {m : Stream × Nat → Except Err α × (Stream × Nat)}
    {f : α → Stream × Nat → Except Err β × (Stream × Nat)} (hm : Costs P m) (hf : ∀ a, Costs Q (f a)) (hp : ∀ c w, P c w → R c w)
    (hpq : ∀ c w c' w', P c w → Q c' w' → R (c + c') (w + w')) : Costs R (andNext m f) := by
  intro t ht
  unfold Verif.andNext
  obtain ⟨h1, h2, h3, w, h4, h5⟩ := hm t ht
  rcases hmt : m t with ⟨e | a, t1⟩ <;> rw [hmt] at h1 h2 h3 h4 h5 <;> simp only at h1 h2 h3 h4 h5 ⊢
  · exact ⟨h1, h2, h3, w, h4, hp _ _ h5⟩
  · obtain ⟨k1, k2, k3, w', k4, k5⟩ := hf a t1 (by rw [h1]; exact h3)
    refine ⟨k1.trans h1, by omega, by rw [h1] at k3; exact k3, w + w', by omega, ?_⟩
    have := hpq _ _ _ _ h5 k5
    rwa [show t1.1.pos - t.1.pos + ((f a t1).2.1.pos - t1.1.pos) = (f a t1).2.1.pos - t.1.pos by omega] at this

theorem Costs.thenCalc {α β : Type} {P : Nat → Nat → Prop} {m : Stream × Nat → Except Err α × (Stream × Nat)} (hm : Costs P m)
    (g : α → Except Err β) : Costs P (thenCalc m g) :=
  hm.andNext (Q := fun c w => c = 0 ∧ w = 0) (fun _ => costs_pure ⟨rfl, rfl⟩ _) (fun _ _ h => h) (fun c w c' w' h h' => by
    obtain ⟨rfl, rfl⟩ := h'; exact h)

theorem Costs.lin {α β : Type} {a b : Nat} {m : Stream × Nat → Except Err α × (Stream × Nat)}
    {f : α → Stream × Nat → Except Err β × (Stream × Nat)} (hm : Costs (Lin a) m) (hf : ∀ x, Costs (Lin b) (f x)) :
    Costs (Lin (a + b)) (Verif.andNext m f) :=
  hm.andNext hf (fun c w h => by simp only [Lin] at *; omega) (fun c w c' w' h h' => by simp only [Lin] at *; omega)

theorem lin_tell : Costs (Lin 1) counting.tell := fun t ht =>
  ⟨rfl, Nat.le_refl _, ht, 1, rfl, by simp [Lin]⟩

theorem lin_read (n : Int) : Costs (Lin 1) (counting.read n) := fun t ht => by
  obtain ⟨h1, h2, h3⟩ := read_forward t.1 n ht
  exact ⟨h1, h2, h3, 1, rfl, by simp [Lin]⟩

theorem lin_custom {load : Stream → R Value} (hl : Forward load) : Costs (Lin 1) (counting.custom load) := fun t ht => by
  obtain ⟨h1, h2, h3⟩ := hl t.1 ht
  exact ⟨h1, h2, h3, 1, rfl, by simp [Lin]⟩

theorem lin_readInt (n : Int) (sg : Bool) (en : Endian) : Costs (Lin 2) (counting.readInt n sg en) :=
  lin_tell.lin (b := 1) fun _ => (lin_read n).lin (b := 0) fun _ => lin_pure _

theorem lin_readExactSize (name : String) (ex : Except Err Int) : Costs (Lin 2) (counting.readExactSize name ex) := by
  refine lin_tell.lin (b := 1) fun _ => ?_
  cases ex with
  | error e => exact lin_pure _
  | ok n => exact (lin_read n).lin (b := 0) fun _ => lin_pure _

theorem lin_loadUuid (name : String) (fmt : UUIDFormat) : Costs (Lin 2) (counting.loadUuid name fmt) := by
  refine (lin_read _).lin (b := 1) fun data => ?_
  split
  · exact lin_tell.lin (b := 0) fun _ => lin_pure _
  · exact lin_pure _

/-- A byte is read with two calls, or there is none. -/
theorem readUInt8_calls (t : Stream × Nat) (ht : t.1.pos ≤ t.1.data.length) :
    (∃ e, counting.readUInt8 t = (.error e, (t.1, t.2 + 2))) ∨
    ∃ v, counting.readUInt8 t = (.ok v, (⟨t.1.data, t.1.pos + 1⟩, t.2 + 2)) ∧ t.1.pos + 1 ≤ t.1.data.length := by
  simp only [Source.readUInt8, thenCalc, Source.readInt, andNext, counting, pureResult, Stream.read]
  cases hd : t.1.data.drop t.1.pos with
  | nil =>
    left
    refine ⟨.eof none 1 t.1.tell, ?_⟩
    simp
  | cons b r =>
    right
    have hl : t.1.pos + 1 ≤ t.1.data.length := by
      have := congrArg List.length hd
      simp at this
      omega
    refine ⟨(intOfBytes [b] .little false).toNat, ?_, hl⟩
    simp

/-- A loop that reads a byte each time round. -/
theorem lin_byteLoop {β : Type} {f : Nat → Stream × Nat → Except Err β × (Stream × Nat)} (hf : ∀ a, Costs (Lin 2) (f a)) :
    Costs (Lin 2) (andNext counting.readUInt8 f) := by
  intro t ht
  rcases readUInt8_calls t ht with ⟨e, h⟩ | ⟨v, h, hl⟩ <;> simp only [andNext, h]
  · exact ⟨by simp, by simp, by simpa using ht, 2, rfl, by simp [Lin]⟩
  · obtain ⟨h1, h2, h3, w, h4, h5⟩ := hf v (⟨t.1.data, t.1.pos + 1⟩, t.2 + 2) (by simpa using hl)
    simp only at h1 h2 h3 h4 h5
    refine ⟨h1, by omega, h3, w + 2, by omega, ?_⟩
    simp only [Lin] at *
    omega

theorem lin_compact (fuel : Nat) : ∀ sg v, Costs (Lin 2) (counting.decodeCompactLoop fuel sg v) := by
  induction fuel with
  | zero => intro sg v; exact lin_pure _
  | succ fuel ih =>
    intro sg v
    refine lin_byteLoop fun b => ?_
    cases sg <;> simp only <;> split <;> first | exact lin_pure _ | exact ih _ _

theorem lin_vlq (fuel : Nat) : ∀ v, Costs (Lin 2) (counting.decodeVlqLoop fuel v) := by
  induction fuel with
  | zero => intro v; exact lin_pure _
  | succ fuel ih =>
    intro v
    refine lin_byteLoop fun b => ?_
    simp only
    split <;> first | exact lin_pure _ | exact ih _

theorem lin_uleb128 (fuel : Nat) : ∀ v bits, Costs (Lin 2) (counting.decodeUleb128Loop fuel v bits) := by
  induction fuel with
  | zero => intro v bits; exact lin_pure _
  | succ fuel ih =>
    intro v bits
    refine lin_byteLoop fun b => ?_
    simp only
    split <;> first | exact lin_pure _ | exact ih _ _

theorem lin_leb128 (fuel : Nat) : Costs (Lin 4) (counting.decodeLeb128 fuel) := by
  refine lin_tell.lin (b := 3) fun off => (lin_uleb128 fuel 0 0).lin (b := 1) fun v => ?_
  split
  · exact lin_pure _
  · refine lin_tell.lin (b := 0) fun here => ?_
    simp only
    split <;> exact lin_pure _

theorem Costs.up {α : Type} {a b : Nat} (hab : a ≤ b) {m : Stream × Nat → Except Err α × (Stream × Nat)} (h : Costs (Lin a) m) :
    Costs (Lin b) m := h.imp fun c w h => by simp only [Lin] at *; omega

theorem lin_varInt (enc : VarIntEncoding) : Costs (Lin 4) (counting.decodeVarInt enc) := by
  intro t
  unfold Source.decodeVarInt
  cases enc with
  | compact => exact (lin_compact _ _ _).up (by decide) t
  | leb128 => exact lin_leb128 _ t
  | uleb128 => exact ((lin_uleb128 _ 0 0).thenCalc _).up (by decide) t
  | vlq => exact (lin_vlq _ _).up (by decide) t

theorem lin_stringz (name : String) (codec : CharCodec) (mb : Option Int) (fuel : Nat) :
    ∀ nr buf acc, Costs (Lin 2) (counting.stringzLoop name codec mb fuel nr buf acc) := by
  have key : ∀ (buf : Bytes) (F : UInt8 → Stream × Nat → Except Err (List Nat) × (Stream × Nat)), (∀ b, Costs (Lin 2) (F b)) →
      Costs (Lin 2) (andNext (counting.read 1) fun data => match data with
        | [] => pureResult (if buf = [] then .error (.deser (some name)) else .error .unicodeErr)
        | b :: _ => F b) := by
    intro buf F hF t ht
    obtain ⟨h1, h2, h3⟩ := read_forward t.1 1 ht
    have hp : (t.1.read 1).2.pos = t.1.pos + (t.1.read 1).1.length := by simp [Stream.read]
    simp only [andNext, counting]
    cases hd : (t.1.read 1).1 with
    | nil => exact ⟨h1, h2, h3, 1, rfl, by simp [Lin]⟩
    | cons b r =>
      rw [hd] at hp
      obtain ⟨k1, k2, k3, w, k4, k5⟩ := hF b ((t.1.read 1).2, t.2 + 1) (by simp only; rw [h1]; exact h3)
      simp only at k1 k2 k3 k4 k5 ⊢
      refine ⟨k1.trans h1, by omega, by rw [h1] at k3; exact k3, w + 1, by omega, ?_⟩
      simp only [Lin, List.length_cons] at *
      omega
  induction fuel with
  | zero =>
    intro nr buf acc
    rw [Source.stringzLoop.eq_def]
    simp only
    have hgo := key buf (fun b => match codec.feed (buf ++ [b]) with
        | .error e => pureResult (.error e)
        | .ok (out, _) => if out = [0] then pureResult (.ok acc) else pureResult (.error .outOfFuel)) (fun b => by
      cases codec.feed (buf ++ [b]) with
      | error e => exact lin_pure _
      | ok p => simp only; split <;> exact lin_pure _)
    cases mb with
    | none => simp only [Bool.false_eq_true, if_false]; exact hgo
    | some m =>
      simp only [decide_eq_true_eq]
      by_cases hm : (nr : Int) ≥ m
      · simp only [hm, if_true]; exact lin_pure _
      · simp only [hm, if_false]; exact hgo
  | succ fuel ih =>
    intro nr buf acc
    rw [Source.stringzLoop.eq_def]
    simp only
    have hgo := key buf (fun b => match codec.feed (buf ++ [b]) with
        | .error e => pureResult (.error e)
        | .ok (out, buf') => if out = [0] then pureResult (.ok acc) else counting.stringzLoop name codec mb fuel (nr + 1) buf' (acc ++ out)) (fun b => by
      cases codec.feed (buf ++ [b]) with
      | error e => exact lin_pure _
      | ok p =>
        simp only
        split
        · exact lin_pure _
        · exact ih _ _ _)
    cases mb with
    | none => simp only [Bool.false_eq_true, if_false]; exact hgo
    | some m =>
      simp only [decide_eq_true_eq]
      by_cases hm : (nr : Int) ≥ m
      · simp only [hm, if_true]; exact lin_pure _
      · simp only [hm, if_false]; exact hgo

theorem lin_leaf {b : FieldBase} {l : Leaf} (hf : LoadsForward (.leaf b l)) (ex : Except Err Int) (ctx : Value) (loaded : Dict) :
    Costs (Lin 4) (counting.leafLoad b l ex ctx loaded) := by
  cases l with
  | float fmt en => exact ((lin_readExactSize _ _).thenCalc _).up (by decide)
  | integer sg en =>
    intro t
    unfold Source.leafLoad
    cases hs : b.size with
    | fixed n => exact ((lin_readInt n sg en).thenCalc _).up (by decide) t
    | none => exact lin_pure _ t
    | ref r => exact lin_pure _ t
  | varint enc m => exact (lin_varInt enc).thenCalc _
  | timestamp res tz sg en =>
    intro t
    unfold Source.leafLoad
    simp only
    cases ex with
    | error e => exact lin_pure (.error e) t
    | ok n => exact ((lin_readInt n sg en).thenCalc _).up (by decide) t
  | bytes => exact ((lin_readExactSize _ _).thenCalc _).up (by decide)
  | string c p => exact ((lin_readExactSize _ _).thenCalc _).up (by decide)
  | stringz c p =>
    intro t
    unfold Source.leafLoad
    simp only
    cases ex with
    | ok n => exact ((lin_stringz _ _ _ _ _ _ _).thenCalc _).up (by decide) t
    | error e =>
      cases e <;> first | exact ((lin_stringz _ _ _ _ _ _ _).thenCalc _).up (by decide) t | exact lin_pure (.error _) t
  | uuid fmt => exact (lin_loadUuid b.name fmt).up (by decide)
  | custom ops =>
    cases hf with
    | leaf h => exact (lin_custom (h ops rfl ctx loaded)).up (by decide)

/-! ### `Field.from_stream`, arrays, structs -/

theorem Owes.weaken {K X X' D D' c w : Nat} (h : Owes K X D c w) (hX : X ≤ X') (hD : D' ≤ D) : Owes K X' D' c w :=
  ⟨fun hc => Nat.le_trans (h.1 hc) hX, fun hc => by have := h.2 hc; omega⟩

theorem Owes.add {K X X' D c w c' w' : Nat} (h : Owes K X D c w) (h' : Owes K X' D c' w') : Owes K (X + X') D (c + c') (w + w') := by
  refine ⟨fun hc => ?_, fun hc => ?_⟩
  · have h1 := h.1 (by omega); have h2 := h'.1 (by omega); omega
  · rw [Nat.mul_add]
    by_cases h0 : c = 0
    · have h1 := h.1 h0; have h2 := h'.2 (by omega); omega
    · by_cases h0' : c' = 0
      · have h1 := h.2 (by omega); have h2 := h'.1 h0'; omega
      · have h1 := h.2 (by omega); have h2 := h'.2 (by omega); omega

/-- Calls that take no byte. -/
theorem owes_const {K D a : Nat} {α : Type} {m : Stream × Nat → Except Err α × (Stream × Nat)} (h : Costs (fun c w => c = 0 ∧ w ≤ a) m) :
    Costs (Owes K a D) m := h.imp fun c w ⟨hc, hw⟩ => ⟨fun _ => hw, fun h => by omega⟩

theorem Costs.weaken {α : Type} {K X X' D D' : Nat} {m : Stream × Nat → Except Err α × (Stream × Nat)} (h : Costs (Owes K X D) m)
    (hX : X ≤ X') (hD : D' ≤ D) : Costs (Owes K X' D') m := h.imp fun _ _ h => h.weaken hX hD

theorem Costs.add {α β : Type} {K X X' D : Nat} {m : Stream × Nat → Except Err α × (Stream × Nat)}
    {f : α → Stream × Nat → Except Err β × (Stream × Nat)} (hm : Costs (Owes K X D) m) (hf : ∀ a, Costs (Owes K X' D) (f a)) :
    Costs (Owes K (X + X') D) (Verif.andNext m f) :=
  hm.andNext hf (fun _ _ h => h.weaken (Nat.le_add_right _ _) (Nat.le_refl _)) (fun _ _ _ _ h h' => h.add h')

theorem peek_calls (n : Int) (t : Stream × Nat) : (counting.peekBytes n t) = (.ok (t.1.read n).1, (t.1, t.2 + 3)) := by
  have h0 : ¬ ((t.1.tell : Int) < 0) := by omega
  simp only [Source.peekBytes, andNext, tryFinally, counting, seekInt, h0, if_false]
  simp [Stream.read, Stream.seek, Stream.tell]

theorem costs_fromSource {K X D : Nat} {b : FieldBase} {eq : Value → Value → Except Err Bool} {nr : Except Err Bytes}
    {load : Stream × Nat → Except Err Value × (Stream × Nat)} (hK : 4 + D ≤ K) (hl : Costs (Owes K X D) load) (ctx : Value) (loaded : Dict) :
    Costs (Owes K (X + 4) D) (counting.fromSourceWith b eq nr load ctx loaded) := by
  have hfin : Costs (Owes K X D) (Source.loadAndFinish b eq load) := by
    intro t ht
    obtain ⟨h1, h2, h3, w, h4, h5⟩ := hl t ht
    unfold Source.loadAndFinish
    rcases hmt : load t with ⟨_ | v, t1⟩ <;> rw [hmt] at h1 h2 h3 h4 h5 <;> exact ⟨h1, h2, h3, w, h4, h5⟩
  have hfin' := hfin.weaken (X' := X + 4) (by omega) (Nat.le_refl D)
  intro t ht
  unfold Source.fromSourceWith
  split
  · exact owes_pure (.error _) t ht
  · exact owes_pure (.ok _) t ht
  · split
    · cases nr with
      | error e =>
        simp only
        split
        · split
          · exact owes_pure (.error _) t ht
          · exact hfin' t ht
        · exact owes_pure (.error _) t ht
      | ok repr =>
        simp only [andNext, peek_calls]
        split
        · rename_i hpeek
          have hfw := read_forward t.1 repr.length ht
          have hp : (t.1.read repr.length).2.pos = t.1.pos + (t.1.read repr.length).1.length := by simp [Stream.read]
          rw [hpeek] at hp
          rw [hp] at hfw
          simp only [andNext, counting, pureResult, Stream.seek]
          refine ⟨trivial, by simp, by simpa using hfw.2.2, 4, rfl, fun _ => by omega, fun hc => ?_⟩
          have : K * 1 ≤ K * (t.1.pos + repr.length - t.1.pos) := Nat.mul_le_mul_left _ hc
          omega
        · obtain ⟨h1, h2, h3, w, h4, h5⟩ := hfin (t.1, t.2 + 3) ht
          refine ⟨h1, h2, h3, w + 3, by simp only at h4; omega, ?_⟩
          have : Owes K 3 D 0 3 := ⟨fun _ => Nat.le_refl _, fun h => by omega⟩
          have := (h5.add this).weaken (X' := X + 4) (by omega) (Nat.le_refl D)
          simpa using this
    · exact hfin' t ht

theorem costs_haltCheck {name : String} {count : Count} {halt} (ctx : Value) (loaded : Dict) (vs : List Value) :
    Costs (fun c w => c = 0 ∧ w ≤ 3) (counting.haltCheck name count halt ctx loaded vs) := by
  cases halt with
  | some g => intro t; exact costs_pure (P := fun c w => c = 0 ∧ w ≤ 3) ⟨rfl, by decide⟩ (g t.1 vs ctx loaded) t
  | none =>
    refine Costs.thenCalc ?_ _
    cases count with
    | none =>
      intro t ht
      have h0 : ¬ ((t.1.tell : Int) < 0) := by omega
      simp only [Source.shouldHalt, andNext, tryFinally, thenCalc, counting, seekInt, h0, if_false, pureResult]
      exact ⟨rfl, by simp [Stream.read, Stream.seek, Stream.tell], by simpa [Stream.read, Stream.seek, Stream.tell] using ht, 3, rfl,
        by simp [Stream.read, Stream.seek, Stream.tell], by decide⟩
    | fixed n => exact costs_pure ⟨rfl, by decide⟩ _
    | ref r => exact costs_pure ⟨rfl, by decide⟩ _

/-- An array whose elements take at least one byte each. -/
theorem costs_arrayLoop_eats {K X D : Nat} (hD : X + 3 ≤ D) {halt : List Value → Stream × Nat → Except Err (Bool × List Value) × (Stream × Nat)}
    {load : Stream × Nat → Except Err Value × (Stream × Nat)} (hh : ∀ vs, Costs (fun c w => c = 0 ∧ w ≤ 3) (halt vs))
    (hl : Costs (Owes K X D) load) (he : ∀ t v t', t.1.pos ≤ t.1.data.length → load t = (.ok v, t') → t.1.pos < t'.1.pos) (fuel : Nat) :
    ∀ acc, Costs (fun c w => (c = 0 → w ≤ X + 3) ∧ (0 < c → w + D ≤ K * c + (X + 3) + (X + 3))) (Source.arrayLoop halt load fuel acc) := by
  -- one time round
  have round : ∀ (F : Value → Stream × Nat → Except Err (List Value) × (Stream × Nat)),
      (∀ v, Costs (fun c w => (c = 0 → w ≤ X + 3) ∧ (0 < c → w + D ≤ K * c + (X + 3) + (X + 3))) (F v)) →
      ∀ t : Stream × Nat, t.1.pos ≤ t.1.data.length → (andNext load F t).2.1.data = t.1.data ∧ t.1.pos ≤ (andNext load F t).2.1.pos ∧
        (andNext load F t).2.1.pos ≤ t.1.data.length ∧ ∃ w, (andNext load F t).2.2 = t.2 + w ∧
          ((andNext load F t).2.1.pos - t.1.pos = 0 → w ≤ X) ∧
          (0 < (andNext load F t).2.1.pos - t.1.pos → w + 3 + D ≤ K * ((andNext load F t).2.1.pos - t.1.pos) + (X + 3) + (X + 3)) := by
    intro F hF t ht
    obtain ⟨h1, h2, h3, w, h4, h5⟩ := hl t ht
    unfold andNext
    rcases hmt : load t with ⟨e | v, t1⟩ <;> rw [hmt] at h1 h2 h3 h4 h5 <;> simp only at h1 h2 h3 h4 h5 ⊢
    · exact ⟨h1, h2, h3, w, h4, h5.1, fun hc => by have := h5.2 hc; omega⟩
    · have hlt := he t v t1 ht hmt
      obtain ⟨k1, k2, k3, w', k4, k5, k6⟩ := hF v t1 (by rw [h1]; exact h3)
      have h6 := h5.2 (by omega)
      refine ⟨k1.trans h1, by omega, by rw [h1] at k3; exact k3, w + w', by omega, fun hc => by omega, fun _ => ?_⟩
      have hm : K * ((F v t1).2.1.pos - t.1.pos) = K * (t1.1.pos - t.1.pos) + K * ((F v t1).2.1.pos - t1.1.pos) := by
        rw [← Nat.mul_add]; congr 1; omega
      by_cases hz : (F v t1).2.1.pos - t1.1.pos = 0
      · have := k5 hz; omega
      · have := k6 (by omega); omega
  have whole : ∀ (acc : List Value) (F : List Value → Value → Stream × Nat → Except Err (List Value) × (Stream × Nat)),
      (∀ l v, Costs (fun c w => (c = 0 → w ≤ X + 3) ∧ (0 < c → w + D ≤ K * c + (X + 3) + (X + 3))) (F l v)) →
      Costs (fun c w => (c = 0 → w ≤ X + 3) ∧ (0 < c → w + D ≤ K * c + (X + 3) + (X + 3)))
        (andNext (halt acc) fun p => if p.1 then pureResult (.ok p.2) else andNext load (F p.2)) := by
    intro acc F hF t ht
    obtain ⟨h1, h2, h3, w, h4, h5, h6⟩ := hh acc t ht
    simp only [andNext.eq_1 (halt acc)]
    rcases hmt : halt acc t with ⟨e | p, t1⟩ <;> rw [hmt] at h1 h2 h3 h4 h5 <;> simp only at h1 h2 h3 h4 h5 ⊢
    · exact ⟨h1, h2, h3, w, h4, fun _ => by omega, fun hc => by omega⟩
    · have hsame : t1.1.pos = t.1.pos := by omega
      split
      · exact ⟨h1, h2, h3, w, h4, fun _ => by omega, fun hc => by simp only [pureResult] at hc; omega⟩
      · obtain ⟨k1, k2, k3, w', k4, k5, k6⟩ := round (F p.2) (hF p.2) t1 (by rw [h1]; exact h3)
        rw [hsame] at k5 k6
        exact ⟨k1.trans h1, by omega, by rw [h1] at k3; exact k3, w + w', by omega, fun hc => by have := k5 hc; omega,
          fun hc => by have := k6 hc; omega⟩
  induction fuel with
  | zero =>
    intro acc
    rw [Source.arrayLoop.eq_def]
    exact whole acc (fun _ _ => pureResult (.error .outOfFuel)) fun _ _ => costs_pure ⟨fun _ => by omega, fun h => by omega⟩ _
  | succ fuel ih =>
    intro acc
    rw [Source.arrayLoop.eq_def]
    exact whole acc (fun l v => Source.arrayLoop halt load fuel (if v = .notPresent then l else l ++ [v])) fun l v => ih _

/-- An array with a fixed number of elements. -/
theorem costs_arrayLoop_fixed {K X D : Nat} {name : String} {n : Int} {ctx : Value} {loaded : Dict}
    {load : Stream × Nat → Except Err Value × (Stream × Nat)}
    (hl : Costs (Owes K X D) load) (he : ∀ t t', load t ≠ (.ok .notPresent, t')) (fuel : Nat) :
    ∀ acc, Costs (Owes K ((n.toNat - acc.length) * X) D) (Source.arrayLoop (counting.haltCheck name (.fixed n) none ctx loaded) load fuel acc) := by
  have halt : ∀ (acc : List Value) t, counting.haltCheck name (.fixed n) none ctx loaded acc t = (.ok (decide (n ≤ acc.length), acc), t) :=
    fun acc t => rfl
  have whole : ∀ (acc : List Value) (F : Value → Stream × Nat → Except Err (List Value) × (Stream × Nat)),
      (∀ v, v ≠ .notPresent → Costs (Owes K ((n.toNat - (acc.length + 1)) * X) D) (F v)) →
      Costs (Owes K ((n.toNat - acc.length) * X) D)
        (andNext (counting.haltCheck name (.fixed n) none ctx loaded acc) fun p => if p.1 then pureResult (.ok p.2) else andNext load F) := by
    intro acc F hF t ht
    simp only [andNext.eq_1 (counting.haltCheck name (.fixed n) none ctx loaded acc), halt]
    split
    · exact owes_pure (.ok acc) t ht
    · rename_i hlt
      simp only [decide_eq_true_eq] at hlt
      have hm : (n.toNat - acc.length) * X = X + (n.toNat - (acc.length + 1)) * X := by
        rw [show n.toNat - acc.length = (n.toNat - (acc.length + 1)) + 1 by omega, Nat.add_mul, Nat.one_mul, Nat.add_comm]
      rw [hm]
      obtain ⟨h1, h2, h3, w, h4, h5⟩ := hl t ht
      unfold andNext
      rcases hmt : load t with ⟨e | v, t1⟩ <;> rw [hmt] at h1 h2 h3 h4 h5 <;> simp only at h1 h2 h3 h4 h5 ⊢
      · exact ⟨h1, h2, h3, w, h4, h5.weaken (by omega) (Nat.le_refl _)⟩
      · obtain ⟨k1, k2, k3, w', k4, k5⟩ := hF v (fun hv => he t t1 (hv ▸ hmt)) t1 (by rw [h1]; exact h3)
        refine ⟨k1.trans h1, by omega, by rw [h1] at k3; exact k3, w + w', by omega, ?_⟩
        have := h5.add k5
        rwa [show t1.1.pos - t.1.pos + ((F v t1).2.1.pos - t1.1.pos) = (F v t1).2.1.pos - t.1.pos by omega] at this
  induction fuel with
  | zero =>
    intro acc
    rw [Source.arrayLoop.eq_def]
    exact whole acc (fun _ => pureResult (.error .outOfFuel)) fun _ _ => owes_pure _
  | succ fuel ih =>
    intro acc
    have := whole acc (fun v => Source.arrayLoop (counting.haltCheck name (.fixed n) none ctx loaded) load fuel
      (if v = .notPresent then acc else acc ++ [v])) fun v hv => by
        rw [if_neg hv]
        have := ih (acc ++ [v])
        rwa [List.length_append, List.length_singleton] at this
    intro t ht
    have key := this t ht
    rw [Source.arrayLoop.eq_def]
    simp only [andNext.eq_1 (counting.haltCheck name (.fixed n) none ctx loaded acc), halt] at key ⊢
    exact key

/-! ### The budget -/

/-- What a level may cost without taking a byte, and what a byte pays for. -/
structure WorkBudget (M L : Nat) (B : Nat → Nat) (S K : Nat) : Prop where
  base : ∀ ℓ, 8 ≤ B ℓ
  mono : ∀ i j, i ≤ j → B i ≤ B j
  step : ∀ ℓ, M * (B ℓ + 4) + 2 * B ℓ + 14 ≤ B (ℓ + 1)
  top : B (L + 1) ≤ S
  byte : K = 2 + (L + 1) * S

theorem workBudget_pow (M L : Nat) : WorkBudget M L (fun ℓ => 8 * (2 * M + 4) ^ ℓ) (8 * (2 * M + 4) ^ (L + 1))
    (2 + (L + 1) * (8 * (2 * M + 4) ^ (L + 1))) := by
  have hpos : ∀ n, 1 ≤ (2 * M + 4) ^ n := fun n => Nat.pow_pos (by omega)
  have hmono : ∀ i j, i ≤ j → (2 * M + 4) ^ i ≤ (2 * M + 4) ^ j := fun i j h => Nat.pow_le_pow_right (by omega) h
  refine ⟨fun ℓ => by have := hpos ℓ; omega, fun i j h => Nat.mul_le_mul_left _ (hmono i j h), fun ℓ => ?_, Nat.le_refl _, rfl⟩
  have h1 := hpos ℓ
  simp only [Nat.pow_succ]
  generalize (2 * M + 4) ^ ℓ = x at *
  have h2 : M * (8 * x + 4) ≤ M * (16 * x) := Nat.mul_le_mul_left _ (by omega)
  have h3 : 8 * (x * (2 * M + 4)) = M * (16 * x) + 32 * x := by
    rw [Nat.mul_add, Nat.mul_add, Nat.mul_left_comm M, Nat.mul_comm x (2 * M), Nat.mul_assoc 2 M x, ← Nat.mul_assoc 8 2]
    omega
  omega

section
variable {M L S K : Nat} {B : Nat → Nat}

theorem WorkBudget.lin (hb : WorkBudget M L B S K) {ℓ : Nat} {α : Type} {m : Stream × Nat → Except Err α × (Stream × Nat)}
    (h : Costs (Lin 4) m) : Costs (Owes K (B ℓ) ((L - ℓ) * S)) m := by
  refine h.imp fun c w hw => ?_
  have := hb.base ℓ
  simp only [Lin] at hw
  refine ⟨fun hc => by omega, fun hc => ?_⟩
  rw [hb.byte, Nat.add_mul, Nat.mul_assoc]
  have h1 : (L - ℓ) * S ≤ (L + 1) * S := Nat.mul_le_mul_right _ (by omega)
  have h2 : (L + 1) * S ≤ (L + 1) * (S * c) := Nat.mul_le_mul_left _ (Nat.le_mul_of_pos_right _ hc)
  omega

theorem WorkBudget.raise (hb : WorkBudget M L B S K) {i j : Nat} (hij : i ≤ j) {α : Type} {m : Stream × Nat → Except Err α × (Stream × Nat)}
    (h : Costs (Owes K (B i) ((L - i) * S)) m) : Costs (Owes K (B j) ((L - j) * S)) m :=
  h.weaken (hb.mono i j hij) (Nat.mul_le_mul_right _ (by omega))

/-- The fields of a struct. -/
theorem costs_loadFields (hb : WorkBudget M L B S K) {ℓ : Nat} (hℓ : ℓ ≤ L) {eats low : Field → Prop}
    {load : Field → Dict → Stream × Nat → Except Err Value × (Stream × Nat)} {all : List Field}
    (he : ∀ f ∈ all, eats f → ∀ t loaded v t', t.1.pos ≤ t.1.data.length → load f loaded t = (.ok v, t') → t.1.pos < t'.1.pos)
    (hlow : ∀ f ∈ all, low f → ∀ loaded, Costs (Owes K (B ℓ + 4) ((L - ℓ) * S)) (load f loaded))
    (hhigh : ∀ f ∈ all, ∀ loaded, Costs (Owes K (B L + 4) 0) (load f loaded))
    (hsplit : ∀ pre f post, all = pre ++ f :: post → low f ∨ ∃ g ∈ pre, eats g) :
    ∀ (post pre : List Field), all = pre ++ post → ∀ acc,
      Costs (Owes K (post.length * (B L + 4)) 0) (Source.loadFields load post acc) ∧
      ((∀ g ∈ pre, ¬ eats g) → Costs (fun c w => (c = 0 → w ≤ post.length * (B ℓ + 4)) ∧
        (0 < c → w + (L - ℓ) * S ≤ K * c + post.length * (B L + 4))) (Source.loadFields load post acc)) := by
  intro post
  induction post with
  | nil => exact fun pre _ acc => ⟨owes_pure _, fun _ => costs_pure ⟨fun _ => Nat.zero_le _, fun h => by omega⟩ _⟩
  | cons f fs ih =>
    intro pre hall acc
    have hf : f ∈ all := by rw [hall]; simp
    have hall' : all = (pre ++ [f]) ++ fs := by rw [hall]; simp
    refine ⟨?_, fun hpre => ?_⟩
    · have := (hhigh f hf acc).add fun v => (ih (pre ++ [f]) hall' (acc.setDefault f.name v)).1
      rw [List.length_cons, Nat.add_mul, Nat.one_mul, Nat.add_comm (fs.length * _)]
      exact this
    · have hlf := hlow f hf ((hsplit pre f fs hall).resolve_right fun ⟨g, hg, hge⟩ => hpre g hg hge) acc
      have hBl : B ℓ ≤ B L := hb.mono ℓ L hℓ
      intro t ht
      obtain ⟨h1, h2, h3, w, h4, h5⟩ := hlf t ht
      have hx : fs.length * (B ℓ + 4) ≤ fs.length * (B L + 4) := Nat.mul_le_mul_left _ (by omega)
      simp only [Source.loadFields, List.length_cons, Nat.add_mul, Nat.one_mul]
      unfold andNext
      rcases hmt : load f acc t with ⟨e | v, t1⟩ <;> rw [hmt] at h1 h2 h3 h4 h5 <;> simp only at h1 h2 h3 h4 h5 ⊢
      · exact ⟨h1, h2, h3, w, h4, fun hc => by have := h5.1 hc; omega, fun hc => by have := h5.2 hc; omega⟩
      · obtain ⟨i1, i2⟩ := ih (pre ++ [f]) hall' (acc.setDefault f.name v)
        generalize Source.loadFields load fs (acc.setDefault f.name v) = F at i1 i2 ⊢
        have hm : ∀ p : Nat, t1.1.pos ≤ p → K * (p - t.1.pos) = K * (t1.1.pos - t.1.pos) + K * (p - t1.1.pos) := by
          intro p hp
          rw [← Nat.mul_add]; congr 1; omega
        by_cases hc1 : t1.1.pos - t.1.pos = 0
        · have hne : ¬ eats f := fun hef => by have := he f hf hef t acc v t1 ht hmt; omega
          obtain ⟨k1, k2, k3, w', k4, k5, k6⟩ := i2 (fun g hg => by
            rw [List.mem_append, List.mem_singleton] at hg
            rcases hg with hg | rfl
            · exact hpre g hg
            · exact hne) t1 (by rw [h1]; exact h3)
          have h6 := h5.1 hc1
          have h7 := hm _ k2
          rw [hc1, Nat.mul_zero, Nat.zero_add] at h7
          refine ⟨k1.trans h1, by omega, by rw [h1] at k3; exact k3, w + w', by omega, fun hc => ?_, fun hc => ?_⟩
          · have := k5 (by omega); omega
          · have := k6 (by omega); omega
        · obtain ⟨k1, k2, k3, w', k4, k5, k6⟩ := i1 t1 (by rw [h1]; exact h3)
          have h6 := h5.2 (by omega)
          have h7 := hm _ k2
          refine ⟨k1.trans h1, by omega, by rw [h1] at k3; exact k3, w + w', by omega, fun hc => by omega, fun _ => ?_⟩
          by_cases hz : (F t1).2.1.pos - t1.1.pos = 0
          · have := k5 hz; omega
          · have := k6 (by omega); omega

end

theorem Spec.Brisk.up {Γ : Classes} {level : String → Nat} {M ℓ : Nat} {f : Field} (h : Brisk Γ level M ℓ f) :
    ∀ {k : Nat}, ℓ ≤ k → Brisk Γ level M k f := by
  induction h with
  | leaf h1 => exact fun _ => .leaf h1
  | eats _ h2 ih =>
    intro k hk
    obtain ⟨k, rfl⟩ : ∃ j, k = j + 1 := ⟨k - 1, by omega⟩
    exact .eats (ih (by omega)) h2
  | fixed _ h2 h3 ih =>
    intro k hk
    obtain ⟨k, rfl⟩ : ∃ j, k = j + 1 := ⟨k - 1, by omega⟩
    exact .fixed (ih (by omega)) h2 h3
  | nested h1 => exact fun hk => .nested (by omega)
  | union _ h2 ih => exact fun hk => .union (fun g hg => ih g hg hk) (fun c hc => Nat.le_trans (h2 c hc) hk)

theorem Spec.BriskClass.fields {Γ : Classes} {level : String → Nat} {M L ℓ : Nat} {d : StructDesc} (hd : BriskClass Γ level M L ℓ d)
    (hℓ : ℓ ≤ L) {f : Field} (hf : f ∈ d.components) : Brisk Γ level M L f := by
  obtain ⟨pre, post, h⟩ := List.append_of_mem hf
  rcases hd.2 pre f post h with h | ⟨-, h⟩
  · exact h.up hℓ
  · exact h

/-- A load from a counting stream does what it does with a `BytesIO`. -/
theorem counting_field (Γ : Classes) (n : Nat) (f : Field) (ctx : Value) (loaded : Dict) (t : Stream × Nat) :
    fieldFromStream Γ n f t.1 ctx loaded =
      ((fieldFromSource counting Γ n f ctx loaded t).1, (fieldFromSource counting Γ n f ctx loaded t).2.1) := by
  have := (source_like counting_lawful (fun _ h => h.elim) Γ (by simp) n).1 f (by simp) ctx loaded t
  rcases this with h | ⟨e, _, h | h⟩
  · exact Prod.ext h.1.symm h.2.symm
  · exact h.elim
  · simp at h

theorem counting_struct (Γ : Classes) (n : Nat) (d : StructDesc) (ctx : Value) (kw : Dict) (t : Stream × Nat) :
    structFromStream Γ n d t.1 ctx kw =
      ((structFromSource counting Γ n d ctx kw t).1, (structFromSource counting Γ n d ctx kw t).2.1) := by
  have := (source_like counting_lawful (fun _ h => h.elim) Γ (by simp) n).2.2 d (by simp) ctx kw t
  rcases this with h | ⟨e, _, h | h⟩
  · exact Prod.ext h.1.symm h.2.symm
  · exact h.elim
  · simp at h

theorem load_costs {Γ : Classes} {level : String → Nat} {M L S K : Nat} {B : Nat → Nat} (hb : WorkBudget M L B S K)
    (hΓ : BriskClasses Γ level M L) (n : Nat) :
    (∀ ℓ f, ℓ ≤ L → Brisk Γ level M ℓ f → ∀ ctx loaded, Costs (Owes K (B ℓ + 4) ((L - ℓ) * S)) (fieldFromSource counting Γ n f ctx loaded)) ∧
    (∀ ℓ f, ℓ ≤ L → Brisk Γ level M ℓ f → ∀ ctx loaded, Costs (Owes K (B ℓ) ((L - ℓ) * S)) (fieldDoLoadSource counting Γ n f ctx loaded)) ∧
    (∀ ℓ d, ℓ + 1 ≤ L → BriskClass Γ level M L ℓ d → ∀ ctx kw,
      Costs (Owes K (B (ℓ + 1)) ((L - (ℓ + 1)) * S)) (structFromSource counting Γ n d ctx kw)) := by
  have hS : ∀ ℓ, ℓ ≤ L → M * (B ℓ + 4) + 2 * B ℓ + 14 ≤ S := fun ℓ hℓ =>
    Nat.le_trans (hb.step ℓ) (Nat.le_trans (hb.mono _ _ (by omega)) hb.top)
  induction n with
  | zero =>
    refine ⟨?_, ?_, ?_⟩ <;> intros <;> intro t <;> first
      | rw [fieldFromSource]; exact owes_pure (.error _) t
      | rw [fieldDoLoadSource]; exact owes_pure (.error _) t
      | rw [structFromSource]; exact owes_pure (.error _) t
  | succ n ih =>
    obtain ⟨ih1, ih2, ih3⟩ := ih
    have hstruct : ∀ cls ℓ, level cls ≤ ℓ → ∀ ctx,
        Costs (Owes K (B ℓ) ((L - ℓ) * S)) (Source.loadStruct Γ (fun d ctx => structFromSource counting Γ n d ctx []) cls ctx) := by
      intro cls ℓ hle ctx
      unfold Source.loadStruct
      cases hd : Γ cls with
      | none => exact owes_pure _
      | some d =>
        obtain ⟨k, hk, h2, h3⟩ := hΓ cls d hd
        exact (hb.raise (by omega) (ih3 k d h2 h3 ctx [])).thenCalc _
    refine ⟨fun ℓ f hℓ hf ctx loaded => ?_, fun ℓ f hℓ hf ctx loaded => ?_, fun ℓ d hℓ hd ctx kw => ?_⟩
    · intro t
      rw [fieldFromSource]
      refine costs_fromSource ?_ (ih2 ℓ f hℓ hf ctx loaded) ctx loaded t
      have h1 : (L - ℓ) * S + S ≤ (L + 1) * S := by
        rw [← Nat.succ_mul]; exact Nat.mul_le_mul_right _ (by omega)
      have h2 := hS ℓ hℓ
      have := hb.byte
      omega
    · cases hf with
      | leaf h1 =>
        intro t
        simp only [fieldDoLoadSource]
        exact hb.lin (lin_leaf h1 _ ctx loaded) t
      | @eats k b comp count halt hc he =>
        intro t
        simp only [fieldDoLoadSource, Source.containerLoad]
        have hsl : (L - k) * S = (L - (k + 1)) * S + S := by
          rw [← Nat.succ_mul]; congr 1; omega
        have h1 := hS k (by omega)
        have h2 := hb.step k
        refine Costs.thenCalc ((costs_arrayLoop_eats (K := K) (X := B k + 4) (D := (L - k) * S) (by omega)
          (fun vs => costs_haltCheck ctx loaded vs) (ih1 k comp (by omega) hc ctx loaded) (fun t v t' ht h => ?_) n []).imp
          fun c w hw => ⟨fun hc => ?_, fun hc => ?_⟩) _ t
        · exact he n t.1 ctx loaded v t'.1 ht (by rw [counting_field, h])
        · have := hw.1 hc; omega
        · have := hw.2 hc; omega
      | @fixed k b comp m hc hn hm =>
        intro t
        simp only [fieldDoLoadSource, Source.containerLoad]
        have h1 := hS k (by omega)
        have h2 := hb.step k
        refine Costs.thenCalc ((costs_arrayLoop_fixed (K := K) (X := B k + 4) (D := (L - k) * S) (n := m) (ih1 k comp (by omega) hc ctx loaded)
          (fun t t' h => hn n t.1 ctx loaded t'.1 (by rw [counting_field, h])) n []).weaken ?_ (Nat.mul_le_mul_right _ (by omega))) _ t
        have : (m.toNat - ([] : List Value).length) * (B k + 4) ≤ M * (B k + 4) := Nat.mul_le_mul_right _ (by simp; omega)
        omega
      | nested h1 =>
        intro t
        simp only [fieldDoLoadSource, Source.containerLoad]
        exact hstruct _ _ h1 ctx t
      | @union _ b choices ld dd hg hcls =>
        intro t
        simp only [fieldDoLoadSource, Source.containerLoad]
        cases ld (counting.view t) ctx loaded with
        | error e => exact owes_pure (.error e) t
        | ok i =>
          simp only
          cases hi : choices[i]? with
          | none => exact owes_pure (.error _) t
          | some c =>
            have hm := List.mem_of_getElem? hi
            cases c with
            | inl g => exact ih2 ℓ g hℓ (hg g hm) ctx loaded t
            | inr cls => exact hstruct cls ℓ (hcls cls hm) ctx t
    · intro t
      rw [structFromSource]
      have key := (costs_loadFields hb (ℓ := ℓ) (eats := Eats Γ) (low := Brisk Γ level M ℓ)
        (load := fun f loaded => fieldFromSource counting Γ n f ctx loaded) (all := d.components) (by omega)
        (fun f _ he t loaded v t' ht h => he n t.1 ctx loaded v t'.1 ht (by rw [counting_field, h]))
        (fun f _ hf loaded => ih1 ℓ f (by omega) hf ctx loaded)
        (fun f hf loaded => (ih1 L f (Nat.le_refl _) (hd.fields (by omega) hf) ctx loaded).weaken (Nat.le_refl _) (Nat.zero_le _))
        (fun pre f post h => (hd.2 pre f post h).imp id (·.1)) d.components [] rfl kw).2 (by simp)
      refine Costs.thenCalc (key.imp fun c w hw => ⟨fun hc => ?_, fun hc => ?_⟩) _ t
      · have h1 : d.components.length * (B ℓ + 4) ≤ M * (B ℓ + 4) := Nat.mul_le_mul_right _ hd.1
        have h2 := hb.step ℓ
        have := hw.1 hc
        omega
      · have h1 : d.components.length * (B L + 4) ≤ M * (B L + 4) := Nat.mul_le_mul_right _ hd.1
        have h2 := hS L (Nat.le_refl _)
        have hsl : (L - ℓ) * S = (L - (ℓ + 1)) * S + S := by
          rw [← Nat.succ_mul]; congr 1; omega
        have := hw.2 hc
        omega

theorem owes_calls {M L w c : Nat} {D : Nat}
    (h : Owes (2 + (L + 1) * (8 * (2 * M + 4) ^ (L + 1))) (8 * (2 * M + 4) ^ L + 4) D c w) : w ≤ callsPerByte M L * (c + 1) := by
  have h1 : (2 * M + 4) ^ L * 4 ≤ (2 * M + 4) ^ (L + 1) := by rw [Nat.pow_succ]; exact Nat.mul_le_mul_left _ (by omega)
  have h2 : 1 ≤ (2 * M + 4) ^ L := Nat.pow_pos (by omega)
  unfold callsPerByte
  unfold Owes at h
  rw [Nat.mul_right_comm 8 (L + 3), Nat.mul_comm (8 * _) (L + 3)]
  generalize (2 * M + 4) ^ (L + 1) = S at h h1
  generalize (2 * M + 4) ^ L = T at h h1 h2
  have h3 : (L + 3) * (8 * S) = (L + 1) * (8 * S) + 2 * (8 * S) := by rw [← Nat.add_mul]
  have h4 : (L + 3) * (8 * S) * (c + 1) = (L + 3) * (8 * S) * c + (L + 3) * (8 * S) := Nat.mul_succ _ _
  by_cases hc : c = 0
  · have := h.1 hc; omega
  · have h5 := h.2 (by omega)
    have h6 : (2 + (L + 1) * (8 * S)) * c ≤ (L + 3) * (8 * S) * c := Nat.mul_le_mul_right _ (by omega)
    omega

end Verif
