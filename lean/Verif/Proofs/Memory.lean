import Verif.Spec.Memory
import Verif.Proofs.Robust

/-! # Helper lemmas: how much memory the result of a load takes -/
namespace Verif
open Spec

theorem Value.weight_pos (v : Value) : 1 ≤ v.weight := by
  cases v <;> simp [Value.weight]

theorem weightList_append (a b : List Value) : weightList (a ++ b) = weightList a + weightList b := by
  induction a with
  | nil => simp [weightList]
  | cons v a ih => simp only [List.cons_append, weightList, ih]; omega

theorem weightDict_set (d : Dict) (k : String) (v : Value) : weightDict (d.set k v) ≤ weightDict d + v.weight := by
  induction d with
  | nil => simp [Dict.set, weightDict]
  | cons p d ih =>
    obtain ⟨k', v'⟩ := p
    simp only [Dict.set]
    split
    · simp only [weightDict]; omega
    · simp only [weightDict]; omega

theorem weightDict_setDefault (d : Dict) (k : String) (v : Value) : weightDict (d.setDefault k v) ≤ weightDict d + v.weight := by
  unfold Dict.setDefault
  split
  · omega
  · exact weightDict_set d k v

theorem weightDict_erase (d : Dict) (k : String) : weightDict (d.erase k) ≤ weightDict d := by
  induction d with
  | nil => simp [Dict.erase]
  | cons p d ih =>
    obtain ⟨k', v'⟩ := p
    by_cases h : k' = k
    · have : Dict.erase ((k', v') :: d) k = Dict.erase d k := by simp [Dict.erase, h]
      rw [this]; simp only [weightDict]; omega
    · have : Dict.erase ((k', v') :: d) k = (k', v') :: Dict.erase d k := by simp [Dict.erase, h]
      rw [this]; simp only [weightDict]; omega

theorem weightDict_dropDiscarded (d : StructDesc) (vals : Dict) : weightDict (dropDiscarded d vals) ≤ weightDict vals := by
  unfold dropDiscarded
  generalize d.components.filter (·.base.discard) = fs
  induction fs generalizing vals with
  | nil => simp
  | cons f fs ih =>
    rw [List.foldl_cons]
    exact Nat.le_trans (ih _) (weightDict_erase _ _)

/-! ### Numbers and texts -/

theorem weight_int {i : Int} {c : Nat} (h : i.natAbs ≤ 2 ^ (8 * c)) : (Value.int i).weight ≤ 1 + c := by
  have : i.natAbs.log2 ≤ 8 * c := by
    by_cases h0 : i.natAbs = 0
    · rw [h0]; simp [Nat.log2]
    · have h1 := Nat.log2_self_le h0
      exact (Nat.pow_le_pow_iff_right (by decide : 1 < 2)).1 (Nat.le_trans h1 h)
  simp only [Value.weight]
  omega

theorem intOfBytes_natAbs (b : Bytes) (e : Endian) (sg : Bool) : (intOfBytes b e sg).natAbs ≤ 2 ^ (8 * b.length) := by
  have h := natOfLE_lt (e.arrange b)
  have hl : (e.arrange b).length = b.length := by cases e <;> simp [Endian.arrange]
  rw [hl] at h
  unfold intOfBytes
  simp only
  generalize natOfLE (e.arrange b) = u at h
  split
  · have : ((2 : Int) ^ (8 * b.length)) = ((2 ^ (8 * b.length) : Nat) : Int) := by simp
    rw [this]; omega
  · omega

theorem foldl_low7_le (bs : Bytes) (a : Nat) : bs.foldl (fun acc b => acc * 128 + low7 b) a ≤ a * 128 ^ bs.length + (128 ^ bs.length - 1) := by
  induction bs generalizing a with
  | nil => simp
  | cons b bs ih =>
    rw [List.foldl_cons]
    refine Nat.le_trans (ih _) ?_
    have h1 : low7 b ≤ 127 := by unfold low7; omega
    have h2 : 1 ≤ 128 ^ bs.length := Nat.one_le_two_pow.trans (Nat.pow_le_pow_left (by decide) _)
    rw [List.length_cons, Nat.pow_succ]
    generalize 128 ^ bs.length = p at h2
    have h3 : (a * 128 + low7 b) * p ≤ (a * 128 + 127) * p := Nat.mul_le_mul_right _ (by omega)
    have h4 : (a * 128 + 127) * p = a * (p * 128) + 127 * p := by rw [Nat.add_mul, Nat.mul_assoc, Nat.mul_comm 128 p]
    omega

theorem leValue_lt' (bs : Bytes) : leValue bs < 128 ^ bs.length := by
  induction bs with
  | nil => simp [leValue]
  | cons b bs ih =>
    have h1 : low7 b ≤ 127 := by unfold low7; omega
    simp only [leValue, List.length_cons, Nat.pow_succ]
    omega

theorem pow128_le (n : Nat) : 128 ^ n ≤ 2 ^ (8 * n) := by
  rw [Nat.pow_mul]; exact Nat.pow_le_pow_left (by decide) n

theorem varIntValue_natAbs (e : VarIntEncoding) (code : Bytes) : (varIntValue e code).natAbs ≤ 2 ^ (8 * code.length) := by
  have hp := pow128_le code.length
  have hpos : 1 ≤ 128 ^ code.length := Nat.one_le_two_pow.trans (Nat.pow_le_pow_left (by decide) _)
  cases e with
  | vlq =>
    have := foldl_low7_le code 0
    simp only [varIntValue, beValue]
    omega
  | uleb128 =>
    have := leValue_lt' code
    simp only [varIntValue]
    omega
  | leb128 =>
    have h1 := leValue_lt' code
    simp only [varIntValue, leb128Value, twosComplement]
    have h2 : 2 ^ (7 * code.length) = 128 ^ code.length := by rw [Nat.pow_mul]
    split
    · omega
    · have : ((2 : Int) ^ (7 * code.length)) = ((2 ^ (7 * code.length) : Nat) : Int) := by simp
      rw [this]; omega
  | compact =>
    simp only [varIntValue]
    cases code with
    | nil => simp [compactValue]
    | cons b bs =>
      have h1 := foldl_low7_le bs (b.toNat % 64)
      have h2 : b.toNat % 64 ≤ 63 := by omega
      have h3 : 1 ≤ 128 ^ bs.length := Nat.one_le_two_pow.trans (Nat.pow_le_pow_left (by decide) _)
      simp only [compactValue]
      rw [List.length_cons, Nat.pow_succ] at hp
      have h4 : b.toNat % 64 * 128 ^ bs.length ≤ 63 * 128 ^ bs.length := Nat.mul_le_mul_right _ h2
      rw [List.length_cons]
      split <;> omega

theorem decodeSome_count {c : CharCodec} (hc : TakesBytes c) : ∀ (n : Nat) (b : Bytes) (cs : List Nat) (r : Bytes),
    c.decodeSome n b = .ok (cs, r) → cs.length + r.length ≤ b.length := by
  intro n
  induction n with
  | zero =>
    intro b cs r h
    cases b with
    | nil => simp [CharCodec.decodeSome] at h; obtain ⟨rfl, rfl⟩ := h; simp
    | cons x b => simp [CharCodec.decodeSome] at h; obtain ⟨rfl, rfl⟩ := h; simp
  | succ n ih =>
    intro b cs r h
    cases b with
    | nil => simp [CharCodec.decodeSome] at h; obtain ⟨rfl, rfl⟩ := h; simp
    | cons x b =>
      simp only [CharCodec.decodeSome] at h
      split at h
      · simp at h
      · simp at h; obtain ⟨rfl, rfl⟩ := h; simp
      · rename_i ch k hk
        split at h
        · simp at h
        · rename_i cs' r' hr
          simp at h; obtain ⟨rfl, rfl⟩ := h
          have h1 := ih _ _ _ hr
          have h2 := hc _ _ _ hk
          simp only [List.length_drop, List.length_cons] at h1 ⊢
          omega

theorem decode_count {c : CharCodec} (hc : TakesBytes c) {b : Bytes} {cs : List Nat} (h : c.decode b = .ok cs) : cs.length ≤ b.length := by
  unfold CharCodec.decode CharCodec.feed at h
  split at h
  · simp at h
  · rename_i cs' hcs; simp at h; subst h
    have := decodeSome_count hc _ _ _ _ hcs; omega
  · simp at h

theorem stringzLoop_count {name : String} {c : CharCodec} (hc : TakesBytes c) {max : Option Int} :
    ∀ (fuel k : Nat) (buf : Bytes) (acc : List Nat) (s t : Stream) (cs : List Nat), s.rest.length ≤ fuel →
      stringzLoop name c max fuel k buf acc s = (.ok cs, t) → cs.length + s.pos ≤ acc.length + buf.length + t.pos := by
  intro fuel
  have hend : ∀ (buf : Bytes) (cs : List Nat), zEnd name buf ≠ .ok cs := by
    intro buf cs h
    unfold zEnd at h
    split at h <;> simp at h
  induction fuel with
  | zero =>
    intro k buf acc s t cs hs h
    rw [stringzLoop_eof (List.length_eq_zero_iff.1 (by omega))] at h
    exact absurd (congrArg Prod.fst h) (hend buf cs)
  | succ fuel ih =>
    intro k buf acc s t cs hle h
    cases hs : zStop max k with
    | true =>
      rw [stringzLoop_stop hs] at h
      exact absurd (congrArg Prod.fst h) (hend buf cs)
    | false =>
      cases hr : s.rest with
      | nil =>
        rw [stringzLoop_eof hr] at h
        exact absurd (congrArg Prod.fst h) (hend buf cs)
      | cons x r =>
        rw [stringzLoop_step hs hr] at h
        cases hf : c.feed (buf ++ [x]) with
        | error e' => rw [hf] at h; simp at h
        | ok o =>
          obtain ⟨out, buf'⟩ := o
          rw [hf] at h
          simp only at h
          have h3 := decodeSome_count hc _ _ _ _ hf
          simp only [List.length_append, List.length_cons, List.length_nil] at h3
          by_cases ho : out = [0]
          · rw [if_pos ho] at h
            simp only [Prod.mk.injEq, Except.ok.injEq] at h
            obtain ⟨rfl, rfl⟩ := h
            simp only
            omega
          · rw [if_neg ho] at h
            have h1 : (⟨s.data, s.pos + 1⟩ : Stream).rest = r := by
              simp only [Stream.rest] at hr ⊢
              rw [← List.drop_drop, hr]; rfl
            have := ih (k + 1) buf' (acc ++ out) _ t cs (by rw [h1]; rw [hr] at hle; simp at hle; omega) h
            simp only [List.length_append] at this
            omega

theorem read_length (s : Stream) (n : Int) : (s.read n).1.length + s.pos = (s.read n).2.pos := by
  simp only [Stream.read]; omega

theorem readExactSize_length {name : String} {e : Except Err Int} {s t : Stream} {b : Bytes}
    (h : readExactSize name e s = (.ok b, t)) : b.length + s.pos = t.pos := by
  unfold readExactSize at h
  simp only at h
  split at h
  · simp at h
  · rename_i n
    have := read_length s n
    split at h
    · simp at h
    · simp at h; obtain ⟨rfl, rfl⟩ := h; exact this

theorem readInt_natAbs {n : Int} {sg : Bool} {en : Endian} {s t : Stream} {i : Int} (h : readInt s n sg en = (.ok i, t)) :
    i.natAbs ≤ 2 ^ (8 * (t.pos - s.pos)) := by
  have hl := read_length s n
  simp only [readInt] at h
  split at h
  · simp at h
  · simp only [Prod.mk.injEq, Except.ok.injEq] at h
    obtain ⟨rfl, rfl⟩ := h
    have := intOfBytes_natAbs (s.read n).1 en sg
    rwa [show (s.read n).2.pos - s.pos = (s.read n).1.length by omega]

theorem decode_natAbs {enc : VarIntEncoding} {s t : Stream} {i : Int} (h : enc.decode s = (.ok i, t)) :
    i.natAbs ≤ 2 ^ (8 * (t.pos - s.pos)) := by
  rcases C07_decode_exhaustive s with ⟨code, post, hr, hd⟩ | hh
  · rw [C07_decode_delimited enc s code post hd hr] at h
    simp only [Prod.mk.injEq, Except.ok.injEq] at h
    obtain ⟨rfl, rfl⟩ := h
    have := varIntValue_natAbs enc code
    rwa [show (s.pos + code.length) - s.pos = code.length by omega]
  · rw [C07_decode_truncated enc s hh] at h; simp at h

theorem leafLoad_weight {b : FieldBase} {k : Leaf} {M : Nat} (hk : ThriftyLeaf M k) {e : Except Err Int} {s t : Stream} {ctx v : Value}
    {loaded : Dict} (h : leafLoad b k e s ctx loaded = (.ok v, t)) : v.weight ≤ M + 1 + (t.pos - s.pos) := by
  cases hk with
  | float =>
    obtain ⟨a, -, h⟩ := R.andThen_ok h
    split at h
    · simp at h; rw [← h]; simp only [Value.weight]; omega
    · simp at h
  | integer =>
    simp only [leafLoad] at h
    split at h
    · obtain ⟨a, h1, rfl⟩ := R.map_ok h
      have := weight_int (readInt_natAbs h1); omega
    · simp at h
  | varint =>
    obtain ⟨a, h1, rfl⟩ := R.map_ok h
    have := weight_int (decode_natAbs h1); omega
  | timestamp =>
    simp only [leafLoad] at h
    split at h
    · simp at h
    · obtain ⟨a, -, h⟩ := R.andThen_ok h
      obtain ⟨a, -, rfl⟩ := Except.map_ok h
      simp only [Value.weight]; omega
  | bytes =>
    obtain ⟨a, h1, rfl⟩ := R.map_ok h
    have := readExactSize_length h1
    simp only [Value.weight]; omega
  | string hc =>
    obtain ⟨a, h1, h⟩ := R.andThen_ok h
    obtain ⟨cs, h2, rfl⟩ := Except.map_ok h
    have h3 := readExactSize_length h1
    have h4 := decode_count hc h2
    simp only [Value.weight]; omega
  | stringz hc =>
    simp only [leafLoad] at h
    split at h
    · obtain ⟨cs, h1, rfl⟩ := R.map_ok h
      have := stringzLoop_count hc _ _ _ _ _ _ _ (Nat.le_refl _) h1
      simp only [Value.weight, List.length_nil] at this ⊢; omega
    · obtain ⟨cs, h1, rfl⟩ := R.map_ok h
      have := stringzLoop_count hc _ _ _ _ _ _ _ (Nat.le_refl _) h1
      simp only [Value.weight, List.length_nil] at this ⊢; omega
    · simp at h
  | uuid =>
    simp only [leafLoad] at h
    split at h
    · simp at h
    · simp only [Prod.mk.injEq] at h
      obtain ⟨a, -, rfl⟩ := Except.map_ok h.1
      simp only [Value.weight]; omega
  | custom hf hw => exact Nat.le_trans (hw _ _ _ _ _ h) (by omega)

theorem supported_takesBytes {c : CharCodec} (h : Supported c) : TakesBytes c :=
  fun _ _ _ hd => ((supported_lawful h).pos hd).1

/-! ### The budget -/

/-- What a level may cost without reading anything, and what a byte pays for. -/
structure Budget (M L : Nat) (B : Nat → Nat) (S K : Nat) : Prop where
  base : ∀ ℓ, M + 1 ≤ B ℓ
  mono : ∀ i j, i ≤ j → B i ≤ B j
  step : ∀ ℓ, 1 + M * B ℓ ≤ B (ℓ + 1)
  top : 1 + M * B L ≤ S
  one : 1 + B L ≤ S + 1
  byte : K = 1 + (L + 1) * S

/-- What a load of a field at level `ℓ` may weigh after `c` bytes. -/
def Pays (L : Nat) (B : Nat → Nat) (S K ℓ w c : Nat) : Prop :=
  (c = 0 → w ≤ B ℓ) ∧ (0 < c → w + (L - ℓ) * S ≤ K * c + B ℓ)

theorem budget_pow (M L : Nat) : Budget M L (fun ℓ => (M + 1) ^ (ℓ + 1)) ((M + 1) ^ (L + 2)) (1 + (L + 1) * (M + 1) ^ (L + 2)) := by
  have hpos : ∀ n, 1 ≤ (M + 1) ^ n := fun n => Nat.pow_pos (Nat.succ_pos M)
  have hmono : ∀ i j, i ≤ j → (M + 1) ^ i ≤ (M + 1) ^ j := fun i j h => Nat.pow_le_pow_right (Nat.succ_pos M) h
  have hstep : ∀ n, 1 + M * (M + 1) ^ n ≤ (M + 1) ^ (n + 1) := by
    intro n
    have := hpos n
    rw [Nat.pow_succ, Nat.mul_comm ((M + 1) ^ n), Nat.add_mul]
    omega
  refine ⟨fun ℓ => ?_, fun i j h => hmono _ _ (by omega), fun ℓ => hstep (ℓ + 1), hstep (L + 1), ?_, rfl⟩
  · have := hmono 1 (ℓ + 1) (by omega)
    simpa using this
  · have := hmono (L + 1) (L + 2) (by omega)
    omega

section
variable {M L S K : Nat} {B : Nat → Nat}

theorem Pays.mono (hb : Budget M L B S K) {i j w c : Nat} (hij : i ≤ j) (h : Pays L B S K i w c) : Pays L B S K j w c := by
  have h1 := hb.mono i j hij
  have h2 : (L - j) * S ≤ (L - i) * S := Nat.mul_le_mul_right _ (by omega)
  exact ⟨fun hc => Nat.le_trans (h.1 hc) h1, fun hc => by have := h.2 hc; omega⟩

theorem Budget.slack (hb : Budget M L B S K) {ℓ c : Nat} (hc : 0 < c) : c + (L - ℓ) * S ≤ K * c := by
  rw [hb.byte, Nat.add_mul, Nat.one_mul, Nat.mul_assoc]
  have h1 : (L - ℓ) * S ≤ (L + 1) * S := Nat.mul_le_mul_right _ (by omega)
  have h2 : (L + 1) * S ≤ (L + 1) * (S * c) := Nat.mul_le_mul_left _ (Nat.le_mul_of_pos_right _ hc)
  omega

theorem Budget.small (hb : Budget M L B S K) {ℓ w c : Nat} (h : w ≤ M + 1 + c) : Pays L B S K ℓ w c := by
  have := hb.base ℓ
  exact ⟨fun hc => by omega, fun hc => by have := hb.slack (ℓ := ℓ) hc; omega⟩

theorem Pays.le {ℓ w w' c : Nat} (h : Pays L B S K ℓ w c) (hw : w' ≤ w) : Pays L B S K ℓ w' c :=
  ⟨fun hc => Nat.le_trans hw (h.1 hc), fun hc => by have := h.2 hc; omega⟩

/-- One more element of an array whose elements take at least one byte each. -/
theorem arrayLoop_eats (hb : Budget M L B S K) {ℓ : Nat} (hℓ : ℓ < L) {halt : Stream → List Value → Except Err (Bool × List Value)}
    (hh : ∀ s vs stop vs', halt s vs = .ok (stop, vs') → vs' = vs) {load : Stream → R Value} (hF : Forward load)
    (he : ∀ s v t, s.pos ≤ s.data.length → load s = (.ok v, t) → s.pos < t.pos)
    (hl : ∀ s v t, s.pos ≤ s.data.length → load s = (.ok v, t) → Pays L B S K ℓ v.weight (t.pos - s.pos)) :
    ∀ (fuel : Nat) (acc vs : List Value) (s t : Stream), s.pos ≤ s.data.length → arrayLoop halt load fuel acc s = (.ok vs, t) →
      (t.pos = s.pos → vs = acc) ∧
      (s.pos < t.pos → weightList vs + (L - ℓ) * S ≤ weightList acc + K * (t.pos - s.pos) + B ℓ) := by
  have hS : B ℓ ≤ (L - ℓ) * S := by
    have h1 := hb.mono ℓ L (by omega)
    have h2 := hb.one
    have h3 : 1 * S ≤ (L - ℓ) * S := Nat.mul_le_mul_right _ (by omega)
    omega
  intro fuel
  induction fuel with
  | zero =>
    intro acc vs s t hs h
    unfold arrayLoop at h
    split at h
    · simp at h
    · rename_i acc' ha
      simp only [Prod.mk.injEq, Except.ok.injEq] at h
      obtain ⟨rfl, rfl⟩ := h
      exact ⟨fun _ => hh _ _ _ _ ha, fun h => by omega⟩
    · split at h <;> simp at h
  | succ fuel ih =>
    intro acc vs s t hs h
    unfold arrayLoop at h
    split at h
    · simp at h
    · rename_i acc' ha
      simp only [Prod.mk.injEq, Except.ok.injEq] at h
      obtain ⟨rfl, rfl⟩ := h
      exact ⟨fun _ => hh _ _ _ _ ha, fun h => by omega⟩
    · rename_i acc' ha
      have := hh _ _ _ _ ha
      subst this
      split at h
      · simp at h
      · rename_i v u hu
        have h1 := hF s hs
        rw [hu] at h1
        simp only at h1
        have h2 := he s v u hs hu
        have h3 := (hl s v u hs hu).2 (by omega)
        have hus : u.pos ≤ u.data.length := by rw [h1.1]; exact h1.2.2
        have hF2 := arrayLoop_forward (halt := halt) hF fuel (if v = .notPresent then acc' else acc' ++ [v]) u hus
        simp only at h
        rw [h] at hF2
        simp only at hF2
        have h4 := ih _ vs u t hus h
        have h5 : weightList (if v = .notPresent then acc' else acc' ++ [v]) ≤ weightList acc' + v.weight := by
          split
          · omega
          · rw [weightList_append]; simp [weightList]
        refine ⟨fun ht => by omega, fun _ => ?_⟩
        have h6 : K * (t.pos - s.pos) = K * (u.pos - s.pos) + K * (t.pos - u.pos) := by
          rw [← Nat.mul_add]; congr 1; omega
        by_cases ht : t.pos = u.pos
        · rw [h4.1 ht]; rw [ht] at h6; simp only [Nat.sub_self, Nat.mul_zero] at h6; rw [ht]; omega
        · have h7 := h4.2 (by omega)
          omega

/-- An array with a fixed number of elements. -/
theorem arrayLoop_fixed (hb : Budget M L B S K) {ℓ : Nat} {name : String} {n : Int} {ctx : Value} {loaded : Dict}
    {load : Stream → R Value} (hF : Forward load)
    (hl : ∀ s v t, s.pos ≤ s.data.length → load s = (.ok v, t) → Pays L B S K ℓ v.weight (t.pos - s.pos)) :
    ∀ (fuel : Nat) (acc vs : List Value) (s t : Stream), s.pos ≤ s.data.length →
      arrayLoop (haltCheck name (.fixed n) none ctx loaded) load fuel acc s = (.ok vs, t) →
      (t.pos = s.pos → weightList vs ≤ weightList acc + (n.toNat - acc.length) * B ℓ) ∧
      (s.pos < t.pos → weightList vs + (L - ℓ) * S ≤ weightList acc + K * (t.pos - s.pos) + (n.toNat - acc.length) * B ℓ) := by
  have hhalt : ∀ s vs, haltCheck name (.fixed n) none ctx loaded s vs = .ok (decide (n ≤ vs.length), vs) := fun s vs => rfl
  intro fuel
  induction fuel with
  | zero =>
    intro acc vs s t hs h
    unfold arrayLoop at h
    rw [hhalt] at h
    split at h
    · simp at h
    · rename_i acc' ha
      simp only [Except.ok.injEq, Prod.mk.injEq] at ha h
      obtain ⟨rfl, rfl⟩ := h
      rw [ha.2]
      exact ⟨fun _ => by omega, fun h => by omega⟩
    · split at h <;> simp at h
  | succ fuel ih =>
    intro acc vs s t hs h
    unfold arrayLoop at h
    rw [hhalt] at h
    split at h
    · simp at h
    · rename_i acc' ha
      simp only [Except.ok.injEq, Prod.mk.injEq] at ha h
      obtain ⟨rfl, rfl⟩ := h
      rw [ha.2]
      exact ⟨fun _ => by omega, fun h => by omega⟩
    · rename_i acc' ha
      simp only [Except.ok.injEq, Prod.mk.injEq, decide_eq_false_iff_not] at ha
      obtain ⟨hlt, rfl⟩ := ha
      split at h
      · simp at h
      · rename_i v u hu
        have h1 := hF s hs
        rw [hu] at h1
        simp only at h1
        have h3 := hl s v u hs hu
        have hus : u.pos ≤ u.data.length := by rw [h1.1]; exact h1.2.2
        have hF2 := arrayLoop_forward (halt := haltCheck name (.fixed n) none ctx loaded) hF fuel
          (if v = .notPresent then acc else acc ++ [v]) u hus
        simp only at h
        rw [h] at hF2
        simp only at hF2
        have h4 := ih _ vs u t hus h
        have h6 : K * (t.pos - s.pos) = K * (u.pos - s.pos) + K * (t.pos - u.pos) := by
          rw [← Nat.mul_add]; congr 1; omega
        -- what the element adds
        have h5 : ∃ x, weightList (if v = .notPresent then acc else acc ++ [v]) ≤ weightList acc + x ∧
            (u.pos = s.pos → x + (n.toNat - (if v = .notPresent then acc else acc ++ [v]).length) * B ℓ ≤ (n.toNat - acc.length) * B ℓ) ∧
            (s.pos < u.pos → x + (L - ℓ) * S + (n.toNat - (if v = .notPresent then acc else acc ++ [v]).length) * B ℓ ≤
              K * (u.pos - s.pos) + (n.toNat - acc.length) * B ℓ) := by
          by_cases hv : v = .notPresent
          · rw [if_pos hv]
            exact ⟨0, by omega, fun _ => by omega, fun hc => by
              have := hb.slack (ℓ := ℓ) (c := u.pos - s.pos) (by omega)
              omega⟩
          · rw [if_neg hv]
            have hm : (n.toNat - acc.length) * B ℓ = (n.toNat - (acc ++ [v]).length) * B ℓ + B ℓ := by
              rw [← Nat.succ_mul]; congr 1; simp only [List.length_append, List.length_cons, List.length_nil]; omega
            refine ⟨v.weight, by rw [weightList_append]; simp [weightList], fun hc => ?_, fun hc => ?_⟩
            · have := h3.1 (by omega); omega
            · have := h3.2 (by omega); omega
        obtain ⟨x, hx1, hx2, hx3⟩ := h5
        generalize (n.toNat - (if v = .notPresent then acc else acc ++ [v]).length) * B ℓ = y at *
        refine ⟨fun ht => ?_, fun ht => ?_⟩
        · have h7 := h4.1 (by omega)
          have h8 := hx2 (by omega)
          omega
        · by_cases htu : t.pos = u.pos
          · have h7 := h4.1 htu
            have h8 := hx3 (by omega)
            rw [htu] at h6 ⊢
            simp only [Nat.sub_self, Nat.mul_zero] at h6
            omega
          · have h7 := h4.2 (by omega)
            by_cases hsu : u.pos = s.pos
            · have h8 := hx2 hsu
              rw [hsu] at h6 h7
              simp only [Nat.sub_self, Nat.mul_zero] at h6
              omega
            · have h8 := hx3 (by omega)
              omega

/-- The fields of a struct. -/
theorem loadFields_pays (hb : Budget M L B S K) {ℓ : Nat} {eats : Field → Prop} {low : Field → Prop}
    {load : Field → Stream → Dict → R Value} {all : List Field} (hℓ : ℓ ≤ L)
    (hF : ∀ f ∈ all, ∀ loaded, Forward fun s => load f s loaded)
    (he : ∀ f ∈ all, eats f → ∀ s loaded v t, s.pos ≤ s.data.length → load f s loaded = (.ok v, t) → s.pos < t.pos)
    (hlow : ∀ f ∈ all, low f → ∀ s loaded v t, s.pos ≤ s.data.length → load f s loaded = (.ok v, t) →
      Pays L B S K ℓ v.weight (t.pos - s.pos))
    (hhigh : ∀ f ∈ all, ∀ s loaded v t, s.pos ≤ s.data.length → load f s loaded = (.ok v, t) →
      Pays L B S K L v.weight (t.pos - s.pos))
    (hsplit : ∀ pre f post, all = pre ++ f :: post → low f ∨ ∃ g ∈ pre, eats g) :
    ∀ (post pre : List Field) (acc vals : Dict) (s t : Stream) (c : Nat), all = pre ++ post → s.pos ≤ s.data.length →
      ((∃ g ∈ pre, eats g) → 0 < c) →
      (c = 0 → weightDict acc ≤ pre.length * B ℓ) →
      (0 < c → weightDict acc + (L - ℓ) * S ≤ K * c + pre.length * B L) →
      loadFields load post acc s = (.ok vals, t) →
      (c + (t.pos - s.pos) = 0 → weightDict vals ≤ all.length * B ℓ) ∧
      (0 < c + (t.pos - s.pos) → weightDict vals + (L - ℓ) * S ≤ K * (c + (t.pos - s.pos)) + all.length * B L) := by
  intro post
  induction post with
  | nil =>
    intro pre acc vals s t c hall hs _ h0 h1 h
    simp only [loadFields, Prod.mk.injEq, Except.ok.injEq] at h
    obtain ⟨rfl, rfl⟩ := h
    rw [List.append_nil] at hall
    subst hall
    simpa using ⟨h0, h1⟩
  | cons f fs ih =>
    intro pre acc vals s t c hall hs hc h0 h1 h
    simp only [loadFields] at h
    have hf : f ∈ all := by rw [hall]; simp
    split at h
    · simp at h
    · rename_i v u hu
      have h2 := hF f hf acc s hs
      simp only [hu] at h2
      have hus : u.pos ≤ u.data.length := by rw [h2.1]; exact h2.2.2
      have hall' : all = (pre ++ [f]) ++ fs := by rw [hall]; simp
      have hF2 := loadFields_forward (fs := fs) (fun g hg => hF g (by rw [hall']; exact List.mem_append_right _ hg)) (acc.setDefault f.name v) u hus
      rw [h] at hF2
      simp only at hF2
      have hw := weightDict_setDefault acc f.name v
      have hlen : (pre ++ [f]).length = pre.length + 1 := by simp
      have h3 := ih (pre ++ [f]) (acc.setDefault f.name v) vals u t (c + (u.pos - s.pos)) hall' hus ?_ ?_ ?_ h
      · have : c + (u.pos - s.pos) + (t.pos - u.pos) = c + (t.pos - s.pos) := by omega
        rwa [this] at h3
      · rintro ⟨g, hg, hge⟩
        rw [List.mem_append, List.mem_singleton] at hg
        rcases hg with hg | rfl
        · have := hc ⟨g, hg, hge⟩; omega
        · have := he _ hf hge s acc v u hs hu; omega
      · intro hz
        have hp := (hsplit pre f fs hall).resolve_right (fun hx => by have := hc hx; omega)
        have := (hlow f hf hp s acc v u hs hu).1 (by omega)
        have := h0 (by omega)
        rw [hlen, Nat.add_mul, Nat.one_mul]; omega
      · intro hz
        rw [hlen, Nat.add_mul, Nat.one_mul, Nat.mul_add]
        by_cases hc0 : c = 0
        · subst hc0
          have hp := (hsplit pre f fs hall).resolve_right (fun hx => by have := hc hx; omega)
          have h4 := (hlow f hf hp s acc v u hs hu).2 (by omega)
          have h5 := h0 rfl
          have h6 := hb.mono ℓ L hℓ
          have h7 : pre.length * B ℓ ≤ pre.length * B L := Nat.mul_le_mul_left _ h6
          omega
        · have h4 := h1 (by omega)
          have h5 := hhigh f hf s acc v u hs hu
          by_cases hz : u.pos - s.pos = 0
          · have := h5.1 hz; omega
          · have := h5.2 (by omega); omega

end

theorem Spec.Thrifty.forward {Γ : Classes} {level : String → Nat} {M ℓ : Nat} {f : Field} (h : Thrifty Γ level M ℓ f) : LoadsForward f := by
  induction h with
  | leaf _ hk =>
    refine .leaf ?_
    rintro ops rfl
    cases hk with
    | custom hf _ => exact hf
  | array _ _ _ ih => exact .array ih
  | nested => exact .nested
  | union _ _ _ ih => exact .union ih

theorem Spec.Thrifty.absent {Γ : Classes} {level : String → Nat} {M ℓ : Nat} {f : Field} (h : Thrifty Γ level M ℓ f) :
    f.base.notPresentValue.weight ≤ M := by
  cases h <;> assumption

theorem Spec.Thrifty.up {Γ : Classes} {level : String → Nat} {M ℓ : Nat} {f : Field} (h : Thrifty Γ level M ℓ f) :
    ∀ {k : Nat}, ℓ ≤ k → Thrifty Γ level M k f := by
  induction h with
  | leaf h1 hk => exact fun _ => .leaf h1 hk
  | array h1 _ h2 ih =>
    intro k hk
    obtain ⟨k, rfl⟩ : ∃ j, k = j + 1 := ⟨k - 1, by omega⟩
    exact .array h1 (ih (by omega)) h2
  | nested h1 h2 => exact fun hk => .nested h1 (by omega)
  | union h1 _ h2 ih => exact fun hk => .union h1 (fun g hg => ih g hg hk) (fun c hc => Nat.le_trans (h2 c hc) hk)

theorem Spec.ThriftyClass.fields {Γ : Classes} {level : String → Nat} {M L ℓ : Nat} {d : StructDesc} (hd : ThriftyClass Γ level M L ℓ d)
    (hℓ : ℓ ≤ L) {f : Field} (hf : f ∈ d.components) : Thrifty Γ level M L f := by
  obtain ⟨pre, post, h⟩ := List.append_of_mem hf
  rcases hd.2 pre f post h with h | ⟨-, h⟩
  · exact h.up hℓ
  · exact h

theorem Spec.Levelled.forward {Γ : Classes} {level : String → Nat} {M L : Nat} (hΓ : Levelled Γ level M L) :
    ∀ c d, Γ c = some d → ∀ f ∈ d.components, LoadsForward f := by
  intro c d hd f hf
  obtain ⟨ℓ, -, h1, h2⟩ := hΓ c d hd
  exact (h2.fields (by omega) hf).forward

theorem load_pays {Γ : Classes} {level : String → Nat} {M L S K : Nat} {B : Nat → Nat} (hb : Budget M L B S K)
    (hΓ : Levelled Γ level M L) (n : Nat) :
    (∀ ℓ f, ℓ ≤ L → Thrifty Γ level M ℓ f → ∀ s ctx loaded v t, s.pos ≤ s.data.length →
      fieldFromStream Γ n f s ctx loaded = (.ok v, t) → Pays L B S K ℓ v.weight (t.pos - s.pos)) ∧
    (∀ ℓ f, ℓ ≤ L → Thrifty Γ level M ℓ f → ∀ s ctx loaded v t, s.pos ≤ s.data.length →
      fieldDoLoad Γ n f s ctx loaded = (.ok v, t) → Pays L B S K ℓ v.weight (t.pos - s.pos)) ∧
    (∀ ℓ d, ℓ + 1 ≤ L → ThriftyClass Γ level M L ℓ d → ∀ s ctx vals t, s.pos ≤ s.data.length →
      structFromStream Γ n d s ctx [] = (.ok vals, t) → Pays L B S K (ℓ + 1) (1 + weightDict vals) (t.pos - s.pos)) := by
  have hfwd := hΓ.forward
  induction n with
  | zero =>
    refine ⟨fun ℓ f _ _ s ctx l v t _ h => ?_, fun ℓ f _ _ s ctx l v t _ h => ?_, fun ℓ d _ _ s ctx vals t _ h => ?_⟩
    · simp [fieldFromStream] at h
    · simp [fieldDoLoad] at h
    · simp [structFromStream] at h
  | succ n ih =>
    obtain ⟨ihf, ihd, ihs⟩ := ih
    have hstruct : ∀ cls ℓ, level cls ≤ ℓ → ∀ s ctx v t, s.pos ≤ s.data.length →
        loadStruct Γ (fun d s ctx => structFromStream Γ n d s ctx []) cls s ctx = (.ok v, t) →
        Pays L B S K ℓ v.weight (t.pos - s.pos) := by
      intro cls ℓ hle s ctx v t hs h
      unfold loadStruct at h
      split at h
      · simp at h
      · rename_i d hd
        obtain ⟨vals, h1, rfl⟩ := R.map_ok h
        obtain ⟨k, hk, h2, h3⟩ := hΓ cls d hd
        exact (ihs k d h2 h3 s ctx vals t hs h1).mono hb (by omega)
    refine ⟨fun ℓ f hℓ hf s ctx l v t hs h => ?_, fun ℓ f hℓ hf s ctx l v t hs h => ?_, fun ℓ d hℓ hd s ctx vals t hs h => ?_⟩
    · rcases fieldFromStream_ok h with ⟨-, rfl, rfl⟩ | ⟨-, -, ⟨-, rfl, -⟩ | ⟨w, h1, h2⟩⟩
      · exact hb.small (by have := hf.absent; omega)
      · exact hb.small (by simp only [Value.weight]; omega)
      · refine (ihd ℓ f hℓ hf s ctx l w t hs h1).le ?_
        rcases h2 with rfl | ⟨rfl, -⟩
        · exact Nat.le_refl _
        · have := w.weight_pos; simp only [Value.weight]; omega
    · cases hf with
      | leaf h1 hk =>
        simp only [fieldDoLoad] at h
        exact hb.small (leafLoad_weight hk h)
      | @array k b comp count h1 hc hcount =>
        rw [fieldDoLoad_array] at h
        obtain ⟨vs, h2, rfl⟩ := R.map_ok h
        have hF := (load_forward Γ hfwd n).1 comp hc.forward ctx l
        have hp : ∀ s v t, s.pos ≤ s.data.length → fieldFromStream Γ n comp s ctx l = (.ok v, t) →
            Pays L B S K k v.weight (t.pos - s.pos) := fun s v t hs h => ihf k comp (by omega) hc s ctx l v t hs h
        have hfw := arrayLoop_forward (halt := haltCheck b.name count none ctx l) hF n [] s hs
        rw [h2] at hfw
        simp only at hfw
        have hstep := hb.step k
        have hsl : (L - k) * S = (L - (k + 1)) * S + S := by
          rw [← Nat.succ_mul]; congr 1; omega
        have hbl := hb.mono k L (by omega)
        have hone := hb.one
        have htop := hb.top
        have hmn := hb.mono k (k + 1) (by omega)
        have hbase := hb.base (k + 1)
        rcases hcount with he | ⟨m, rfl, hm⟩
        · have key := arrayLoop_eats hb (by omega) (halt := haltCheck b.name count none ctx l) (fun s vs stop vs' h => by
            simp only [haltCheck] at h
            obtain ⟨a, -, h⟩ := Except.map_ok h
            simp at h; exact h.2) hF (fun s v t hs h => he n s ctx l v t hs h) hp n [] vs s t hs h2
          simp only [weightList, Nat.zero_add] at key
          refine ⟨fun hc => ?_, fun hc => ?_⟩
          · rw [key.1 (by omega)]; simp only [Value.weight, weightList]; omega
          · have := key.2 (by omega)
            have hb1 := hb.base k
            simp only [Value.weight]
            omega
        · have key := arrayLoop_fixed hb (name := b.name) (n := m) hF hp n [] vs s t hs h2
          simp only [weightList, Nat.zero_add, List.length_nil, Nat.sub_zero] at key
          have hmm : m.toNat * B k ≤ M * B k := Nat.mul_le_mul_right _ (by omega)
          simp only [Value.weight]
          refine ⟨fun hc => ?_, fun hc => ?_⟩
          · have := key.1 (by omega); omega
          · have := key.2 (by omega); omega
      | nested h1 hl =>
        simp only [fieldDoLoad, containerLoad] at h
        exact hstruct _ _ hl s ctx v t hs h
      | union h1 hg hcls =>
        simp only [fieldDoLoad, containerLoad] at h
        split at h
        · simp at h
        · split at h
          · simp at h
          · rename_i g hgi
            exact ihd ℓ g hℓ (hg g (List.mem_of_getElem? hgi)) s ctx l v t hs h
          · rename_i cls hgi
            exact hstruct cls ℓ (hcls cls (List.mem_of_getElem? hgi)) s ctx v t hs h
    · simp only [structFromStream, structFromStreamWith] at h
      split at h
      · simp at h
      · rename_i results u hr
        split at h
        · simp at h
        · rename_i vals' hi
          rw [(structInit_ok_iff.1 hi).1] at h
          split at h
          · simp at h
          · simp only [Prod.mk.injEq, Except.ok.injEq] at h
            obtain ⟨rfl, rfl⟩ := h
            have hw := weightDict_dropDiscarded d results
            have key := loadFields_pays hb (ℓ := ℓ) (eats := Eats Γ) (low := Thrifty Γ level M ℓ)
              (load := fun f s loaded => fieldFromStream Γ n f s ctx loaded) (all := d.components) (by omega)
              (fun f hf loaded => (load_forward Γ hfwd n).1 f (hd.fields (by omega) hf).forward ctx loaded)
              (fun f _ he s loaded v t hs h => he n s ctx loaded v t hs h)
              (fun f _ hf s loaded v t hs h => ihf ℓ f (by omega) hf s ctx loaded v t hs h)
              (fun f hf s loaded v t hs h => ihf L f (Nat.le_refl _) (hd.fields (by omega) hf) s ctx loaded v t hs h)
              (fun pre f post h => (hd.2 pre f post h).imp id (·.1))
              d.components [] [] results s u 0 rfl hs (by simp) (by simp [weightDict]) (by simp) hr
            simp only [Nat.zero_add] at key
            have h1 : d.components.length * B ℓ ≤ M * B ℓ := Nat.mul_le_mul_right _ hd.1
            have h2 : d.components.length * B L ≤ M * B L := Nat.mul_le_mul_right _ hd.1
            have hstep := hb.step ℓ
            have htop := hb.top
            have hsl : (L - ℓ) * S = (L - (ℓ + 1)) * S + S := by
              rw [← Nat.succ_mul]; congr 1; omega
            refine ⟨fun hc => ?_, fun hc => ?_⟩
            · have := key.1 hc; omega
            · have := key.2 hc; omega

theorem pays_cost {M L w c : Nat}
    (h : Pays L (fun ℓ => (M + 1) ^ (ℓ + 1)) ((M + 1) ^ (L + 2)) (1 + (L + 1) * (M + 1) ^ (L + 2)) L w c) :
    w ≤ costPerByte M L * (c + 1) := by
  have h1 : (M + 1) ^ (L + 1) ≤ (M + 1) ^ (L + 2) := Nat.pow_le_pow_right (Nat.succ_pos M) (by omega)
  have h2 : 1 ≤ (M + 1) ^ (L + 2) := Nat.pow_pos (Nat.succ_pos M)
  unfold Pays at h
  unfold costPerByte
  simp only [Nat.sub_self, Nat.zero_mul, Nat.add_zero] at h
  generalize (M + 1) ^ (L + 2) = S at h h1 h2
  generalize (M + 1) ^ (L + 1) = T at h h1
  have h3 : (L + 2) * S = (L + 1) * S + S := Nat.succ_mul _ _
  have h4 : (L + 2) * S * (c + 1) = (L + 2) * S * c + (L + 2) * S := Nat.mul_succ _ _
  by_cases hc : c = 0
  · have := h.1 hc; omega
  · have h5 := h.2 (by omega)
    have h6 : (1 + (L + 1) * S) * c ≤ (L + 2) * S * c := Nat.mul_le_mul_right _ (by omega)
    omega

end Verif
