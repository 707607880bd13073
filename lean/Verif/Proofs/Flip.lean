import Verif.Spec.Flip
import Verif.Proofs.Turn
import Verif.Proofs.IntCodec

/-! Helper lemmas: signed and unsigned. -/

namespace Verif
open Spec

theorem base_flip (X : List String) (f : Field) : (flipField X f).base = f.base := by
  cases f with
  | leaf b k =>
    show (if b.name ∈ X then Field.leaf b (flipKind k) else .leaf b k).base = b
    split <;> rfl
  | _ => rfl

theorem name_flip (X : List String) (f : Field) : (flipField X f).name = f.name := congrArg FieldBase.name (base_flip X f)

theorem flip_off {X : List String} {f : Field} (h : f.name ∉ X) : flipField X f = f := by
  cases f with
  | leaf b k => exact if_neg h
  | _ => rfl

theorem flip_on {X : List String} {b : FieldBase} {s : Bool} {e : Endian} (h : b.name ∈ X) :
    flipField X (.leaf b (.integer s e)) = .leaf b (.integer (!s) e) := if_pos h

/-! ### Dumping -/

theorem writeInt_bytes {v n : Int} {s : Bool} {e : Endian} {p : Bytes} (h : writeInt v n s e = .ok p) :
    p = e.arrange (natToLE n.toNat (v % 2 ^ (8 * n.toNat)).toNat) := by
  unfold writeInt intToBytes at h
  simp only at h
  repeat' split at h
  all_goals first
    | (simp only [Except.ok.injEq] at h; exact h.symm)
    | (simp at h)

theorem writeInt_same {v n : Int} {s s' : Bool} {e : Endian} {p p' : Bytes} (h : writeInt v n s e = .ok p) (h' : writeInt v n s' e = .ok p') :
    p' = p := by
  rw [writeInt_bytes h, writeInt_bytes h']

theorem writeInt_held {m : Nat} {v : Int} {s s' : Bool} {e : Endian} {p : Bytes} (hv : HeldByBoth m v) (h : writeInt v m s e = .ok p) :
    writeInt v m s' e = .ok p := by
  have hfit : ∃ p', writeInt v m s' e = .ok p' := by
    unfold writeInt intToBytes
    rw [if_neg (by omega)]
    obtain ⟨h1, h2⟩ := hv
    simp only [Int.toNat_natCast]
    rw [if_pos]
    · exact ⟨_, rfl⟩
    · have hp : (0 : Int) < 2 ^ (8 * m) := by exact_mod_cast Nat.two_pow_pos (8 * m)
      split
      · split
        · rename_i hm
          subst hm
          have : v = 0 := by simp at h2; omega
          simp [this]
        · rename_i hm
          have h3 : (2 : Int) ^ (8 * m) = 2 * 2 ^ (8 * m - 1) := by
            rw [← pow_succ', Nat.sub_add_cancel (by omega)]
          have h4 : (0 : Int) < 2 ^ (8 * m - 1) := by exact_mod_cast Nat.two_pow_pos (8 * m - 1)
          simp only [Bool.and_eq_true, decide_eq_true_eq]
          omega
      · simp only [Bool.and_eq_true, decide_eq_true_eq]
        omega
  obtain ⟨p', h'⟩ := hfit
  rw [h', writeInt_same h h']

theorem integer_dumps {b : FieldBase} {s : Bool} {e : Endian} {m : Nat} (hs : b.size = .fixed m) {es : Except Err Int} {v ctx : Value} {all : Dict}
    {p : Bytes} (h : leafDump b (.integer s e) es v ctx all = (p, .ok ())) : ∃ i, v = .int i ∧ writeInt i m s e = .ok p := by
  simp only [leafDump, hs] at h
  cases v with
  | int i =>
    simp only at h
    refine ⟨i, rfl, ?_⟩
    cases hw : writeInt i m s e with
    | ok x => rw [hw] at h; simp only [unserializableOnRange, W.ofExcept, W.ok, Prod.mk.injEq] at h; rw [h.1]
    | error e =>
      rw [hw] at h
      simp only [unserializableOnRange] at h
      split at h <;> simp [W.ofExcept, W.fail] at h
  | _ => simp [W.fail] at h

theorem integer_dumped {b : FieldBase} {s : Bool} {e : Endian} {m : Nat} (hs : b.size = .fixed m) {es : Except Err Int} {i : Int} {ctx : Value}
    {all : Dict} {p : Bytes} (h : writeInt i m s e = .ok p) : leafDump b (.integer s e) es (.int i) ctx all = (p, .ok ()) := by
  simp only [leafDump, hs, h, unserializableOnRange, W.ofExcept, W.ok]

theorem writeInt_size {i : Int} {m : Nat} {s : Bool} {e : Endian} {p : Bytes} (h : writeInt i m s e = .ok p) : p.length = m := by
  rw [writeInt_bytes h]
  cases e <;> simp [Endian.arrange, natToLE_length]

/-- What a successful dump of an integer is. -/
theorem integer_toStream {Γ : Classes} {n : Nat} {b : FieldBase} {s : Bool} {e : Endian} {m : Nat} (hs : b.size = .fixed m)
    (hn : b.nullValue = .undefined) {v ctx : Value} {all : Dict} {p : Bytes} :
    fieldToStream Γ n (.leaf b (.integer s e)) v ctx all = (p, .ok ()) ↔
      n ≠ 0 ∧ ∃ i, (if v = .dflt then b.default else .ok v) = .ok (.int i) ∧ (∀ c ∈ b.validators, c (.int i) = .ok ()) ∧
        writeInt i m s e = .ok p := by
  cases n with
  | zero => simp [fieldToStream, W.fail]
  | succ n =>
    have hes : leafExpectedSize b (.integer s e) all = .ok m := by simp only [leafExpectedSize, FieldBase.expectedSizeWith, hs]
    show toStreamWith b (fun v => leafDump b (.integer s e) (leafExpectedSize b (.integer s e) all) v ctx all) (leafNullRepr b (.integer s e) all)
      (leafExpectedSize b (.integer s e) all) (leafAddPadding b (.integer s e)) v = (p, .ok ()) ↔ _
    constructor
    · intro h
      obtain ⟨w, h1, h2, h3, h4, h5⟩ := toStreamWith_ok h
      rcases h5 with ⟨-, h5⟩ | ⟨h5, ser, h6, h7⟩
      · simp [leafNullRepr, FieldBase.nullReprWith, hn] at h5
      · obtain ⟨i, rfl, h8⟩ := integer_dumps hs h6
        refine ⟨by omega, i, h1, h4, ?_⟩
        rcases finishDump_ok h7 with ⟨h8, -⟩ | ⟨j, h9 | ⟨_, h9, -⟩, ⟨-, h10⟩ | ⟨-, h10⟩⟩
        · rw [hs] at h8; cases h8
        · rw [h10]; exact h8
        · cases h10
        · rw [hs] at h9; cases h9
        · rw [hs] at h9; cases h9
    · rintro ⟨-, i, h1, h2, h3⟩
      unfold toStreamWith
      rw [h1]
      simp only
      rw [if_neg (by simp), (runValidators_ok_iff _ _).2 h2]
      simp only
      rw [if_neg (by simp), integer_dumped hs h3]
      have hlen := writeInt_size h3
      simp only [W.toExcept, finishDump, hs]
      rw [if_neg (by omega), if_neg (by omega)]
      rfl

theorem part_flip {Γ : Classes} {n : Nat} {ctx : Value} {all : Dict} {X : List String} {f : Field} (hf : f.name ∈ X → ∃ m, FixedInteger m f)
    {p p' : Bytes} (h : Part Γ n ctx all f p) (h' : Part Γ n ctx all (flipField X f) p') : p' = p := by
  rw [part_iff] at h h'
  rw [base_flip] at h'
  obtain ⟨v, h1, h2⟩ := h
  obtain ⟨v', h1', h2'⟩ := h'
  rw [h1] at h1'
  cases h1'
  rcases h2 with ⟨h2, h3⟩ | ⟨h2, h3⟩ <;> rcases h2' with ⟨h2', h3'⟩ | ⟨h2', h3'⟩
  · rw [h3, h3']
  · exact absurd h2 h2'
  · exact absurd h2' h2
  · by_cases hx : f.name ∈ X
    · obtain ⟨m, hm⟩ := hf hx
      cases hm with
      | @leaf b s e hs hn _ =>
        rw [show flipField X (.leaf b (.integer s e)) = _ from flip_on hx] at h3'
        obtain ⟨-, i, h4, -, h5⟩ := (integer_toStream hs hn).1 h3
        obtain ⟨-, j, h6, -, h7⟩ := (integer_toStream hs hn).1 h3'
        rw [h4] at h6
        cases h6
        exact writeInt_same h5 h7
    · rw [flip_off hx, h3] at h3'
      cases h3'
      rfl

theorem parts_flip {Γ : Classes} {n : Nat} {ctx : Value} {all : Dict} {X : List String} {fs : List Field}
    (hf : ∀ f ∈ fs, f.name ∈ X → ∃ m, FixedInteger m f) {ps qs : List Bytes} (h : Parts Γ n ctx all fs ps)
    (h' : Parts Γ n ctx all (fs.map (flipField X)) qs) : qs = ps := by
  induction h generalizing qs with
  | nil => cases h'; rfl
  | cons h1 _ ih =>
    cases h' with
    | cons h2 h3 => rw [part_flip (hf _ List.mem_cons_self) h1 h2, ih (fun f hf' => hf f (List.mem_cons_of_mem _ hf')) h3]

theorem part_held {Γ : Classes} {n : Nat} {ctx : Value} {all : Dict} {X : List String} {f : Field} (hf : f.name ∈ X → ∃ m, FixedInteger m f)
    (hv : f.name ∈ X → ∀ m, FixedInteger m f → ∃ i, Dict.get? all f.name = some (.int i) ∧ HeldByBoth m i) {p : Bytes}
    (h : Part Γ n ctx all f p) : Part Γ n ctx all (flipField X f) p := by
  by_cases hx : f.name ∈ X
  · obtain ⟨m, hm⟩ := hf hx
    obtain ⟨i, hi, hheld⟩ := hv hx m hm
    rcases h with ⟨⟨v, h1, h2⟩, h3⟩ | ⟨v, ⟨h1, h2, h3, h4⟩, h5⟩
    · refine .inl ⟨⟨v, ?_, ?_⟩, h3⟩
      · rw [base_flip]; exact h1
      · rw [base_flip]; exact h2
    · refine .inr ⟨v, ⟨?_, h2, h3, ?_⟩, ?_⟩
      · rw [base_flip]; exact h1
      · rw [base_flip]; exact h4
      · have hvi : v = .int i := by
          have hc : (Dict.view all).contains f.base.name = true := by
            simp only [Dict.view, Dict.contains]
            rw [show List.lookup f.base.name all = _ from hi]
            rfl
          have hg : (Dict.view all).get f.base.name = .ok (.int i) := by
            simp only [Dict.view]
            rw [show Dict.get? all f.base.name = _ from hi]
          cases h1 with
          | explicit _ h6 => rw [hg] at h6; cases h6; rfl
          | default h6 => rw [hc] at h6; cases h6
          | computed h6 => rw [hc] at h6; cases h6
          | nothing h6 => rw [hc] at h6; cases h6
        subst hvi
        cases hm with
        | @leaf b s e hs hn _ =>
          rw [show flipField X (.leaf b (.integer s e)) = _ from flip_on hx]
          rw [integer_toStream hs hn] at h5 ⊢
          obtain ⟨h6, j, h7, h8, h9⟩ := h5
          simp only [reduceCtorEq, if_false, Except.ok.injEq, Value.int.injEq] at h7
          subst h7
          exact ⟨h6, i, by simp, h8, writeInt_held hheld h9⟩
  · rw [flip_off hx]
    exact h

theorem parts_held {Γ : Classes} {n : Nat} {ctx : Value} {all : Dict} {X : List String} {fs : List Field}
    (hf : ∀ f ∈ fs, f.name ∈ X → ∃ m, FixedInteger m f)
    (hv : ∀ f ∈ fs, f.name ∈ X → ∀ m, FixedInteger m f → ∃ i, Dict.get? all f.name = some (.int i) ∧ HeldByBoth m i) {ps : List Bytes}
    (h : Parts Γ n ctx all fs ps) : Parts Γ n ctx all (fs.map (flipField X)) ps := by
  induction h with
  | nil => exact .nil
  | cons h1 _ ih =>
    exact .cons (part_held (hf _ List.mem_cons_self) (hv _ List.mem_cons_self) h1)
      (ih (fun f hf' => hf f (List.mem_cons_of_mem _ hf')) fun f hf' => hv f (List.mem_cons_of_mem _ hf'))

/-! ### Loading -/

theorem intOfBytes_held {m : Nat} {data : Bytes} {e : Endian} {s s' : Bool} (hm : data.length = m) (h : HeldByBoth m (intOfBytes data e s)) :
    intOfBytes data e s' = intOfBytes data e s := by
  have hlt : natOfLE (e.arrange data) < 2 ^ (8 * m) := by
    have := natOfLE_lt (e.arrange data)
    rwa [show (e.arrange data).length = m by cases e <;> simp [Endian.arrange, hm]] at this
  have hlt' : (natOfLE (e.arrange data) : Int) < 2 ^ (8 * m) := by exact_mod_cast hlt
  obtain ⟨h1, h2⟩ := h
  have hno : ∀ s, intOfBytes data e s = natOfLE (e.arrange data) ∨ (2 ^ (8 * m) ≤ 2 * natOfLE (e.arrange data) ∧
      intOfBytes data e s = natOfLE (e.arrange data) - 2 ^ (8 * m)) := by
    intro s
    unfold intOfBytes
    simp only [hm]
    split
    · rename_i hc
      simp only [Bool.and_eq_true, decide_eq_true_eq] at hc
      exact .inr ⟨hc.1.2, rfl⟩
    · exact .inl rfl
  rcases hno s with h3 | ⟨-, h3⟩
  · rcases hno s' with h4 | ⟨h4, -⟩
    · rw [h3, h4]
    · have h5 : (2 ^ (8 * m) : Int) ≤ 2 * natOfLE (e.arrange data) := by exact_mod_cast h4
      omega
  · omega

theorem integer_load_flip {Γ : Classes} {n : Nat} {b : FieldBase} {s : Bool} {e : Endian} {m : Nat} (hs : b.size = .fixed m)
    (hn : b.nullValue = .undefined) {S t : Stream} {ctx : Value} {a : Dict} {v : Value}
    (h : fieldFromStream Γ n (.leaf b (.integer s e)) S ctx a = (.ok v, t)) (hv : ∀ i, v = .int i → HeldByBoth m i) :
    fieldFromStream Γ n (.leaf b (.integer (!s) e)) S ctx a = (.ok v, t) := by
  have hal : b.allowNull = false := by simp [FieldBase.allowNull, hn]
  cases n with
  | zero => simp [fieldFromStream] at h
  | succ n =>
    simp only [fieldFromStream, fromStreamWith, Field.base, hal, Bool.false_eq_true, if_false] at h ⊢
    cases hp : b.present (Dict.view a) ctx (some S) with
    | error e => simp [hp] at h
    | ok c =>
      cases c with
      | false => simpa only [hp] using h
      | true =>
        simp only [hp] at h ⊢
        cases n with
        | zero => simp [loadAndFinish, fieldDoLoad] at h
        | succ n =>
          simp only [loadAndFinish, fieldDoLoad, leafLoad, hs, readInt] at h ⊢
          by_cases hlt : ((S.read m).1.length : Int) < m
          · simp only [hlt, if_true, R.map] at h
            simp [Except.map] at h
          · have hlen : (S.read m).1.length = m := by
              rw [Stream.read_nat] at hlt ⊢
              simp only [List.length_take] at hlt ⊢
              omega
            simp only [hlt, if_false, R.map, Except.map, Prod.mk.injEq] at h ⊢
            obtain ⟨h1, h2⟩ := h
            have h3 := (finishLoad_ok h1).1
            simp only [hal, Bool.false_eq_true, false_and, and_false, or_false] at h3
            rw [intOfBytes_held hlen (hv _ h3)]
            exact ⟨h1, h2⟩

theorem loads_flip {Γ : Classes} {n : Nat} {ctx : Value} {X : List String} {fs : List Field} (hf : ∀ f ∈ fs, f.name ∈ X → ∃ m, FixedInteger m f)
    (hn : (fs.map Field.name).Nodup) {acc r : Dict} {s t : Stream} (ha : ∀ f ∈ fs, Dict.get? acc f.name = none)
    (h : Loads Γ n ctx fs acc s r t)
    (hv : ∀ f ∈ fs, f.name ∈ X → ∀ m, FixedInteger m f → ∀ i, Dict.get? r f.name = some (.int i) → HeldByBoth m i) :
    Loads Γ n ctx (fs.map (flipField X)) acc s r t := by
  induction h with
  | nil => exact .nil _ _
  | @cons f fs acc r v s s1 s2 h1 h2 ih =>
    rw [List.map_cons, List.nodup_cons] at hn
    have hnone := ha f List.mem_cons_self
    have hne : ∀ g ∈ fs, g.name ≠ f.name := fun g hg he => hn.1 (he ▸ List.mem_map.2 ⟨g, hg, rfl⟩)
    have hr : Dict.get? r f.name = some v := by
      rw [loads_frame h2 hn.1, if_pos hnone, ← set_of_not_mem hnone, Dict.get?_set]
      simp
    rw [List.map_cons]
    refine .cons (v := v) (s1 := s1) ?_ ?_
    · by_cases hx : f.name ∈ X
      · obtain ⟨m, hm⟩ := hf f List.mem_cons_self hx
        have hv' := hv f List.mem_cons_self hx m hm
        cases hm with
        | @leaf b sg e hs hnull _ =>
          rw [show flipField X (.leaf b (.integer sg e)) = _ from flip_on hx]
          exact integer_load_flip hs hnull h1 fun i hi => hv' i (by rw [hr, hi])
      · rw [flip_off hx]
        exact h1
    · rw [name_flip]
      refine ih (fun g hg => hf g (List.mem_cons_of_mem _ hg)) hn.2 (fun g hg => ?_) fun g hg => hv g (List.mem_cons_of_mem _ hg)
      rw [if_pos hnone, ← set_of_not_mem hnone, Dict.get?_set, if_neg (fun he => hne g hg he.symm)]
      exact ha g (List.mem_cons_of_mem _ hg)

end Verif
