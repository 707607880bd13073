import Verif.Spec.Recode
import Verif.Proofs.Turn

/-! Helper lemmas: the encoding of texts. -/

namespace Verif
open Spec

theorem base_recode (X : List String) (k' : CharCodec) (f : Field) : (recodeField X k' f).base = f.base := by
  cases f with
  | leaf b k =>
    show (if b.name ∈ X then Field.leaf b (recodeKind k' k) else .leaf b k).base = b
    split <;> rfl
  | _ => rfl

theorem name_recode (X : List String) (k' : CharCodec) (f : Field) : (recodeField X k' f).name = f.name :=
  congrArg FieldBase.name (base_recode X k' f)

theorem recode_off {X : List String} {k' : CharCodec} {f : Field} (h : f.name ∉ X) : recodeField X k' f = f := by
  cases f with
  | leaf b k => exact if_neg h
  | _ => rfl

theorem recode_on {X : List String} {k' : CharCodec} {b : FieldBase} {l : Leaf} (h : b.name ∈ X) :
    recodeField X k' (.leaf b l) = .leaf b (recodeKind k' l) := if_pos h

/-! ### Codecs -/

theorem encode_widens {k k' : CharCodec} (hk : Widens k k') : ∀ {s : List Nat} {p : Bytes}, k.encode s = .ok p → k'.encode s = .ok p
  | [], _, h => h
  | c :: cs, p, h => by
    unfold CharCodec.encode at h ⊢
    cases hc : k.enc c with
    | none => simp [hc] at h
    | some b =>
      rw [hc] at h
      rw [hk.enc c b hc]
      simp only at h ⊢
      cases hr : k.encode cs with
      | error e => simp [hr] at h
      | ok bs => rw [hr] at h; rw [encode_widens hk hr]; exact h

theorem encode_unicode {k : CharCodec} : ∀ {s : List Nat} {e : Err}, k.encode s = .error e → e = .unicodeErr
  | [], _, h => by simp [CharCodec.encode] at h
  | c :: cs, e, h => by
    unfold CharCodec.encode at h
    cases hc : k.enc c with
    | none => simp [hc] at h; exact h.symm
    | some b =>
      simp only [hc] at h
      cases hr : k.encode cs with
      | error e' => simp only [hr, Except.error.injEq] at h; exact h ▸ encode_unicode hr
      | ok bs => simp [hr] at h

theorem decodeSome_widens {k k' : CharCodec} (hk : Widens k k') :
    ∀ {n : Nat} {b : Bytes} {r : List Nat × Bytes}, k.decodeSome n b = .ok r → k'.decodeSome n b = .ok r
  | _, [], _, h => by simpa [CharCodec.decodeSome] using h
  | 0, x :: b, _, h => by simpa [CharCodec.decodeSome] using h
  | n + 1, x :: b, r, h => by
    unfold CharCodec.decodeSome at h ⊢
    cases hd : k.dec (x :: b) with
    | bad => simp [hd] at h
    | more => rw [hd] at h; rw [hk.more _ hd]; exact h
    | char c m =>
      rw [hd] at h
      rw [hk.char _ _ _ hd]
      simp only at h ⊢
      cases hr : k.decodeSome n ((x :: b).drop m) with
      | error e => simp [hr] at h
      | ok q => rw [hr] at h; rw [decodeSome_widens hk hr]; exact h

theorem feed_widens {k k' : CharCodec} (hk : Widens k k') {b : Bytes} {r : List Nat × Bytes} (h : k.feed b = .ok r) : k'.feed b = .ok r :=
  decodeSome_widens hk h

theorem decode_widens {k k' : CharCodec} (hk : Widens k k') {b : Bytes} {s : List Nat} (h : k.decode b = .ok s) : k'.decode b = .ok s := by
  unfold CharCodec.decode at h ⊢
  cases hf : k.feed b with
  | error e => simp [hf] at h
  | ok r => rw [hf] at h; rw [feed_widens hk hf]; exact h

theorem stringzLoop_widens {k k' : CharCodec} (hk : Widens k k') {name : String} {mx : Option Int} {fuel : Nat} :
    ∀ {i : Nat} {buf : Bytes} {acc s : List Nat} {S t : Stream}, stringzLoop name k mx fuel i buf acc S = (.ok s, t) →
      stringzLoop name k' mx fuel i buf acc S = (.ok s, t) := by
  induction fuel with
  | zero =>
    intro i buf acc s S t h
    unfold stringzLoop at h ⊢
    cases mx with
    | none =>
      simp only [Bool.false_eq_true, if_false] at h ⊢
      split at h
      · split at h <;> simp at h
      · split at h
        · simp at h
        · rename_i hf
          rw [feed_widens hk hf]
          exact h
    | some m =>
      simp only [decide_eq_true_eq] at h ⊢
      by_cases hs : (i : Int) ≥ m
      · rw [if_pos hs] at h
        split at h <;> simp at h
      · rw [if_neg hs] at h ⊢
        split at h
        · split at h <;> simp at h
        · split at h
          · simp at h
          · rename_i hf
            rw [feed_widens hk hf]
            exact h
  | succ fuel ih =>
    intro i buf acc s S t h
    unfold stringzLoop at h ⊢
    cases mx with
    | none =>
      simp only [Bool.false_eq_true, if_false] at h ⊢
      split at h
      · split at h <;> simp at h
      · split at h
        · simp at h
        · rename_i hf
          rw [feed_widens hk hf]
          simp only
          split at h
          · rename_i h0; rw [if_pos h0]; exact h
          · rename_i h0; rw [if_neg h0]; exact ih h
    | some m =>
      simp only [decide_eq_true_eq] at h ⊢
      by_cases hs : (i : Int) ≥ m
      · rw [if_pos hs] at h
        split at h <;> simp at h
      · rw [if_neg hs] at h ⊢
        split at h
        · split at h <;> simp at h
        · split at h
          · simp at h
          · rename_i hf
            rw [feed_widens hk hf]
            simp only
            split at h
            · rename_i h0; rw [if_pos h0]; exact h
            · rename_i h0; rw [if_neg h0]; exact ih h

/-! ### Fields -/

/-- The kinds of field in question. -/
inductive TextKind (k : CharCodec) : Leaf → Prop where
  | string (pad : Option UInt8) : TextKind k (.string k pad)
  | stringz (pad : Option UInt8) : TextKind k (.stringz k pad)

theorem textIn_kind {k : CharCodec} {f : Field} (h : TextIn k f) : ∃ b l, f = .leaf b l ∧ TextKind k l ∧ b.nullValue = .undefined := by
  cases h with
  | string h => exact ⟨_, _, rfl, .string _, h⟩
  | stringz h => exact ⟨_, _, rfl, .stringz _, h⟩

theorem sizeForValue_recode {k k' : CharCodec} (hk : Widens k k') {b : FieldBase} {l : Leaf} (hl : TextKind k l) (v : Value) :
    leafSizeForValue b (recodeKind k' l) v = leafSizeForValue b l v ∨ leafSizeForValue b l v = .error .unicodeErr := by
  cases hl with
  | string pad =>
    cases v with
    | str s =>
      simp only [leafSizeForValue, recodeKind]
      cases he : k.encode s with
      | error e => rw [encode_unicode he]; exact .inr rfl
      | ok p => rw [encode_widens hk he]; exact .inl rfl
    | _ => exact .inl rfl
  | stringz pad =>
    cases v with
    | str s =>
      simp only [leafSizeForValue, recodeKind]
      cases he : k.encode (s ++ [0]) with
      | error e => rw [encode_unicode he]; exact .inr rfl
      | ok p => rw [encode_widens hk he]; exact .inl rfl
    | _ => exact .inl rfl

theorem expectedSize_recode {k k' : CharCodec} (hk : Widens k k') {b : FieldBase} {l : Leaf} (hl : TextKind k l)
    (hn : b.nullValue = .undefined) (all : Dict) :
    leafExpectedSize b (recodeKind k' l) all = leafExpectedSize b l all ∨ leafExpectedSize b l all = .error .unicodeErr := by
  simp only [leafExpectedSize]
  have hnull : ∀ g g' e, b.nullReprWith g e = b.nullReprWith g' e := fun g g' e => by simp only [FieldBase.nullReprWith, hn]
  rw [hnull (fun v => leafDump b (recodeKind k' l) (.error (.buggyField b.name)) v .none all)
    (fun v => leafDump b l (.error (.buggyField b.name)) v .none all)]
  unfold FieldBase.expectedSizeWith
  cases b.size with
  | fixed n => exact .inl rfl
  | ref n => exact .inl rfl
  | none =>
    simp only
    cases b.sizingValue all with
    | error e => exact .inl rfl
    | ok v =>
      by_cases hv : v = .none
      · subst hv; exact .inl rfl
      · rcases sizeForValue_recode (b := b) hk hl v with h | h
        · left
          cases v <;> first | exact absurd rfl hv | simp only [h]
        · right
          cases v <;> first | exact absurd rfl hv | simp only [h]

theorem leafDump_recode {k k' : CharCodec} (hk : Widens k k') {b : FieldBase} {l : Leaf} (hl : TextKind k l) {es es' : Except Err Int}
    (he : es' = es ∨ es = .error .unicodeErr) {v ctx : Value} {all : Dict} {p : Bytes} (h : leafDump b l es v ctx all = (p, .ok ())) :
    leafDump b (recodeKind k' l) es' v ctx all = (p, .ok ()) := by
  cases hl with
  | string pad =>
    cases v with
    | str s =>
      simp only [leafDump, recodeKind, encodeAndResize] at h ⊢
      cases hc : k.encode s with
      | error e => simp [hc, W.ofExcept, W.fail] at h
      | ok q =>
        rw [hc] at h
        rw [encode_widens hk hc]
        rcases he with rfl | rfl
        · exact h
        · simp [W.ofExcept, W.fail] at h
    | _ => simp [leafDump, W.fail] at h
  | stringz pad =>
    cases v with
    | str s =>
      simp only [leafDump, recodeKind] at h ⊢
      cases hc : k.encode (s ++ [0]) with
      | error e => simp [hc, W.ofExcept, W.fail] at h
      | ok q => rw [hc] at h; rw [encode_widens hk hc]; exact h
    | _ => simp [leafDump, W.fail] at h

theorem text_toStream {Γ : Classes} {n : Nat} {k k' : CharCodec} (hk : Widens k k') {b : FieldBase} {l : Leaf} (hl : TextKind k l)
    (hn : b.nullValue = .undefined) {v ctx : Value} {all : Dict} {p : Bytes} (h : fieldToStream Γ n (.leaf b l) v ctx all = (p, .ok ())) :
    fieldToStream Γ n (.leaf b (recodeKind k' l)) v ctx all = (p, .ok ()) := by
  cases n with
  | zero => simp [fieldToStream, W.fail] at h
  | succ n =>
    have hes := expectedSize_recode hk hl hn all
    have hpad : leafAddPadding b (recodeKind k' l) = leafAddPadding b l := by cases hl <;> rfl
    change toStreamWith b (fun v => leafDump b l (leafExpectedSize b l all) v ctx all) (leafNullRepr b l all) (leafExpectedSize b l all)
      (leafAddPadding b l) v = (p, .ok ()) at h
    show toStreamWith b (fun v => leafDump b (recodeKind k' l) (leafExpectedSize b (recodeKind k' l) all) v ctx all)
      (leafNullRepr b (recodeKind k' l) all) (leafExpectedSize b (recodeKind k' l) all) (leafAddPadding b (recodeKind k' l)) v = (p, .ok ())
    obtain ⟨w, h1, h2, h3, h4, h5⟩ := toStreamWith_ok h
    rcases h5 with ⟨-, h5⟩ | ⟨h5, ser, h6, h7⟩
    · simp [leafNullRepr, FieldBase.nullReprWith, hn] at h5
    · unfold toStreamWith
      rw [h1]
      simp only
      rw [if_neg (by simp [h2, h3]), (runValidators_ok_iff _ _).2 h4]
      simp only
      rw [if_neg h5, leafDump_recode hk hl hes h6, hpad]
      simp only [W.toExcept]
      unfold finishDump at h7 ⊢
      cases hs : b.size with
      | none => simpa only [hs] using h7
      | fixed m => simpa only [hs] using h7
      | ref m =>
        rcases hes with hes | hes
        · rw [hes]; simpa only [hs] using h7
        · have : leafExpectedSize b (recodeKind k' l) all = leafExpectedSize b l all := by
            simp only [leafExpectedSize, FieldBase.expectedSizeWith, hs]
          rw [this]; simpa only [hs] using h7

theorem part_recode {Γ : Classes} {n : Nat} {ctx : Value} {all : Dict} {X : List String} {k' : CharCodec} {f : Field}
    (hf : f.name ∈ X → ∃ k, TextIn k f ∧ Widens k k') {p : Bytes} (h : Part Γ n ctx all f p) : Part Γ n ctx all (recodeField X k' f) p := by
  rw [part_iff] at h ⊢
  rw [base_recode]
  obtain ⟨v, h1, h2⟩ := h
  refine ⟨v, h1, h2.imp_right fun ⟨h3, h4⟩ => ⟨h3, ?_⟩⟩
  by_cases hx : f.name ∈ X
  · obtain ⟨k, ht, hk⟩ := hf hx
    obtain ⟨b, l, rfl, hl, hn⟩ := textIn_kind ht
    rw [show recodeField X k' (.leaf b l) = _ from recode_on hx]
    exact text_toStream hk hl hn h4
  · rw [recode_off hx]
    exact h4

theorem parts_recode {Γ : Classes} {n : Nat} {ctx : Value} {all : Dict} {X : List String} {k' : CharCodec} {fs : List Field}
    (hf : ∀ f ∈ fs, f.name ∈ X → ∃ k, TextIn k f ∧ Widens k k') {ps : List Bytes} (h : Parts Γ n ctx all fs ps) :
    Parts Γ n ctx all (fs.map (recodeField X k')) ps := by
  induction h with
  | nil => exact .nil
  | cons h1 _ ih => exact .cons (part_recode (hf _ List.mem_cons_self) h1) (ih fun f hf' => hf f (List.mem_cons_of_mem _ hf'))

/-! ### Loading -/

theorem leafLoad_recode {k k' : CharCodec} (hk : Widens k k') {b : FieldBase} {l : Leaf} (hl : TextKind k l) {es es' : Except Err Int}
    (he : es' = es ∨ es = .error .unicodeErr) {S t : Stream} {ctx v : Value} {a : Dict} (h : leafLoad b l es S ctx a = (.ok v, t)) :
    leafLoad b (recodeKind k' l) es' S ctx a = (.ok v, t) := by
  cases hl with
  | string pad =>
    rcases he with rfl | rfl
    · simp only [leafLoad, recodeKind] at h ⊢
      cases hr : readExactSize b.name es' S with
      | mk r s1 =>
        rw [hr] at h
        cases r with
        | error e => simp [R.andThen, Except.bind] at h
        | ok data =>
          simp only [R.andThen, Except.bind, Prod.mk.injEq] at h ⊢
          refine ⟨?_, h.2⟩
          cases hd : k.decode data with
          | error e => rw [hd] at h; simp [Except.map] at h
          | ok s => rw [hd] at h; rw [decode_widens hk hd]; exact h.1
    · simp [leafLoad, readExactSize, R.andThen, Except.bind] at h
  | stringz pad =>
    have key : ∀ mx, R.map (stringzLoop b.name k mx S.rest.length 0 [] [] S) .str = (.ok v, t) →
        R.map (stringzLoop b.name k' mx S.rest.length 0 [] [] S) .str = (.ok v, t) := by
      intro mx hm
      cases hr : stringzLoop b.name k mx S.rest.length 0 [] [] S with
      | mk r s1 =>
        rw [hr] at hm
        cases r with
        | error e => simp [R.map, Except.map] at hm
        | ok s => rw [stringzLoop_widens hk hr]; exact hm
    rcases he with rfl | rfl
    · simp only [leafLoad, recodeKind] at h ⊢
      split at h
      · exact key _ h
      · exact key _ h
      · simp at h
    · simp [leafLoad] at h

theorem text_fromStream {Γ : Classes} {n : Nat} {k k' : CharCodec} (hk : Widens k k') {b : FieldBase} {l : Leaf} (hl : TextKind k l)
    (hn : b.nullValue = .undefined) {S t : Stream} {ctx : Value} {a : Dict} {v : Value}
    (h : fieldFromStream Γ n (.leaf b l) S ctx a = (.ok v, t)) : fieldFromStream Γ n (.leaf b (recodeKind k' l)) S ctx a = (.ok v, t) := by
  have hal : b.allowNull = false := by simp [FieldBase.allowNull, hn]
  cases n with
  | zero => simp [fieldFromStream] at h
  | succ n =>
    simp only [fieldFromStream, fromStreamWith, Field.base, hal, Bool.false_eq_true, if_false] at h ⊢
    cases hp : b.present (Dict.view a) ctx (some S) with
    | error e => simp [hp] at h
    | ok c =>
      cases c with
      | false => simpa only [hp] using h
      | true =>
        simp only [hp] at h ⊢
        cases n with
        | zero => simp [loadAndFinish, fieldDoLoad] at h
        | succ n =>
          simp only [loadAndFinish, fieldDoLoad] at h ⊢
          cases hr : leafLoad b l (leafExpectedSize b l a) S ctx a with
          | mk r s1 =>
            rw [hr] at h
            cases r with
            | error e => simp at h
            | ok w => rw [leafLoad_recode hk hl (expectedSize_recode hk hl hn a) hr]; exact h

theorem loads_recode {Γ : Classes} {n : Nat} {ctx : Value} {X : List String} {k' : CharCodec} {fs : List Field}
    (hf : ∀ f ∈ fs, f.name ∈ X → ∃ k, TextIn k f ∧ Widens k k') {acc r : Dict} {s t : Stream} (h : Loads Γ n ctx fs acc s r t) :
    Loads Γ n ctx (fs.map (recodeField X k')) acc s r t := by
  induction h with
  | nil => exact .nil _ _
  | @cons f fs acc r v s s1 s2 h1 h2 ih =>
    rw [List.map_cons]
    refine .cons (v := v) (s1 := s1) ?_ ?_
    · by_cases hx : f.name ∈ X
      · obtain ⟨k, ht, hk⟩ := hf f List.mem_cons_self hx
        obtain ⟨b, l, rfl, hl, hn⟩ := textIn_kind ht
        rw [show recodeField X k' (.leaf b l) = _ from recode_on hx]
        exact text_fromStream hk hl hn h1
      · rw [recode_off hx]
        exact h1
    · rw [name_recode]
      exact ih fun g hg => hf g (List.mem_cons_of_mem _ hg)

end Verif
