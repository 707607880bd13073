import Verif.Spec.Turn
import Verif.Proofs.Append
import Verif.Proofs.Permute
import Verif.Proofs.Unroll

/-! Helper lemmas: the other byte order. -/

namespace Verif
open Spec

theorem base_turn (X : List String) (f : Field) : (turnField X f).base = f.base := by
  cases f with
  | leaf b k =>
    show (if b.name ∈ X then Field.leaf b (turnKind k) else .leaf b k).base = b
    split <;> rfl
  | _ => rfl

theorem name_turn (X : List String) (f : Field) : (turnField X f).name = f.name := congrArg FieldBase.name (base_turn X f)

theorem turn_off {X : List String} {f : Field} (h : f.name ∉ X) : turnField X f = f := by
  cases f with
  | leaf b k => exact if_neg h
  | _ => rfl

theorem turn_on {X : List String} {b : FieldBase} {k : Leaf} (h : b.name ∈ X) : turnField X (.leaf b k) = .leaf b (turnKind k) := if_pos h

/-! ### Dumping -/

section
variable {d d' : StructDesc} {φ : Field → Field} (hd : d'.components = d.components.map φ) (hφ : ∀ f, (φ f).base = f.base)
include hd hφ

theorem find?_mapped (k : String) : d'.find? k = (d.find? k).map φ := by
  simp only [StructDesc.find?, hd, List.find?_map]
  congr 2
  funext f
  have hn : (φ f).name = f.name := congrArg FieldBase.name (hφ f)
  simp only [Function.comp, hn]

theorem structGet_mapped (vals : Dict) (n : Nat) : structGet d' vals n = structGet d vals n := by
  induction n with
  | zero => rfl
  | succ n ih =>
    funext y
    simp only [structGet, find?_mapped hd hφ, ih]
    cases d.find? y with
    | none => rfl
    | some f => simp [hφ]

theorem structGetItem_mapped (vals : Dict) : structGetItem d' vals = structGetItem d vals := by
  funext y
  simp only [structGetItem, structGet_mapped hd hφ, hd, List.length_map]

theorem structView_mapped (vals : Dict) : structView d' vals = structView d vals := by
  simp only [structView, structGetItem_mapped hd hφ]

theorem whateverPossible_mapped (vals : Dict) : whateverPossible d' vals = whateverPossible d vals := by
  have h1 : ∀ fs acc, whateverLoop d' vals (fs.map φ) acc = whateverLoop d vals fs acc := by
    intro fs
    induction fs with
    | nil => intros; rfl
    | cons f fs ih =>
      intro acc
      simp only [List.map_cons, whateverLoop, Field.name, hφ, structView_mapped hd hφ, ih]
  have h2 : ∀ dct ks, chainLoop d' vals dct ks = chainLoop d vals dct ks := by
    intro dct ks
    induction ks with
    | nil => rfl
    | cons k ks ih => simp only [chainLoop, ih, structGetItem_mapped hd hφ]
  simp only [whateverPossible, hd, h1, h2]

/-- `to_dict` depends on the attributes all fields have, not on their types. -/
theorem structToDict_mapped (Γ : Classes) (n : Nat) (vals : Dict) (keep : Bool) : structToDict Γ n d' vals keep = structToDict Γ n d vals keep := by
  have h1 : ∀ dct fs, missingLoop dct (fs.map φ) = missingLoop dct fs := by
    intro dct fs
    induction fs with
    | nil => rfl
    | cons f fs ih =>
      have hn : (φ f).name = f.name := congrArg FieldBase.name (hφ f)
      simp only [List.map_cons, missingLoop, hn, hφ, ih]
  have h2 : ∀ (fs : List Field) (dct : Dict),
      ((fs.map φ).filter (·.base.discard)).foldl (fun dct f => Dict.erase dct f.name) dct =
        (fs.filter (·.base.discard)).foldl (fun dct f => Dict.erase dct f.name) dct := by
    intro fs
    induction fs with
    | nil => intro; rfl
    | cons f fs ih =>
      intro dct
      simp only [List.map_cons, List.filter_cons, hφ]
      split
      · simp only [List.foldl_cons, Field.name, hφ]
        exact ih _
      · exact ih dct
  simp only [structToDict, toDictShallow, whateverPossible_mapped hd hφ, hd, h1, h2]

end

theorem arrange_other (e : Endian) (x : Bytes) : (otherEnd e).arrange x = (e.arrange x).reverse := by
  cases e <;> simp [otherEnd, Endian.arrange]

theorem writeInt_other (v n : Int) (signed : Bool) (e : Endian) :
    writeInt v n signed (otherEnd e) = (writeInt v n signed e).map List.reverse := by
  simp only [writeInt, intToBytes, arrange_other]
  repeat' split
  all_goals rfl

theorem floatPack_other (fmt : FloatFmt) (e : Endian) (bits : Nat) : floatPack fmt (otherEnd e) bits = (floatPack fmt e bits).map List.reverse := by
  simp only [floatPack, arrange_other, Option.map_map]
  rfl

theorem leafDump_turn {b : FieldBase} {k : Leaf} (hk : HasByteOrder k) {es : Except Err Int} {v ctx : Value} {all : Dict} {p : Bytes}
    (h : leafDump b k es v ctx all = (p, .ok ())) : leafDump b (turnKind k) es v ctx all = (p.reverse, .ok ()) := by
  have hw : ∀ (i n : Int) (signed : Bool) (e : Endian), W.ofExcept (unserializableOnRange b.name (writeInt i n signed e)) = (p, .ok ()) →
      W.ofExcept (unserializableOnRange b.name (writeInt i n signed (otherEnd e))) = (p.reverse, .ok ()) := by
    intro i n signed e h
    rw [writeInt_other]
    cases h1 : writeInt i n signed e with
    | ok x =>
      rw [h1] at h
      simp only [unserializableOnRange, W.ofExcept, W.ok, Prod.mk.injEq] at h
      rw [← h.1]
      rfl
    | error e =>
      rw [h1] at h
      simp only [unserializableOnRange] at h
      split at h <;> simp [W.ofExcept, W.fail] at h
  have hf : ∀ (fmt : FloatFmt) (e : Endian) (bits : Nat),
      (match floatPack fmt e bits with | some bs => W.ok bs | none => W.fail .overflowErr) = (p, .ok ()) →
      (match floatPack fmt (otherEnd e) bits with | some bs => W.ok bs | none => W.fail .overflowErr) = (p.reverse, .ok ()) := by
    intro fmt e bits h
    rw [floatPack_other]
    cases h1 : floatPack fmt e bits with
    | none => rw [h1] at h; simp [W.fail] at h
    | some x =>
      rw [h1] at h
      simp only [W.ok, Prod.mk.injEq] at h
      rw [← h.1]
      rfl
  cases k <;> try exact hk.elim
  · simp only [turnKind, leafDump] at h ⊢
    cases v <;> first
      | exact hf _ _ _ h
      | (simp only at h ⊢
         rename_i i
         cases h2 : floatOfInt i with
         | none => rw [h2] at h; simp [W.fail] at h
         | some bits => rw [h2] at h; exact hf _ _ _ h)
      | (simp [W.fail] at h)
  · simp only [turnKind, leafDump] at h ⊢
    cases hs : b.size <;> rw [hs] at h
    case fixed => cases v <;> first | exact hw _ _ _ _ h | (simp [W.fail] at h)
    all_goals simp [W.fail] at h
  · simp only [turnKind, leafDump] at h ⊢
    cases v <;> try (simp [W.fail] at h)
    rename_i us aware
    simp only at h ⊢
    split at h
    · simp at h
    · split at h
      · simp at h
      · exact hw _ _ _ _ h

/-- A number in the other byte order is dumped as the same bytes in the opposite order. -/
theorem number_dump_turn {Γ : Classes} {n : Nat} {b : FieldBase} {k : Leaf} {m : Nat} (hk : HasByteOrder k) (hs : b.size = .fixed m)
    (hn : b.nullValue = .undefined) {v ctx : Value} {all : Dict} {p : Bytes} (h : fieldToStream Γ n (.leaf b k) v ctx all = (p, .ok ())) :
    fieldToStream Γ n (.leaf b (turnKind k)) v ctx all = (p.reverse, .ok ()) := by
  cases n with
  | zero => simp [fieldToStream, W.fail] at h
  | succ n =>
    have hes : ∀ k, leafExpectedSize b k all = .ok m := fun k => by simp only [leafExpectedSize, FieldBase.expectedSizeWith, hs]
    have hpad : ∀ x y, leafAddPadding b k x y = .error (.valueSize b.name) := fun x y => by
      cases k <;> first | exact hk.elim | rfl
    have h' : toStreamWith b (fun v => leafDump b k (leafExpectedSize b k all) v ctx all) (leafNullRepr b k all) (leafExpectedSize b k all)
      (leafAddPadding b k) v = (p, .ok ()) := h
    show toStreamWith b (fun v => leafDump b (turnKind k) (leafExpectedSize b (turnKind k) all) v ctx all) (leafNullRepr b (turnKind k) all)
      (leafExpectedSize b (turnKind k) all) (leafAddPadding b (turnKind k)) v = (p.reverse, .ok ())
    obtain ⟨w, h1, h2, h3, h4, h5⟩ := toStreamWith_ok h'
    rcases h5 with ⟨-, h5⟩ | ⟨h5, ser, h6, h7⟩
    · simp [leafNullRepr, FieldBase.nullReprWith, hn] at h5
    · have hp : (ser.length : Int) = m ∧ p = ser := by
        rcases finishDump_ok h7 with ⟨h8, -⟩ | ⟨j, h8 | ⟨_, h8, -⟩, ⟨h9, h10⟩ | ⟨-, h9⟩⟩
        · rw [hs] at h8; cases h8
        · rw [hs] at h8; cases h8; exact ⟨h9, h10⟩
        · rw [hpad] at h9; cases h9
        · rw [hs] at h8; cases h8
        · rw [hs] at h8; cases h8
      obtain ⟨hlen, rfl⟩ := hp
      rw [hes] at h6 ⊢
      have h8 := leafDump_turn hk h6
      unfold toStreamWith
      rw [h1]
      simp only
      rw [if_neg (by simp [h2, h3]), (runValidators_ok_iff _ _).2 h4]
      simp only
      rw [if_neg h5, h8]
      simp only [W.toExcept, finishDump, hs, List.length_reverse]
      rw [if_neg (by omega), if_neg (by omega)]
      rfl

theorem part_turn {Γ : Classes} {n : Nat} {ctx : Value} {all : Dict} {X : List String} {f : Field} (hf : f.name ∈ X → FixedNumber f)
    {part : String → Bytes} (h : Part Γ n ctx all f (part f.name)) : Part Γ n ctx all (turnField X f) (turnParts X part (turnField X f).name) := by
  rw [name_turn]
  by_cases hx : f.name ∈ X
  · cases hf hx with
    | @leaf b k m hk hs hn =>
      rw [show turnField X (.leaf b k) = .leaf b (turnKind k) from turn_on hx, turnParts, if_pos hx]
      rw [part_iff] at h ⊢
      obtain ⟨v, h1, h2⟩ := h
      refine ⟨v, h1, ?_⟩
      rcases h2 with ⟨h2, h3⟩ | ⟨h2, h3⟩
      · exact .inl ⟨h2, by rw [h3]; rfl⟩
      · exact .inr ⟨h2, number_dump_turn hk hs hn h3⟩
  · rw [turn_off hx, turnParts, if_neg hx]
    exact h

/-! ### Loading -/

theorem arrange_turned (e : Endian) (x : Bytes) : (otherEnd e).arrange x.reverse = e.arrange x := by
  cases e <;> simp [otherEnd, Endian.arrange]

/-- The value of the bytes of a number. -/
def numberOf (name : String) (k : Leaf) (data : Bytes) : Except Err Value :=
  match k with
  | .float fmt e => if data.length = fmt.bytes then .ok (.float (floatUnpack fmt e data)) else .error (.deser (some name))
  | .integer signed e => .ok (.int (intOfBytes data e signed))
  | .timestamp res aware signed e => (tsLoad res aware (intOfBytes data e signed)).map fun us => .datetime us aware
  | _ => .ok .none

theorem numberOf_turn {name : String} {k : Leaf} (hk : HasByteOrder k) (q : Bytes) : numberOf name (turnKind k) q.reverse = numberOf name k q := by
  cases k <;> first
    | exact hk.elim
    | simp only [turnKind, numberOf, intOfBytes, floatUnpack, arrange_turned, List.length_reverse, List.isEmpty_reverse]

theorem byteOrder_turn {k : Leaf} (hk : HasByteOrder k) : HasByteOrder (turnKind k) := by
  cases k <;> first | exact hk.elim | trivial

theorem number_load {b : FieldBase} {k : Leaf} (hk : HasByteOrder k) {m : Nat} (hs : b.size = .fixed m) (s : Stream) (ctx : Value) (a : Dict) :
    ∃ e, leafLoad b k (.ok m) s ctx a =
      if ((s.read m).1.length : Int) < m then (.error e, (s.read m).2) else (numberOf b.name k (s.read m).1, (s.read m).2) := by
  cases k <;> try exact hk.elim
  · refine ⟨.eof (some b.name) m s.tell, ?_⟩
    simp only [leafLoad, readExactSize]
    split <;> rfl
  · refine ⟨.eof none m s.tell, ?_⟩
    simp only [leafLoad, hs, readInt]
    split <;> rfl
  · refine ⟨.eof none m s.tell, ?_⟩
    simp only [leafLoad, readInt]
    split <;> rfl

theorem read_between (pre q post : Bytes) :
    Stream.read ⟨pre ++ q ++ post, pre.length⟩ (q.length : Int) = (q, ⟨pre ++ q ++ post, pre.length + q.length⟩) := by
  rw [Stream.read_nat]
  simp [Stream.rest]

theorem number_between {b : FieldBase} {k : Leaf} (hk : HasByteOrder k) {m : Nat} (hs : b.size = .fixed m) (pre q post : Bytes) (hq : q.length = m)
    (ctx : Value) (a : Dict) :
    leafLoad b k (.ok m) ⟨pre ++ q ++ post, pre.length⟩ ctx a = (numberOf b.name k q, ⟨pre ++ q ++ post, pre.length + q.length⟩) := by
  obtain ⟨e, h⟩ := number_load hk hs ⟨pre ++ q ++ post, pre.length⟩ ctx a
  rw [h, ← hq, read_between]
  simp

/-- After `a` was loaded, the field loads this value from these bytes wherever they are. -/
def PieceAfter (Γ : Classes) (n : Nat) (ctx : Value) (a : Dict) (f : Field) (p : Bytes) (v : Value) : Prop :=
  ∀ pre post, fieldFromStream Γ n f ⟨pre ++ p ++ post, pre.length⟩ ctx a = (.ok v, ⟨pre ++ p ++ post, pre.length + p.length⟩)

/-- What the bytes of a number are worth, the opposite bytes are worth in the other byte order. -/
theorem piece_turn {Γ : Classes} {n : Nat} {ctx : Value} {b : FieldBase} {k : Leaf} {m : Nat} (hk : HasByteOrder k) (hs : b.size = .fixed m)
    (hn : b.nullValue = .undefined) (hb : ∀ w ctx, NoLookahead fun s => b.present w ctx (some s))
    (ha : ∀ w ctx, NoLookback fun s => b.present w ctx (some s)) {a : Dict} {p : Bytes} {v : Value} (h : PieceAfter Γ n ctx a (.leaf b k) p v) :
    PieceAfter Γ n ctx a (.leaf b (turnKind k)) p.reverse v := by
  have hpres : ∀ w s, b.present w ctx (some s) = b.present w ctx (some ⟨[], 0⟩) := fun w s =>
    (ha w ctx s ⟨s.rest, 0⟩ (by simp [Stream.rest])).trans (hb w ctx ⟨s.rest, 0⟩ ⟨[], 0⟩ ⟨rfl, by simp⟩)
  intro pre post
  have h1 := h pre post
  cases n with
  | zero => simp [fieldFromStream] at h1
  | succ n =>
    simp only [fieldFromStream, fromStreamWith, Field.base, hpres _ ⟨pre ++ p ++ post, pre.length⟩,
      hpres _ ⟨pre ++ p.reverse ++ post, pre.length⟩, fieldNullRepr, leafNullRepr, FieldBase.nullReprWith, hn, Err.isUnserializable] at h1 ⊢
    cases hp : b.present (Dict.view a) ctx (some ⟨[], 0⟩) with
    | error e => simp [hp] at h1
    | ok c =>
      cases c with
      | false =>
        simp only [hp, Prod.mk.injEq, Stream.mk.injEq, true_and] at h1 ⊢
        have : p = [] := List.length_eq_zero_iff.1 (by omega)
        subst this
        exact ⟨h1.1, by simp⟩
      | true =>
        have hl : ∀ k' s, loadAndFinish b (pyEq Γ n) (fun s => fieldDoLoad Γ n (.leaf b k') s ctx a) s =
            (match (match n with
              | 0 => (.error .outOfFuel, s)
              | _ + 1 => leafLoad b k' (.ok m) s ctx a : R Value) with
            | (.error e, s) => (.error (setErrField b.name e), s)
            | (.ok v, s) => (finishLoad b (pyEq Γ n) v, s)) := by
          intro k' s
          cases n with
          | zero => rfl
          | succ n => simp only [loadAndFinish, fieldDoLoad, leafExpectedSize, FieldBase.expectedSizeWith, hs]; rfl
        have h2 : loadAndFinish b (pyEq Γ n) (fun s => fieldDoLoad Γ n (.leaf b k) s ctx a) ⟨pre ++ p ++ post, pre.length⟩ =
            (.ok v, ⟨pre ++ p ++ post, pre.length + p.length⟩) := by
          simpa [hp] using h1
        have h3 : loadAndFinish b (pyEq Γ n) (fun s => fieldDoLoad Γ n (.leaf b (turnKind k)) s ctx a) ⟨pre ++ p.reverse ++ post, pre.length⟩ =
            (.ok v, ⟨pre ++ p.reverse ++ post, pre.length + p.reverse.length⟩) := by
          rw [hl] at h2 ⊢
          cases n with
          | zero => simp at h2
          | succ n =>
            simp only at h2 ⊢
            have hlen : p.length = m := by
              obtain ⟨e, h4⟩ := number_load hk hs ⟨pre ++ p ++ post, pre.length⟩ ctx a
              rw [h4] at h2
              split at h2
              · simp_all
              · rename_i h5
                split at h5
                · simp at h5
                · rename_i hlt
                  have h6 := read_exact_pos (by omega) hlt
                  simp only [Prod.mk.injEq] at h5 h2
                  rw [h5.2, h2.2] at h6
                  simp only [Int.toNat_natCast] at h6
                  omega
            rw [number_between hk hs _ _ _ hlen] at h2
            rw [number_between (byteOrder_turn hk) hs _ _ _ (by simpa using hlen), numberOf_turn hk]
            cases hnum : numberOf b.name k p with
            | error e => simp [hnum] at h2
            | ok w =>
              simp only [hnum, Prod.mk.injEq] at h2 ⊢
              exact ⟨h2.1, trivial⟩
        simp only [h3, if_true, reduceCtorEq, if_false, ite_self]

theorem pieceAfter_turn {Γ : Classes} {n : Nat} {ctx : Value} {X : List String} {f : Field} (hf : f.name ∈ X → FixedNumber f)
    (hb : LooksBehind Γ f) (ha : LooksAhead f) {a : Dict} {p : Bytes} {v : Value} (h : PieceAfter Γ n ctx a f p v) :
    PieceAfter Γ n ctx a (turnField X f) (if f.name ∈ X then p.reverse else p) v := by
  by_cases hx : f.name ∈ X
  · cases hf hx with
    | @leaf b k m hk hs hn =>
      rw [show turnField X (.leaf b k) = .leaf b (turnKind k) from turn_on hx, if_pos hx]
      cases hb with
      | leaf h1 _ =>
        cases ha with
        | leaf h2 _ => exact piece_turn hk hs hn h1.1 h2 h
  · rw [turn_off hx, if_neg hx]
    exact h

theorem load_pieceAfter {Γ : Classes} {n : Nat} {ctx : Value} (hΓ : MovableInside Γ) {f : Field} (hfw : LoadsForward f) (hbe : LooksBehind Γ f)
    (hah : LooksAhead f) (hsl : SelfLimited f) {pre rest : Bytes} {a : Dict} (hsz : SizesNonNeg f a) {v : Value} {t : Stream}
    (h : fieldFromStream Γ n f ⟨pre ++ rest, pre.length⟩ ctx a = (.ok v, t)) :
    ∃ p post, rest = p ++ post ∧ t = ⟨pre ++ rest, (pre ++ p).length⟩ ∧ PieceAfter Γ n ctx a f p v := by
  have hF : ∀ c d, Γ c = some d → ∀ f ∈ d.components, LoadsForward f := fun c d hc f hf => ((hΓ c d hc).1 f hf).1
  have hfw' := (load_forward Γ hF n).1 f hfw ctx a ⟨pre ++ rest, pre.length⟩ (by simp)
  obtain ⟨data, pos⟩ := t
  simp only [h] at hfw'
  obtain ⟨rfl, h1, h2⟩ := hfw'
  simp only [List.length_append] at h2
  obtain ⟨p, post, rfl, hp⟩ : ∃ p post, rest = p ++ post ∧ pos = pre.length + p.length :=
    ⟨rest.take (pos - pre.length), rest.drop (pos - pre.length), by simp, by simp only [List.length_take]; omega⟩
  subst hp
  refine ⟨p, post, rfl, by simp, fun pre' post' => ?_⟩
  rw [← List.append_assoc] at h
  have h3 := (load_local true Γ hF (fun c d hc f hf => ((hΓ c d hc).1 f hf).2.1)
    (fun _ c d hc => ⟨fun f hf => ((hΓ c d hc).1 f hf).2.2.2, (hΓ c d hc).2⟩) n).1 f hfw hbe (fun _ => hsl) ctx a
    (fun _ => hsz) pre p post v h (.inr rfl) post'
  simp only at h3
  have hm : Moved ((pre'.length : Int) - pre.length) ⟨pre ++ p ++ post', pre.length⟩ ⟨pre' ++ p ++ post', pre'.length⟩ :=
    ⟨by simp [Stream.rest], by simp⟩
  obtain ⟨h4, -, h5⟩ := (load_moved (fun c d hc f hf => ((hΓ c d hc).1 f hf).2.2.1) _ n).1 f hah ctx a _ _ hm
  have h6 := (load_forward Γ hF n).1 f hfw ctx a ⟨pre' ++ p ++ post', pre'.length⟩ (by simp)
  rcases h7 : fieldFromStream Γ n f ⟨pre' ++ p ++ post', pre'.length⟩ ctx a with ⟨y, ⟨data, pos⟩⟩
  rw [h3, h7] at h4 h5
  simp only [h7] at h6
  rcases h4 with ⟨w, h8, h9⟩ | ⟨e, e', h8, -, -⟩
  · simp only [Except.ok.injEq] at h8 h9
    subst h8
    rw [h9, h6.1, show pos = pre'.length + p.length by simp only at h5; omega]
  · simp at h8

/-- A load and a load with some of the numbers in the other byte order. -/
theorem loads_turn {Γ : Classes} {n : Nat} {ctx : Value} {X : List String} {d : StructDesc} (hd : LoadsInPlace Γ d)
    (hX : ∀ f ∈ d.components, f.name ∈ X → FixedNumber f) {fs : List Field} (hfs : ∀ f ∈ fs, f ∈ d.components) (hn : (fs.map Field.name).Nodup)
    {pre rest : Bytes} {acc r : Dict} {t : Stream} (hi : ∀ f ∈ d.components, SizesNonNeg f acc)
    (h : Loads Γ n ctx fs acc ⟨pre ++ rest, pre.length⟩ r t) :
    ∃ (part : String → Bytes) (post : Bytes), rest = inOrder part fs ++ post ∧ t = ⟨pre ++ rest, (pre ++ inOrder part fs).length⟩ ∧
      ∀ pre' post', Loads Γ n ctx (fs.map (turnField X)) acc ⟨pre' ++ (inOrder (turnParts X part) (fs.map (turnField X)) ++ post'), pre'.length⟩ r
        ⟨pre' ++ (inOrder (turnParts X part) (fs.map (turnField X)) ++ post'),
          pre'.length + (inOrder (turnParts X part) (fs.map (turnField X))).length⟩ := by
  induction fs generalizing pre rest acc with
  | nil =>
    cases h
    exact ⟨fun _ => [], rest, by simp [inOrder], by simp [inOrder], fun pre' post' => by simpa [inOrder] using Loads.nil _ _⟩
  | cons f fs ih =>
    rw [List.map_cons, List.nodup_cons] at hn
    cases h with
    | @cons _ _ _ _ v _ u _ h1 h2 =>
      have hf := hfs f List.mem_cons_self
      obtain ⟨hfw, hbe, hah, hsl⟩ := hd.fields f hf
      have hi' := sizes_step hd.sizes hf hi h1
      obtain ⟨p, post, rfl, rfl, hp⟩ := load_pieceAfter hd.inside hfw hbe hah hsl (hi f hf) h1
      rw [← List.append_assoc] at h2
      have hne : ∀ g ∈ fs, g.name ≠ f.name := fun g hg he => hn.1 (he ▸ List.mem_map.2 ⟨g, hg, rfl⟩)
      rw [setDefault_eq] at hi'
      obtain ⟨part, post', rfl, rfl, h3⟩ := ih (fun g hg => hfs g (List.mem_cons_of_mem _ hg)) hn.2 hi' h2
      have hmap : inOrder (fun y => if y = f.name then p else part y) (f :: fs) = p ++ inOrder part fs := by
        simp only [inOrder, List.map_cons, List.flatten_cons, if_true]
        congr 2
        exact List.map_congr_left fun g hg => if_neg (hne g hg)
      have hmap' : inOrder (turnParts X fun y => if y = f.name then p else part y) ((f :: fs).map (turnField X)) =
          (if f.name ∈ X then p.reverse else p) ++ inOrder (turnParts X part) (fs.map (turnField X)) := by
        simp only [inOrder, List.map_cons, List.flatten_cons, List.map_map, Function.comp_def, name_turn, turnParts, if_true]
        congr 2
        exact List.map_congr_left fun g hg => by rw [if_neg (hne g hg)]
      refine ⟨fun y => if y = f.name then p else part y, post', by simp [hmap], by simp [hmap], fun pre' post'' => ?_⟩
      have h4 := pieceAfter_turn (X := X) (hX f hf) hbe hah hp pre' (inOrder (turnParts X part) (fs.map (turnField X)) ++ post'')
      have h5 := h3 (pre' ++ if f.name ∈ X then p.reverse else p) post''
      rw [hmap', show pre' ++ ((if f.name ∈ X then p.reverse else p) ++ inOrder (turnParts X part) (fs.map (turnField X)) ++ post'') =
        pre' ++ (if f.name ∈ X then p.reverse else p) ++ (inOrder (turnParts X part) (fs.map (turnField X)) ++ post'') by simp]
      rw [List.length_append, ← Nat.add_assoc, ← List.length_append]
      rw [← List.length_append] at h4
      refine .cons h4 ?_
      rw [name_turn]
      exact h5

theorem dropDiscarded_mapped {d d' : StructDesc} {φ : Field → Field} (hd : d'.components = d.components.map φ) (hφ : ∀ f, (φ f).base = f.base)
    (r : Dict) : dropDiscarded d' r = dropDiscarded d r := by
  unfold dropDiscarded
  rw [hd]
  generalize d.components = fs
  induction fs generalizing r with
  | nil => rfl
  | cons f fs ih =>
    simp only [List.map_cons, List.filter_cons, hφ]
    split
    · simp only [List.foldl_cons, Field.name, hφ]
      exact ih _
    · exact ih r

end Verif
