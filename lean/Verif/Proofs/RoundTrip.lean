import Verif.Spec.RoundTrip
import Verif.Proofs.Equality
import Verif.Proofs.ToDict
import Verif.Proofs.StructLoad
import Verif.Proofs.StructDump
import Verif.Proofs.Locality
import Verif.Proofs.UUID
import Verif.Proofs.Timestamp
import Verif.Props.Container
import Verif.Props.Float
import Verif.Props.Text
import Verif.Props.VarInt
import Verif.Props.IntCodec

/-! Helper lemmas for the round trip of structs. -/

namespace Verif
open Spec

theorem Spec.Stands.scalar {v w : Value} (h : Stands v w) (hl : ∀ l, w ≠ .list l) (hd : ∀ d, w ≠ .dict d) : v = w := by
  cases h with
  | same => rfl
  | list => exact absurd rfl (hl _)
  | struct => exact absurd rfl (hd _)

theorem Spec.Stands.ne_notPresent {v w : Value} (h : Stands v w) (hw : w ≠ .notPresent) : v ≠ .notPresent := by
  cases h with
  | same => exact hw
  | list => simp
  | struct => simp

theorem Spec.Consistent.get {earlier : List String} {all loaded : Dict} (h : Consistent earlier all loaded) {r : String}
    (hr : r ∈ earlier) {w : Value} (hw : Dict.get? all r = some w) : ∃ v, Dict.get? loaded r = some v ∧ Stands v w := by
  have h1 := (h.1 r).2 hr
  cases hv : Dict.get? loaded r with
  | none => exact absurd hv h1
  | some v => exact ⟨v, rfl, h.2 r v w hv hw⟩

/-- A size that is known when loading is the size that was used when dumping. -/
theorem expected_agree {earlier : List String} {all loaded : Dict} {b : FieldBase} {k : Leaf} {n : Int}
    (hs : SizeKnown earlier b) (hc : Consistent earlier all loaded) (h : leafExpectedSize b k all = .ok n) :
    leafExpectedSize b k loaded = .ok n ∧ DeclaredSize (.leaf b k) all n := by
  rcases hs with ⟨m, hs⟩ | ⟨r, hr, hs⟩
  · have h1 : DeclaredSize (.leaf b k) all m := Or.inl hs
    have h2 : DeclaredSize (.leaf b k) loaded m := Or.inl hs
    rw [leafExpectedSize_declared h1] at h
    cases h
    exact ⟨leafExpectedSize_declared h2, h1⟩
  · simp only [leafExpectedSize, FieldBase.expectedSizeWith, hs, sizeFromRef] at h
    cases hg : Dict.get? all r with
    | none => simp [hg] at h
    | some w =>
      cases w <;> simp only [hg] at h <;> try (simp at h; done)
      rename_i i
      simp at h; subst h
      obtain ⟨v, hv, hst⟩ := hc.get hr hg
      have := hst.scalar (by simp) (by simp)
      subst this
      exact ⟨leafExpectedSize_declared (Or.inr ⟨r, hs, hv⟩), Or.inr ⟨r, hs, hg⟩⟩

/-- The values a leaf can represent are not containers. -/
theorem Spec.Lossless.scalar {ctx : Value} {earlier : List String} {all : Dict} {b : FieldBase} {k : Leaf} {w : Value}
    (h : Lossless ctx earlier all b k w) :
    w ≠ .none ∧ w ≠ .dflt ∧ NoStruct w ∧ (∀ l, w ≠ .list l) ∧ ∀ d, w ≠ .dict d := by
  cases h with
  | custom h1 h2 h3 h4 h5 => exact ⟨h1, h2, h5, h3, h4⟩
  | _ => exact ⟨by simp, by simp, by constructor, by simp, by simp⟩

theorem finishDump_unpadded {b : FieldBase} {e : Except Err Int} {p : Bytes → Int → Except Err Bytes} {ser bs : Bytes} {u : Unit}
    (hp : ∀ n r, p ser n ≠ .ok r) (h : finishDump b e p ser = (bs, .ok u)) : bs = ser := by
  rcases finishDump_ok h with ⟨-, h⟩ | ⟨k, -, ⟨-, h⟩ | ⟨-, h⟩⟩
  · exact h
  · exact h
  · exact absurd h (hp _ _)

theorem unserializableOnRange_ok {name : String} {r : Except Err Bytes} {bs : Bytes}
    (h : unserializableOnRange name r = .ok bs) : r = .ok bs := by
  unfold unserializableOnRange at h
  cases r with
  | ok b => exact h
  | error e => simp only at h; split at h <;> simp at h

theorem writeInt_ok_length {i : Int} {n : Nat} (hn : 0 < n) {sg : Bool} {e : Endian} {bs : Bytes}
    (h : writeInt i n sg e = .ok bs) : bs.length = n := by
  by_cases hr : InRange n sg i
  · obtain ⟨b, h1, h2⟩ := (C11_write_int_range i n hn e sg).1 hr
    rw [h1] at h; cases h; exact h2
  · rw [(C11_write_int_range i n hn e sg).2 hr] at h; simp at h

theorem leafSized {b : FieldBase} {k : Leaf} {values : Dict} {n : Int} (h : b.size = .fixed n) :
    leafExpectedSize b k values = .ok n := leafExpectedSize_declared (Or.inl h)

/-- What a leaf field wrote, its `_do_load` reads back. -/
theorem leaf_restores {ctx : Value} {earlier : List String} {all loaded : Dict} {b : FieldBase} {k : Leaf} {w : Value}
    {ser bs : Bytes} (hw : Lossless ctx earlier all b k w)
    (hd : leafDump b k (leafExpectedSize b k all) w ctx all = (ser, .ok ()))
    (hf : finishDump b (leafExpectedSize b k all) (leafAddPadding b k) ser = (bs, .ok ()))
    (hc : Consistent earlier all loaded) (pre rest : Bytes) :
    leafLoad b k (leafExpectedSize b k loaded) ⟨pre ++ bs ++ rest, pre.length⟩ ctx loaded =
      (.ok w, ⟨pre ++ bs ++ rest, pre.length + bs.length⟩) := by
  have hr : ∀ x : Bytes, (⟨pre ++ x ++ rest, pre.length⟩ : Stream).rest = x ++ rest := by
    intro x; simp [Stream.rest, List.append_assoc]
  cases hw with
  | @integer sg en n i hs hn =>
    have hbs := finishDump_unpadded (by simp [leafAddPadding]) hf
    subst hbs
    simp only [leafDump, hs] at hd
    have h1 := unserializableOnRange_ok (W.ofExcept_ok hd)
    simp only [leafLoad, hs, C10_write_read i n hn sg en bs pre rest h1, R.map, Except.map, writeInt_ok_length hn h1]
  | @varint enc m i hs =>
    have hbs := finishDump_unpadded (by simp [leafAddPadding]) hf
    subst hbs
    have h1 : enc.encode i = .ok bs := by
      simp only [leafDump] at hd
      cases hu : unserializableOnRange b.name (enc.encode i) with
      | error e => simp [hu, W.fail] at hd
      | ok c =>
        have hc : c = bs := by
          simp only [hu] at hd
          cases m with
          | none => simpa [W.ok] using hd
          | some m => simp only at hd; split at hd <;> simp_all [W.ok, W.fail]
        subst hc
        exact unserializableOnRange_ok hu
    have h2 : enc.signed = true ∨ 0 ≤ i := by
      cases hsg : enc.signed with
      | true => exact Or.inl rfl
      | false =>
        right
        refine Decidable.byContradiction fun hneg => ?_
        rw [(C08_unsigned_rejects_negative enc i).1 ⟨by omega, hsg⟩] at h1
        simp at h1
    obtain ⟨code, h3, h4⟩ := varint_round_trip enc i h2 pre rest
    rw [h1] at h3; cases h3
    simp only [leafLoad, h4, R.map, Except.map]
  | bytes x hs =>
    have hbs := finishDump_unpadded (by simp [leafAddPadding]) hf
    subst hbs
    simp only [leafDump] at hd
    cases he : leafExpectedSize b .bytes all with
    | error e => simp [he, W.fail] at hd
    | ok n =>
      simp only [he] at hd
      split at hd
      · simp [W.fail] at hd
      · rename_i hlen
        simp [W.ok] at hd; subst hd
        have hlen : n = (x.length : Int) := by omega
        subst hlen
        simp only [leafLoad, (expected_agree hs hc he).1, readExactSize_here, R.map, Except.map]
  | @string c p t hk hs hexact =>
    simp only [leafDump] at hd
    have hd := W.ofExcept_ok hd
    unfold encodeAndResize at hd
    cases hcode : c.encode t with
    | error e => simp [hcode] at hd
    | ok code =>
      cases he : leafExpectedSize b (.string c p) all with
      | error e => simp [hcode, he] at hd
      | ok n =>
        simp only [hcode, he] at hd
        obtain ⟨hl, hdecl⟩ := expected_agree hs hc he
        have hn : (code.length : Int) = n ∧ ser = code := by
          split at hd
          · simp at hd
          · split at hd
            · rcases hexact with rfl | hexact
              · simp at hd
              · have := hexact code n hcode hdecl; omega
            · simp at hd; exact ⟨by omega, hd.symm⟩
        obtain ⟨hn, rfl⟩ := hn
        subst hn
        have hbs : bs = ser := by
          rcases finishDump_ok hf with ⟨-, h⟩ | ⟨k, hk', ⟨-, h⟩ | ⟨hlt, -⟩⟩
          · exact h
          · exact h
          · exfalso
            have : k = (ser.length : Int) := by
              rcases hk' with h | ⟨r, h, h'⟩
              · rcases hdecl with h2 | ⟨r', h2, -⟩ <;> simp only [Field.base, h] at h2
                · cases h2; rfl
                · cases h2
              · rw [he] at h'; cases h'; rfl
            omega
        subst hbs
        simp only [leafLoad, hl, readExactSize_here, R.andThen, Except.bind, decode_encode (supported_lawful hk) hcode, Except.map]
  | @stringz c p t hk h0 hs hdef hname =>
    have hbs : bs = ser := by
      rcases finishDump_ok hf with ⟨-, h⟩ | ⟨k, hk', -⟩
      · exact h
      · rcases hk' with h | ⟨r, h, -⟩ <;> simp [hs] at h
    subst hbs
    simp only [leafDump] at hd
    have hd := W.ofExcept_ok hd
    have hfirst : Dict.get? loaded b.name = none := by
      have := hc.1 b.name
      simp only [hname, iff_false, ne_eq, Decidable.not_not] at this
      exact this
    simp only [leafLoad, leafExpectedSize_undefined hs hdef hfirst]
    have hne : bs ≠ [] := by
      obtain ⟨a, z, -, hz, rfl⟩ := encode_append_ok hd
      obtain ⟨term, h1, h2, -⟩ := encode_terminated hk (t := []) (code := []) rfl
      rw [h1] at hz; cases hz; simp [h2]
    rw [stringzLoop_reads (supported_lawful hk) bs _ 0 [] [] _ t rest (Or.inl rfl) h0 (by simpa using hd) (hr bs)
      (by rw [hr]; simp) hne (by simp)]
    simp [R.map, Except.map]
  | @stringzSized c p t hk h0 hs hexact =>
    simp only [leafDump] at hd
    have hd := W.ofExcept_ok hd
    have hne : ser ≠ [] := by
      obtain ⟨a, z, -, hz, rfl⟩ := encode_append_ok hd
      obtain ⟨term, h1, h2, -⟩ := encode_terminated hk (t := []) (code := []) rfl
      rw [h1] at hz; cases hz; simp [h2]
    have hall : ∃ n, leafExpectedSize b (.stringz c p) all = .ok n ∧ (ser.length : Int) = n ∧ bs = ser := by
      rcases finishDump_ok hf with ⟨hnone, -⟩ | ⟨n, hn, hlen⟩
      · rcases hs with ⟨_, h⟩ | ⟨_, _, h⟩ <;> simp [hnone] at h
      · have he : leafExpectedSize b (.stringz c p) all = .ok n := by
          rcases hn with h | ⟨r, -, h⟩
          · exact leafSized h
          · exact h
        refine ⟨n, he, ?_⟩
        rcases hlen with h | ⟨hlt, hpad⟩
        · exact h
        · exfalso
          rcases hexact with rfl | hexact
          · simp [leafAddPadding] at hpad
          · have := hexact ser n hd (expected_agree hs hc he).2; omega
    obtain ⟨n, he, hn, rfl⟩ := hall
    subst hn
    simp only [leafLoad, (expected_agree hs hc he).1]
    rw [stringzLoop_reads (supported_lawful hk) bs _ 0 [] [] _ t rest (Or.inl rfl) h0 (by simpa using hd) (hr bs)
      (by rw [hr]; simp) hne (by intro m hm; cases hm; omega)]
    simp [R.map, Except.map]
  | @uuid fmt u hu =>
    have hbs := finishDump_unpadded (by simp [leafAddPadding]) hf
    subst hbs
    simp [leafDump, W.ok] at hd; subst hd
    simp only [leafLoad, ← uuidDump_length fmt u, Stream.read_nat, hr]
    rw [List.take_left, if_neg (by simp), uuidParse_dump fmt hu]
    simp [Except.map]
  | @float f e x hf' hs hx hrep =>
    have hbs := finishDump_unpadded (by simp [leafAddPadding]) hf
    subst hbs
    obtain ⟨c, hc', hsame⟩ := hrep
    have hc' : Fits f c := by unfold Fits; rw [(standard_bounds hf').2.2.2.2.2]; exact hc'
    obtain ⟨h1, h2⟩ := unpackBits_same hf' hx hc' hsame
    have hpack : floatPack f e x = some (e.arrange (natToLE f.bytes c)) := by simp [floatPack, h1]
    have hlen := floatPack_length hpack
    have hun : floatUnpack f e (e.arrange (natToLE f.bytes c)) = x := by
      rw [floatUnpack, Endian.arrange_arrange, natToLE_of_fits hf' hc', h2]
    simp [leafDump, hpack, W.ok] at hd; subst hd
    have hl : leafExpectedSize b (.float f e) loaded = .ok ((e.arrange (natToLE f.bytes c)).length : Int) := by
      rw [hlen]; exact leafSized hs
    simp only [leafLoad, hl, readExactSize_here, R.andThen, Except.bind]
    rw [if_pos hlen, hun]
  | @timestamp res aware sg e n k hs hn hmin hmax hns =>
    have hbs := finishDump_unpadded (by simp [leafAddPadding]) hf
    subst hbs
    have hfirst := hmin
    replace hmin := (datetimeFirst_min aware).trans hmin
    have hsmall : k.natAbs < 2 ^ 38 := by unfold datetimeMin at hmin; unfold datetimeMax at hmax; omega
    have hholds : Holds (k.natAbs * res.units) := by
      cases res with
      | s => exact Holds.small (by simp [Resolution.units]; omega)
      | ms => exact Holds.small (by simp [Resolution.units]; omega)
      | us => exact ⟨k.natAbs * 15625, 6, by simp [Resolution.units]; omega, by omega, by simp [Resolution.units]; omega⟩
      | ns =>
        have := hns rfl
        exact ⟨k.natAbs * 1953125, 9, by simp [Resolution.units]; omega, by omega, by simp [Resolution.units]; omega⟩
    have hh : (k * (res.units : Int)).natAbs = k.natAbs * res.units := by rw [Int.natAbs_mul]; simp
    have hload := tsLoad_whole res (k := k) (by omega) (by rw [hh]; exact hholds) ⟨hmin, hmax⟩
    have hdump := tsStored_whole res (k := k) (by omega) hholds aware
    replace hload := tsLoad_of hload hfirst
    simp only [leafDump, tsDump_of _ hfirst, hdump, leafSized hs] at hd
    have h1 := unserializableOnRange_ok (W.ofExcept_ok hd)
    simp only [leafLoad, leafSized hs, C10_write_read _ n hn sg e bs pre rest h1, R.andThen, Except.bind, Except.map,
      writeInt_ok_length hn h1]
    simp only [hload]
  | @custom ops _ _ _ _ _ _ hpad hundo =>
    have hbs := finishDump_unpadded (by simp [leafAddPadding, hpad]) hf
    subst hbs
    simp only [leafLoad]
    exact hundo bs (by simpa [leafDump] using hd) loaded pre rest hc

/-- What `f` wrote for `w` is read back, by `from_stream` and (unless it is `None`) by `_do_load`. -/
def Restores (Γ : Classes) (ctx : Value) (earlier : List String) (all : Dict) (f : Field) (w : Value)
    (P : Bytes → Value → Prop) : Prop :=
  ∀ n bs, fieldToStream Γ n f w ctx all = (bs, .ok ()) → ∀ loaded, Consistent earlier all loaded →
    ∃ m v, Stands v w ∧ P bs v ∧
      (∀ pre rest, fieldFromStream Γ m f ⟨pre ++ bs ++ rest, pre.length⟩ ctx loaded =
        (.ok v, ⟨pre ++ bs ++ rest, pre.length + bs.length⟩)) ∧
      (w ≠ .none → ∀ pre rest, fieldDoLoad Γ m f ⟨pre ++ bs ++ rest, pre.length⟩ ctx loaded =
        (.ok v, ⟨pre ++ bs ++ rest, pre.length + bs.length⟩))

theorem fieldDoLoad_of_le {Γ : Classes} {n m : Nat} (h : n ≤ m) {f : Field} {s s' : Stream} {ctx v : Value}
    {loaded : Dict} (hr : fieldDoLoad Γ n f s ctx loaded = (.ok v, s')) :
    fieldDoLoad Γ m f s ctx loaded = (.ok v, s') := by
  rcases fieldDoLoad_mono Γ h f s ctx loaded with h1 | h1
  · rw [hr] at h1; simp at h1
  · rw [← h1, hr]

theorem structFromStream_of_le {Γ : Classes} {n m : Nat} (h : n ≤ m) {d : StructDesc} {s s' : Stream} {ctx : Value}
    {kw r : Dict} (hr : structFromStream Γ n d s ctx kw = (.ok r, s')) :
    structFromStream Γ m d s ctx kw = (.ok r, s') := by
  rcases structFromStream_mono Γ h d s ctx kw with h1 | h1
  · rw [hr] at h1; simp at h1
  · rw [← h1, hr]

/-- From `_do_load` to `from_stream`, for a field that is neither null nor constant. -/
theorem fromStream_open {Γ : Classes} {m : Nat} {f : Field} {s s' : Stream} {ctx v w : Value} {loaded : Dict}
    (hp : f.base.present loaded.view ctx (some s) = .ok true) (ho : Open f.base w) (hv : Stands v w)
    (h : fieldDoLoad Γ m f s ctx loaded = (.ok v, s')) : fieldFromStream Γ (m + 1) f s ctx loaded = (.ok v, s') := by
  rw [fieldFromStream, fromStreamWith_plain hp (Or.inl (allowNull_false ho.1))]
  simp only [loadAndFinish, h]
  rw [finishLoad_plain (Or.inl (allowNull_false ho.1)) (Or.inl ho.2.1) (ho.2.2 v hv)]

/-- What a successful `to_stream` of a container did. -/
theorem container_dumped {Γ : Classes} {n : Nat} {f : Field} {w ctx : Value} {all : Dict} {bs : Bytes}
    (hf : ∀ b k, f ≠ .leaf b k) (h1 : w ≠ .none) (h2 : w ≠ .dflt) (h : fieldToStream Γ n f w ctx all = (bs, .ok ())) :
    ∃ m, n = m + 1 ∧ containerDump Γ (fieldToStream Γ m) (structToStream Γ m) f w ctx all = (bs, .ok ()) := by
  cases n with
  | zero => simp [fieldToStream, W.fail] at h
  | succ m =>
    refine ⟨m, rfl, ?_⟩
    rw [fieldToStream_succ] at h
    obtain ⟨w', hw, -, -, -, h4⟩ := toStreamWith_ok h
    rw [if_neg h2] at hw
    cases hw
    rcases h4 with ⟨h4, -⟩ | ⟨-, ser, h5, h6⟩
    · exact absurd h4 h1
    · have hbs : bs = ser := by
        refine finishDump_unpadded ?_ h6
        intro k r
        cases f with
        | leaf b k => exact absurd rfl (hf b k)
        | _ => simp [fieldAddPadding]
      subst hbs
      cases f with
      | leaf b k => exact absurd rfl (hf b k)
      | _ => exact h5

theorem null_restores {Γ : Classes} {ctx : Value} {earlier : List String} {all : Dict} {f : Field} {P : Bytes → Value → Prop}
    (hn : f.base.nullValue ≠ .undefined) (hp : LoadsPresent ctx earlier all f.base)
    (hr : ∀ n loaded, Consistent earlier all loaded → fieldNullRepr Γ n f loaded = fieldNullRepr Γ n f all)
    (hP : ∀ n bs, fieldToStream Γ n f .none ctx all = (bs, .ok ()) → P bs .none) : Restores Γ ctx earlier all f .none P := by
  intro n bs h loaded hc
  have hP := hP n bs h
  cases n with
  | zero => simp [fieldToStream, W.fail] at h
  | succ m =>
    rw [fieldToStream_succ] at h
    obtain ⟨w', hw, -, -, hval, h4⟩ := toStreamWith_ok h
    simp at hw; subst hw
    rcases h4 with ⟨-, h4⟩ | ⟨h4, -⟩
    · refine ⟨m + 1, .none, .same _, hP, fun pre rest => ?_, fun h => absurd rfl h⟩
      rw [fieldFromStream, fromStreamWith_null (repr := bs) (hp loaded _ hc) (by simp [FieldBase.allowNull, hn])
        (by rw [hr m loaded hc, h4]) (by simp [Stream.rest, List.append_assoc]) hval]
      rfl
    · exact absurd rfl h4

theorem leaf_field_restores {Γ : Classes} {ctx : Value} {earlier : List String} {all : Dict} {b : FieldBase} {k : Leaf} {w : Value}
    (hp : LoadsPresent ctx earlier all b) (hw : Lossless ctx earlier all b k w) (hnull : NotNull Γ ctx earlier all b k w)
    (hconst : b.const = .undefined ∨ (NoStruct b.const ∧ scalarEq w b.const = true)) {P : Bytes → Value → Prop}
    (hP : ∀ n bs, fieldToStream Γ n (.leaf b k) w ctx all = (bs, .ok ()) → P bs w) : Restores Γ ctx earlier all (.leaf b k) w P := by
  intro n bs h loaded hc
  obtain ⟨hne, hnd, hns, hl, hdct⟩ := hw.scalar
  have h0 := h
  cases n with
  | zero => simp [fieldToStream, W.fail] at h
  | succ m =>
    rw [fieldToStream_succ] at h
    obtain ⟨w', hw', -, -, hval, h4⟩ := toStreamWith_ok h
    rw [if_neg hnd] at hw'; cases hw'
    rcases h4 with ⟨h4, -⟩ | ⟨-, ser, h5, h6⟩
    · exact absurd h4 hne
    · have hload := fun pre rest => leaf_restores (loaded := loaded) hw h5 h6 hc pre rest
      have hdo : ∀ pre rest, fieldDoLoad Γ 1 (.leaf b k) ⟨pre ++ bs ++ rest, pre.length⟩ ctx loaded =
          (.ok w, ⟨pre ++ bs ++ rest, pre.length + bs.length⟩) := by
        intro pre rest; simp only [fieldDoLoad, hload]
      refine ⟨2, w, .same _, hP _ _ h0, fun pre rest => ?_, fun _ pre rest => fieldDoLoad_of_le (by omega) (hdo pre rest)⟩
      have heq : ∀ c, NoStruct c → pyEq Γ 1 w c = .ok (scalarEq w c) := fun c hcs =>
        pyEq_scalar hns hcs (fun x _ hx => absurd hx (hl x)) (fun x _ hx => absurd hx (hdct x))
      rw [fieldFromStream, fromStreamWith_plain (b := (Field.leaf b k).base) (hp loaded _ hc) ?_]
      · simp only [loadAndFinish, hdo]
        rw [finishLoad_plain ?_ ?_ hval]
        · rcases hnull with hn | ⟨⟨hn1, hn2⟩, -⟩
          · exact Or.inl (allowNull_false hn)
          · exact Or.inr (by rw [show (Field.leaf b k).base = b from rfl, heq _ hn1, hn2])
        · rcases hconst with hn | ⟨hn1, hn2⟩
          · exact Or.inl hn
          · exact Or.inr (by rw [show (Field.leaf b k).base = b from rfl, heq _ hn1, hn2])
      · rcases hnull with hn | ⟨-, hn⟩
        · exact Or.inl (allowNull_false hn)
        · obtain ⟨repr, h7, h8⟩ := hn loaded hc
          refine Or.inr ⟨repr, h7, fun heq => h8 _ _ rest h0 ?_⟩
          have hrest : (⟨pre ++ bs ++ rest, pre.length⟩ : Stream).rest = bs ++ rest := by simp [Stream.rest, List.append_assoc]
          rw [hrest] at heq
          exact List.prefix_iff_eq_take.2 heq.symm

/-- Each element of a list is read back. -/
theorem elements_restore {Γ : Classes} {ctx : Value} {earlier : List String} {all loaded : Dict} {comp : Field} {l : List Value}
    {n : Nat} {ps : List Bytes} {P : Value → Bytes → Value → Prop} (hr : ∀ w ∈ l, Restores Γ ctx earlier all comp w (P w)) (hc : Consistent earlier all loaded)
    (hlen : ps.length = l.length)
    (hd : ∀ i (hi : i < l.length) (hi' : i < ps.length), fieldToStream Γ n comp l[i] ctx all = (ps[i], .ok ())) :
    ∃ (m : Nat) (vs : List Value), vs.length = l.length ∧
      ∀ i (hi : i < l.length) (hv : i < vs.length) (hp : i < ps.length), Stands vs[i] l[i] ∧ P l[i] ps[i] vs[i] ∧ ∀ pre rest,
        fieldFromStream Γ m comp ⟨pre ++ ps[i] ++ rest, pre.length⟩ ctx loaded =
          (.ok vs[i], ⟨pre ++ ps[i] ++ rest, pre.length + ps[i].length⟩) := by
  induction l generalizing ps with
  | nil => exact ⟨0, [], rfl, by simp⟩
  | cons w l ih =>
    cases ps with
    | nil => simp at hlen
    | cons p ps =>
      have h0 := hd 0 (by simp) (by simp)
      simp only [List.getElem_cons_zero] at h0
      obtain ⟨m1, v, hst, hPv, hload, -⟩ := hr w (by simp) n p h0 loaded hc
      obtain ⟨m2, vs, hvs, hrest⟩ := ih (ps := ps) (fun u hu => hr u (by simp [hu])) (by simpa using hlen) (by
        intro i hi hi'
        have := hd (i + 1) (by simpa using hi) (by simpa using hi')
        simpa using this)
      refine ⟨max m1 m2, v :: vs, by simp [hvs], ?_⟩
      intro i hi hv hp
      cases i with
      | zero => exact ⟨hst, hPv, fun pre rest => fieldFromStream_of_le (by omega) (hload pre rest)⟩
      | succ i =>
        obtain ⟨h1, h1', h2⟩ := hrest i (by simpa using hi) (by simpa using hv) (by simpa using hp)
        exact ⟨h1, h1', fun pre rest => fieldFromStream_of_le (by omega) (h2 pre rest)⟩

theorem array_restores {Γ : Classes} {ctx : Value} {earlier : List String} {all : Dict} {b : FieldBase} {comp : Field}
    {count : Count} {l : List Value} (hp : LoadsPresent ctx earlier all b) (ho : Open b (.list l))
    (hcount : (∃ k, count = .fixed k) ∨ ∃ r ∈ earlier, count = .ref r ∧ Dict.get? all r ≠ some .none)
    (hpres : ∀ w ∈ l, w ≠ .notPresent) {P : Value → Bytes → Value → Prop} (hr : ∀ w ∈ l, Restores Γ ctx earlier all comp w (P w))
    {Q : Bytes → Value → Prop}
    (hQ : ∀ n (ps : List Bytes) (vs : List Value), fieldToStream Γ n (.array b comp count none) (.list l) ctx all = (ps.flatten, .ok ()) → ps.length = l.length →
      vs.length = l.length → (∀ i (hi : i < l.length) (hv : i < vs.length) (hp : i < ps.length), P l[i] ps[i] vs[i]) →
      Q ps.flatten (.list vs)) :
    Restores Γ ctx earlier all (.array b comp count none) (.list l) Q := by
  intro n bs h loaded hc
  have h0 := h
  obtain ⟨m, hm, hdump⟩ := container_dumped (by simp) (by simp) (by simp) h
  clear h hm; rename' hdump => h
  simp only [containerDump, arrayDump, arrayElements] at h
  have hcnt : CountIs count loaded l.length ∧ dumpAll (fun v => fieldToStream Γ m comp v ctx all) l = (bs, .ok ()) := by
    rcases hcount with ⟨k, rfl⟩ | ⟨r, hr', rfl, hnn⟩
    · simp only [finalElementCount] at h
      split at h
      · simp [W.fail] at h
      · rename_i hk
        have hk : k = (l.length : Int) := by omega
        subst hk
        exact ⟨Or.inl rfl, h⟩
    · simp only [finalElementCount] at h
      by_cases hempty : r = ""
      · simp [hempty, W.fail] at h
      · rw [if_neg hempty] at h
        cases hg : Dict.get? all r with
        | none => simp [hg, W.fail] at h
        | some v =>
          simp only [hg] at h
          cases v <;> simp only at h <;> try (simp [W.fail] at h; done)
          · exact absurd hg hnn
          · rename_i k
            split at h
            · simp [W.fail] at h
            · rename_i hk
              have hk : k = (l.length : Int) := by omega
              subst hk
              obtain ⟨v, hv, hst⟩ := hc.get hr' hg
              have := hst.scalar (by simp) (by simp)
              subst this
              exact ⟨Or.inr ⟨r, rfl, hempty, hv⟩, h⟩
  obtain ⟨ps, h1, rfl, h3⟩ := dumpAll_ok hcnt.2
  obtain ⟨m', vs, h4, h5⟩ := elements_restore hr hc h1 h3
  have hst : Stands (.list vs) (.list l) := by
    refine .list h4 fun i x y hx hy => ?_
    obtain ⟨hi, rfl⟩ := List.getElem?_eq_some_iff.1 hx
    obtain ⟨hi', rfl⟩ := List.getElem?_eq_some_iff.1 hy
    exact (h5 i hi' hi (by omega)).1
  have hdo : ∀ pre rest, fieldDoLoad Γ (max m' vs.length + 1) (.array b comp count none) ⟨pre ++ ps.flatten ++ rest, pre.length⟩ ctx
      loaded = (.ok (.list vs), ⟨pre ++ ps.flatten ++ rest, pre.length + ps.flatten.length⟩) := by
    intro pre rest
    rw [fieldDoLoad_array, arrayLoop_elements (l := vs) (ps := ps) (acc := []) (by omega) ?_ (Or.inl ?_) (by omega)]
    · simp [R.map, Except.map]
    · intro i hi hi'
      obtain ⟨h6, -, h7⟩ := h5 i (by omega) hi hi'
      exact ⟨h6.ne_notPresent (hpres _ (List.getElem_mem _)), fun pre rest => fieldFromStream_of_le (by omega) (h7 pre rest)⟩
    · simp only [List.length_nil, Nat.zero_add, h4]; exact hcnt.1
  exact ⟨max m' vs.length + 2, .list vs, hst, hQ n ps vs h0 h1 h4 fun i hi hv hp => (h5 i hi hv hp).2.1, fun pre rest =>
    fromStream_open (f := .array b comp count none) (hp loaded _ hc) ho hst (hdo pre rest),
    fun _ pre rest => fieldDoLoad_of_le (by omega) (hdo pre rest)⟩

theorem Spec.Loads.of_le {Γ : Classes} {n m : Nat} (hle : n ≤ m) {ctx : Value} {fs : List Field} {acc r : Dict} {s s' : Stream}
    (h : Loads Γ n ctx fs acc s r s') : Loads Γ m ctx fs acc s r s' := by
  induction h with
  | nil => exact .nil _ _
  | cons h _ ih => exact .cons (fieldFromStream_of_le hle h) ih

theorem Dict.get?_append {a b : Dict} {k : String} : Dict.get? (a ++ b) k = (Dict.get? a k).or (Dict.get? b k) := by
  induction a with
  | nil => simp [Dict.get?_nil]
  | cons p a ih => rw [List.cons_append, Dict.get?_cons, Dict.get?_cons, ih]; split <;> simp

/-- What became of each field: it was skipped, or dumped and loaded again. -/
inductive Landed (P : Field → Value → Bytes → Value → Prop) (all : Dict) (ctx : Value) (r : Dict) : List Field → List Bytes → Prop where
  | nil : Landed P all ctx r [] []
  | skipped {f : Field} {fs : List Field} {ps : List Bytes} : Skipped f all ctx → Dict.get? r f.name = some f.base.notPresentValue →
      Landed P all ctx r fs ps → Landed P all ctx r (f :: fs) ([] :: ps)
  | dumped {f : Field} {fs : List Field} {p : Bytes} {ps : List Bytes} {w v : Value} : Dumped f all ctx w → Dict.get? r f.name = some v →
      Stands v w → P f w p v → Landed P all ctx r fs ps → Landed P all ctx r (f :: fs) (p :: ps)

theorem fields_restore {Γ : Classes} {ctx : Value} {d : StructDesc} {all : Dict} (hu : UniqueNames d)
    (homit : ∀ pre f post, d.components = pre ++ f :: post → Skipped f all ctx → Omitted ctx (pre.map Field.name) all f)
    {P : Field → Value → Bytes → Value → Prop}
    (hrest : ∀ pre f post w, d.components = pre ++ f :: post → Dumped f all ctx w → Restores Γ ctx (pre.map Field.name) all f w (P f w))
    {n : Nat} {post : List Field} {ps : List Bytes} (hparts : Parts Γ n ctx all post ps) :
    ∀ (done : List Field) (acc : Dict), d.components = done ++ post → Consistent (done.map Field.name) all acc →
      Dict.keys acc = done.map Field.name →
      ∃ m r, Dict.keys r = names d ∧ (∀ k v w, Dict.get? r k = some v → Dict.get? all k = some w → Stands v w) ∧
        (∀ k v, Dict.get? acc k = some v → Dict.get? r k = some v) ∧ Landed P all ctx r post ps ∧
        ∀ pre rest, Loads Γ m ctx post acc ⟨pre ++ ps.flatten ++ rest, pre.length⟩ r
          ⟨pre ++ ps.flatten ++ rest, pre.length + ps.flatten.length⟩ := by
  induction hparts with
  | nil =>
    intro done acc hd hc hk
    refine ⟨0, acc, by simp [hk, names, hd], hc.2, fun _ _ h => h, .nil, fun pre rest => ?_⟩
    simpa using Loads.nil acc _
  | @cons f fs p ps hpart _ ih =>
    intro done acc hd hc hk
    have hnew : f.name ∉ done.map Field.name := by
      unfold UniqueNames names at hu
      rw [hd, List.map_append, List.nodup_append] at hu
      intro hmem
      exact hu.2.2 _ hmem f.name (by simp) rfl
    have hnone : Dict.get? acc f.name = none := by
      rw [Dict.get?_none_iff, hk]; exact hnew
    -- the field is read back
    have hstep : ∃ m v, (∀ w, Dict.get? all f.name = some w → Stands v w) ∧
        (∀ r, Dict.get? r f.name = some v → Landed P all ctx r fs ps → Landed P all ctx r (f :: fs) (p :: ps)) ∧ ∀ pre rest,
        fieldFromStream Γ m f ⟨pre ++ p ++ rest, pre.length⟩ ctx acc = (.ok v, ⟨pre ++ p ++ rest, pre.length + p.length⟩) := by
      rcases hpart with ⟨hskip, rfl⟩ | ⟨w, hdump, hto⟩
      · obtain ⟨h1, h2⟩ := homit done f fs hd hskip
        refine ⟨1, f.base.notPresentValue, h2, fun r hr hl => .skipped hskip hr hl, fun pre rest => ?_⟩
        simp only [fieldFromStream, fromStreamWith, h1 acc _ hc]
        rfl
      · obtain ⟨m, v, h1, h1', h2, -⟩ := hrest done f fs w hd hdump n p hto acc hc
        refine ⟨m, v, fun w' hw' => ?_, fun r hr hl => .dumped hdump hr h1 h1' hl, h2⟩
        have : Chosen f.base all.view w' := .explicit
          (by simp only [Dict.view, Dict.contains_eq]; rw [show f.base.name = f.name from rfl, hw']; rfl)
          (by simp only [Dict.view]; rw [show f.base.name = f.name from rfl, hw'])
        rw [← Chosen.unique hdump.1 this]; exact h1
    obtain ⟨m1, v, hv, hland, hload⟩ := hstep
    have hd' : d.components = (done ++ [f]) ++ fs := by rw [hd]; simp
    have hget : ∀ k, Dict.get? (acc ++ [(f.name, v)]) k = if k = f.name then some v else Dict.get? acc k := by
      intro k
      rw [Dict.get?_append, Dict.get?_cons, Dict.get?_nil]
      by_cases hkf : k = f.name
      · subst hkf; simp [hnone]
      · rw [if_neg (fun h => hkf h.symm), if_neg hkf]; simp
    have hc' : Consistent ((done ++ [f]).map Field.name) all (acc ++ [(f.name, v)]) := by
      constructor
      · intro k
        rw [hget]
        by_cases hkf : k = f.name
        · simp [hkf]
        · rw [if_neg hkf, hc.1 k]; simp [hkf]
      · intro k x w hx hw
        rw [hget] at hx
        by_cases hkf : k = f.name
        · rw [if_pos hkf] at hx; cases hx; subst hkf; exact hv w hw
        · rw [if_neg hkf] at hx; exact hc.2 k x w hx hw
    obtain ⟨m2, r, h1, h2, h2', h2'', h3⟩ := ih (done ++ [f]) (acc ++ [(f.name, v)]) hd' hc' (by
      simp only [Dict.keys, List.map_append] at hk ⊢; rw [hk]; rfl)
    refine ⟨max m1 m2, r, h1, h2, fun k x hx => h2' k x ?_, hland r (h2' _ _ (by rw [hget, if_pos rfl])) h2'', fun pre rest => ?_⟩
    · rw [hget, if_neg (fun hkf => by rw [hkf, hnone] at hx; cases hx)]; exact hx
    have e1 : pre ++ (p :: ps).flatten ++ rest = pre ++ p ++ (ps.flatten ++ rest) := by simp [List.append_assoc]
    have e2 : pre ++ (p :: ps).flatten ++ rest = (pre ++ p) ++ ps.flatten ++ rest := by simp [List.append_assoc]
    have e3 : pre.length + (p :: ps).flatten.length = (pre ++ p).length + ps.flatten.length := by simp; omega
    refine .cons (v := v) (s1 := ⟨pre ++ (p :: ps).flatten ++ rest, pre.length + p.length⟩) ?_ ?_
    · rw [e1]; exact fieldFromStream_of_le (by omega) (hload pre (ps.flatten ++ rest))
    · rw [if_pos hnone, e2, e3]
      have := Spec.Loads.of_le (m := max m1 m2) (by omega) (h3 (pre ++ p) rest)
      simpa using this

/-- The parts of a struct are read back. -/
theorem struct_restores {Γ : Classes} {ctx : Value} {d : StructDesc} {all : Dict} (hu : UniqueNames d) (hacc : AcceptsLoaded d all)
    (homit : ∀ pre f post, d.components = pre ++ f :: post → Skipped f all ctx → Omitted ctx (pre.map Field.name) all f)
    {P : Field → Value → Bytes → Value → Prop}
    (hrest : ∀ pre f post w, d.components = pre ++ f :: post → Dumped f all ctx w → Restores Γ ctx (pre.map Field.name) all f w (P f w))
    {n : Nat} {ps : List Bytes} (hparts : Parts Γ n ctx all d.components ps) :
    ∃ m r, (∃ r', r = dropDiscarded d r' ∧ Dict.keys r' = names d ∧ Landed P all ctx r' d.components ps) ∧ (∀ f ∈ d.components, f.base.discard = false → ∀ w, Dict.get? all f.name = some w →
        ∃ v, Dict.get? r f.name = some v ∧ Stands v w) ∧
      ∀ pre rest, structFromStream Γ m d ⟨pre ++ ps.flatten ++ rest, pre.length⟩ ctx [] =
        (.ok r, ⟨pre ++ ps.flatten ++ rest, pre.length + ps.flatten.length⟩) := by
  obtain ⟨m, r, h1, h2, -, h2', h3⟩ := fields_restore hu homit hrest hparts [] [] rfl ⟨by simp [Dict.get?_nil], by simp [Dict.get?_nil]⟩ rfl
  refine ⟨m + 1, dropDiscarded d r, ⟨r, rfl, h1, h2'⟩, ?_, fun pre rest => structFromStream_ok_iff.2 ⟨r, h3 pre rest, ?_, hacc r h1 h2, rfl⟩⟩
  · intro f hf hdisc w hw
    have hk : f.name ∈ Dict.keys r := by rw [h1]; exact List.mem_map.2 ⟨f, hf, rfl⟩
    cases hg : Dict.get? r f.name with
    | none => exact absurd hk ((Dict.get?_none_iff _ _).1 hg)
    | some v =>
      refine ⟨v, ?_, h2 _ _ _ hg hw⟩
      rw [dropDiscarded_get hu r hf, hdisc]; simpa using hg
  · intro k hk; rw [h1] at hk; exact hk

/-- Values passed to a nested struct in a dictionary are in its `to_dict`. -/
theorem passed_kept {Γ : Classes} {n : Nat} {d : StructDesc} {dct inner : Dict} (hu : UniqueNames d) (hp : Passed d dct)
    (h : structToDict Γ n d dct = .ok inner) {f : Field} (hf : f ∈ d.components) {w : Value} (hw : Dict.get? dct f.name = some w) :
    Dict.get? inner f.name = some w := by
  obtain ⟨hnd, hnames, hns, hvals⟩ := hp
  obtain ⟨hne, hdisc, hpres⟩ := hvals f hf w hw
  have hinst : Instance d dct := ⟨hnd, hnames⟩
  obtain ⟨-, -, hget⟩ := structToDict_get hu hinst h
  have hwin := Dict.get?_some_mem hw
  rcases hget f hf with ⟨-, h1, -⟩ | ⟨-, v, w', h1, h2, h3⟩
  · rw [hdisc] at h1; simp at h1
  · have hch : Chosen f.base (structView d dct) w := .explicit ((structContains_iff hnd).2 ⟨w, hw, hne⟩)
      (structGetItem_some (List.mem_map.2 ⟨f, hf, rfl⟩) hw)
    have hcomp : f.base.computeValueForDump (structView d dct) .none = .ok w := by
      rw [computeValueForDump_of_chosen hch]
      rcases hpres with rfl | hpres
      · simp
      · simp only [hpres]
        by_cases hnp : w = .notPresent
        · simp [hnp]
        · simp [hnp, hne]
    have hv : v = w := by
      rcases h1 with h1 | ⟨e, h1, -⟩
      · rw [hcomp] at h1; cases h1; rfl
      · rw [hcomp] at h1; simp at h1
    subst hv
    rw [(recursiveToDicts_spec h2).2 (hns _ hwin)] at h3
    exact h3

theorem nested_restores {Γ : Classes} {ctx : Value} {earlier : List String} {all : Dict} {b : FieldBase} {cls : String}
    {d : StructDesc} {dct : Dict} (hp : LoadsPresent ctx earlier all b) (ho : Open b (.dict dct)) (hcls : Γ cls = some d)
    (hu : UniqueNames d) (hpass : Passed d dct)
    (hacc : ∀ n inner, structToDict Γ n d dct = .ok inner → AcceptsLoaded d inner)
    (homit : ∀ n inner, structToDict Γ n d dct = .ok inner → ∀ pre f post, d.components = pre ++ f :: post →
      Skipped f inner ctx → Omitted ctx (pre.map Field.name) inner f)
    {P : Dict → Field → Value → Bytes → Value → Prop}
    (hrest : ∀ n inner, structToDict Γ n d dct = .ok inner → ∀ pre f post w, d.components = pre ++ f :: post →
      Dumped f inner ctx w → Restores Γ ctx (pre.map Field.name) inner f w (P inner f w))
    {Q : Bytes → Value → Prop}
    (hQ : ∀ n inner (ps : List Bytes) r, structToStream Γ (n + 1) d dct ctx = (ps.flatten, .ok ()) → structToDict Γ n d dct = .ok inner →
      Dict.keys r = names d → Landed (P inner) inner ctx r d.components ps → Q ps.flatten (.struct cls (dropDiscarded d r))) :
    Restores Γ ctx earlier all (.nested b cls) (.dict dct) Q := by
  intro n bs h loaded hc
  obtain ⟨m, hm, hdump⟩ := container_dumped (by simp) (by simp) (by simp) h
  clear h hm; rename' hdump => h
  simp only [containerDump, dumpNew, hcls] at h
  cases hi : structInit d dct with
  | error e => simp [hi, W.fail] at h
  | ok vals =>
    simp only [hi] at h
    obtain ⟨rfl, -⟩ := structInit_ok_iff.1 hi
    cases m with
    | zero => simp [structToStream, W.fail] at h
    | succ m =>
      have h0 := h
      obtain ⟨-, inner, h1, ps, h2, rfl⟩ := structToStream_ok_iff.1 h
      obtain ⟨m', r, ⟨r', hr', hr1, hr2⟩, h3, h4⟩ := struct_restores hu (hacc _ _ h1) (homit _ _ h1) (hrest _ _ h1) h2
      have hst : Stands (.struct cls r) (.dict vals) := by
        have hkey : ∀ k y, Dict.get? vals k = some y → ∃ v, Dict.get? r k = some v ∧ Stands v y := by
          intro k y hy
          have hk := hpass.2.1 k (Dict.get?_some_key hy)
          obtain ⟨f, hf, rfl⟩ := List.mem_map.1 hk
          exact h3 f hf (hpass.2.2.2 f hf y hy).2.1 y (passed_kept hu hpass h1 hf hy)
        refine .struct (fun k hk => ?_) (fun k x y hx hy => ?_)
        · cases hy : Dict.get? vals k with
          | none => exact absurd hy hk
          | some y => obtain ⟨v, hv, -⟩ := hkey k y hy; simp [hv]
        · obtain ⟨v, hv, hs⟩ := hkey k y hy
          rw [hx] at hv; cases hv; exact hs
      have hdo : ∀ pre rest, fieldDoLoad Γ (m' + 1) (.nested b cls) ⟨pre ++ ps.flatten ++ rest, pre.length⟩ ctx loaded =
          (.ok (.struct cls r), ⟨pre ++ ps.flatten ++ rest, pre.length + ps.flatten.length⟩) := by
        intro pre rest
        simp only [fieldDoLoad, containerLoad, loadStruct, hcls, h4 pre rest, R.map, Except.map]
      exact ⟨m' + 2, .struct cls r, hst, hr' ▸ hQ _ inner ps r' h0 h1 hr1 hr2, fun pre rest =>
        fromStream_open (f := .nested b cls) (hp loaded _ hc) ho hst (hdo pre rest),
        fun _ pre rest => fieldDoLoad_of_le (by omega) (hdo pre rest)⟩

theorem unionField_restores {Γ : Classes} {ctx : Value} {earlier : List String} {all : Dict} {b : FieldBase}
    {choices : List (Field ⊕ String)} {ld : Stream → Value → Dict → Except Err Nat} {dd : Value → Value → Dict → Except Err Nat}
    {i : Nat} {g : Field} {w : Value} (hp : LoadsPresent ctx earlier all b) (ho : Open b w) (hn : w ≠ .none) (hnd : w ≠ .dflt)
    (hdd : dd w ctx all = .ok i) (hi : choices[i]? = some (.inl g))
    (hld : ∀ n bs loaded pre rest, Consistent earlier all loaded → fieldToStream Γ n g w ctx all = (bs, .ok ()) →
      ld ⟨pre ++ bs ++ rest, pre.length⟩ ctx loaded = .ok i) {P : Bytes → Value → Prop}
    (hr : Restores Γ ctx earlier all g w P) {Q : Bytes → Value → Prop}
    (hQ : ∀ n bs v, fieldToStream Γ n (.union b choices ld dd) w ctx all = (bs, .ok ()) → P bs v → Q bs v) :
    Restores Γ ctx earlier all (.union b choices ld dd) w Q := by
  intro n bs h loaded hc
  have h0 := h
  replace hQ := fun v => hQ n bs v h0
  clear h0
  obtain ⟨m, hm, hdump⟩ := container_dumped (by simp) hn hnd h
  clear h hm; rename' hdump => h
  simp only [containerDump, hdd, hi] at h
  obtain ⟨m', v, hst, hPv, -, hload⟩ := hr m bs h loaded hc
  have hdo : ∀ pre rest, fieldDoLoad Γ (m' + 1) (.union b choices ld dd) ⟨pre ++ bs ++ rest, pre.length⟩ ctx loaded =
      (.ok v, ⟨pre ++ bs ++ rest, pre.length + bs.length⟩) := by
    intro pre rest
    simp only [fieldDoLoad, containerLoad, hld m bs loaded pre rest hc h, hi, hload hn pre rest]
  exact ⟨m' + 2, v, hst, hQ v hPv, fun pre rest => fromStream_open (f := .union b choices ld dd) (hp loaded _ hc) ho hst (hdo pre rest),
    fun _ pre rest => fieldDoLoad_of_le (by omega) (hdo pre rest)⟩

theorem unionStruct_restores {Γ : Classes} {ctx : Value} {earlier : List String} {all : Dict} {b : FieldBase}
    {choices : List (Field ⊕ String)} {ld : Stream → Value → Dict → Except Err Nat} {dd : Value → Value → Dict → Except Err Nat}
    {i : Nat} {cls : String} {w : Value} (hp : LoadsPresent ctx earlier all b) (ho : Open b w) (hn : w ≠ .none) (hnd : w ≠ .dflt)
    (hdd : dd w ctx all = .ok i) (hi : choices[i]? = some (.inr cls))
    (hld : ∀ n bs loaded pre rest, Consistent earlier all loaded → fieldToStream Γ n (.nested {} cls) w ctx all = (bs, .ok ()) →
      ld ⟨pre ++ bs ++ rest, pre.length⟩ ctx loaded = .ok i) {P : Bytes → Value → Prop}
    (hr : Restores Γ ctx earlier all (.nested {} cls) w P) {Q : Bytes → Value → Prop}
    (hQ : ∀ n bs v, fieldToStream Γ n (.union b choices ld dd) w ctx all = (bs, .ok ()) → P bs v → Q bs v) :
    Restores Γ ctx earlier all (.union b choices ld dd) w Q := by
  intro n bs h loaded hc
  have h0 := h
  replace hQ := fun v => hQ n bs v h0
  clear h0
  obtain ⟨m, hm, hdump⟩ := container_dumped (by simp) hn hnd h
  clear h hm; rename' hdump => h
  simp only [containerDump, hdd, hi] at h
  cases w <;> simp only at h <;> try (simp [W.fail] at h)
  rename_i dct
  have hto : fieldToStream Γ (m + 1) (.nested {} cls) (.dict dct) ctx all = (bs, .ok ()) :=
    fieldToStream_plain (f := .nested {} cls) (by simp) (by simp) (by simp) (by simp [Field.base]) (Or.inl rfl) (by
      simpa [fieldDoDump, containerDump] using h)
  obtain ⟨m', v, hst, hPv, -, hload⟩ := hr _ bs hto loaded hc
  have hload := hload (by simp)
  have hdo : ∀ pre rest, fieldDoLoad Γ (m' + 1) (.union b choices ld dd) ⟨pre ++ bs ++ rest, pre.length⟩ ctx loaded =
      (.ok v, ⟨pre ++ bs ++ rest, pre.length + bs.length⟩) := by
    intro pre rest
    have h1 := hload pre rest
    cases m' with
    | zero => simp [fieldDoLoad] at h1
    | succ k =>
      simp only [fieldDoLoad, containerLoad] at h1
      simp only [fieldDoLoad, containerLoad, hld _ bs loaded pre rest hc hto, hi]
      have hmono := load_succ Γ k
      unfold loadStruct at h1 ⊢
      cases hcls : Γ cls with
      | none => simp [hcls] at h1
      | some d =>
        simp only [hcls] at h1 ⊢
        rcases hs : structFromStream Γ k d ⟨pre ++ bs ++ rest, pre.length⟩ ctx [] with ⟨r, t⟩
        rw [hs] at h1
        cases r with
        | error e => simp [R.map, Except.map] at h1
        | ok r => rw [structFromStream_of_le (Nat.le_succ k) hs]; exact h1
  exact ⟨m' + 2, v, hst, hQ v hPv, fun pre rest => fromStream_open (f := .union b choices ld dd) (hp loaded _ hc) ho hst (hdo pre rest),
    fun _ pre rest => fieldDoLoad_of_le (by omega) (hdo pre rest)⟩

theorem proper_restores {Γ : Classes} {ctx : Value} {earlier : List String} {all : Dict} {f : Field} {w : Value}
    (h : Proper Γ ctx earlier all f w) : Restores Γ ctx earlier all f w (fun _ _ => True) := by
  induction h with
  | null h1 h2 h3 => exact null_restores h1 h2 h3 fun _ _ _ => trivial
  | leaf h1 h2 h3 h4 => exact leaf_field_restores h1 h2 h3 h4 fun _ _ _ => trivial
  | array h1 h2 h3 h4 _ ih => exact array_restores h1 h2 h3 h4 ih fun _ _ _ _ _ _ _ => trivial
  | nested h1 h2 h3 h4 h5 h6 h7 _ ih =>
    exact nested_restores (P := fun _ _ _ _ _ => True) h1 h2 h3 h4 h5 h6 h7 ih fun _ _ _ _ _ _ _ _ => trivial
  | unionField h1 h2 h3 h4 h5 h6 h7 _ ih => exact unionField_restores h1 h2 h3 h4 h5 h6 h7 ih fun _ _ _ _ _ => trivial
  | unionStruct h1 h2 h3 h4 h5 h6 h7 _ ih => exact unionStruct_restores h1 h2 h3 h4 h5 h6 h7 ih fun _ _ _ _ _ => trivial

end Verif
