import Verif.Proofs.Field
import Verif.Spec.Samples

/-!
# Properties of a single field

C08, C09, C11 (field level), C13, C14, C15, C16 (field level), C17, C18, C20 (field level), C21, C23.

`n` is the fuel of the model (see `Verif.Model.Dump`); a theorem that holds for every `n` holds for every execution.
-/

namespace Verif
open Spec

/-! ## C08, C09: variable-length integers -/

/-- **C08** (field) A field with an unsigned variable-length encoding rejects a negative number with
`UnserializableValueError` and writes nothing. -/
theorem C08_field_rejects_negative (Γ : Classes) (n : Nat) (b : FieldBase) (enc : VarIntEncoding) (max : Option Int)
    (i : Int) (ctx : Value) (all : Dict) (henc : enc.signed = false) (hi : i < 0)
    (hv : Accepts (.leaf b (.varint enc max)) (.int i)) :
    fieldToStream Γ (n + 1) (.leaf b (.varint enc max)) (.int i) ctx all = ([], .error (.unserializable b.name)) := by
  rw [fieldToStream_succ, toStreamWith_plain (by simp) (by simp) (by simp) hv]
  simp [fieldDoDump, leafDump, (C08_unsigned_rejects_negative enc i).1 ⟨hi, henc⟩, unserializableOnRange,
    Err.isValueErr, W.fail, W.toExcept]

example : fieldToStream Sample.noClasses 1 (Sample.vlq "n") (.int (-5)) .none [] = ([], .error (.unserializable "n")) := by
  decide

/-- **C09** A field with `max_bytes=m` (and no `size`) writes the encoding of the number if it takes at most `m` bytes; otherwise
it raises `ValueSizeError` and writes nothing. -/
theorem C09_max_bytes_dump (Γ : Classes) (n : Nat) (b : FieldBase) (enc : VarIntEncoding) (m i : Int) (ctx : Value)
    (all : Dict) (code : Bytes) (hcode : enc.encode i = .ok code) (hsize : b.size = .none)
    (hv : Accepts (.leaf b (.varint enc (some m))) (.int i)) :
    fieldToStream Γ (n + 1) (.leaf b (.varint enc (some m))) (.int i) ctx all =
      if (code.length : Int) ≤ m then (code, .ok ()) else ([], .error (.valueSize b.name)) := by
  rw [fieldToStream_succ, toStreamWith_plain (by simp) (by simp) (by simp) hv]
  by_cases h : (code.length : Int) > m
  · rw [if_neg (by omega)]
    simp [fieldDoDump, leafDump, hcode, unserializableOnRange, W.fail, W.toExcept, h]
  · rw [if_pos (by omega)]
    simp [fieldDoDump, leafDump, hcode, unserializableOnRange, W.ok, W.toExcept, h, finishDump, Field.base, hsize]

/-- **C09** Whatever else is declared for the field (`size`, `const`, a default that is dumped, …), a field with `max_bytes=m` writes at most `m`
bytes for a value other than `None`. -/
theorem C09_max_bytes_bound (Γ : Classes) (n : Nat) (b : FieldBase) (enc : VarIntEncoding) (m : Int) (v w ctx : Value) (all : Dict) (bs : Bytes)
    (heff : Effective (.leaf b (.varint enc (some m))) v w) (hnone : w ≠ .none)
    (h : fieldToStream Γ n (.leaf b (.varint enc (some m))) v ctx all = (bs, .ok ())) : (bs.length : Int) ≤ m := by
  cases n with
  | zero => simp [fieldToStream, W.fail] at h
  | succ n =>
    rw [fieldToStream_succ] at h
    obtain ⟨w', hw, -, -, -, hcase⟩ := toStreamWith_ok h
    have hww : w' = w := by
      rcases heff with ⟨h1, h2⟩ | ⟨h1, h2⟩
      · simp [h1] at hw; rw [h2, hw]
      · simp [h1, h2] at hw; exact hw.symm
    subst hww
    rcases hcase with ⟨h1, -⟩ | ⟨-, ser, hser, hfin⟩
    · exact absurd h1 hnone
    · have hbs : bs = ser := by
        rcases finishDump_ok hfin with ⟨-, h1⟩ | ⟨k, -, ⟨-, h1⟩ | ⟨-, h1⟩⟩
        · exact h1
        · exact h1
        · simp [fieldAddPadding, leafAddPadding] at h1
      subst hbs
      simp only [fieldDoDump, leafDump] at hser
      split at hser
      · split at hser
        · simp [W.fail] at hser
        · split at hser
          · simp [W.fail] at hser
          · simp [W.ok] at hser; subst hser; omega
      · simp [W.fail] at hser

-- `VariableLengthInteger(vli_format=VLQ, max_bytes=2, size=2)`
example : (fieldToStream Sample.noClasses 2 (Sample.upd (Sample.vlq "v" (some 2)) ({ · with size := .fixed 2 })) (.int 300) .none []) = ([0x82, 0x2C], .ok ()) := by
  decide

/-- **C09** (load) `max_bytes` plays no role when loading: every number that the encoding can represent, however long, loads. -/
theorem C09_max_bytes_not_enforced_on_load (Γ : Classes) (n : Nat) (b : FieldBase) (enc : VarIntEncoding)
    (m m' : Option Int) (s : Stream) (ctx : Value) (loaded : Dict) (hnull : b.allowNull = false) :
    fieldFromStream Γ n (.leaf b (.varint enc m)) s ctx loaded =
      fieldFromStream Γ n (.leaf b (.varint enc m')) s ctx loaded := by
  cases n with
  | zero => rfl
  | succ n =>
    have : ∀ m, fieldFromStream Γ (n + 1) (.leaf b (.varint enc m)) s ctx loaded =
        fromStreamWith b (pyEq Γ n) (.ok []) (fun s => fieldDoLoad Γ n (.leaf b (.varint enc m)) s ctx loaded) s ctx
          loaded := by
      intro m
      simp only [fieldFromStream, Field.base, fromStreamWith, hnull, Bool.false_eq_true, if_false]
    rw [this, this]
    have h2 : (fun s => fieldDoLoad Γ n (.leaf b (.varint enc m)) s ctx loaded) =
        (fun s => fieldDoLoad Γ n (.leaf b (.varint enc m')) s ctx loaded) := by
      funext s
      cases n <;> rfl
    rw [h2]

example : fieldToStream Sample.noClasses 1 (Sample.vlq "n" (some 1)) (.int 127) .none [] = ([0x7F], .ok ()) := by decide
example : fieldToStream Sample.noClasses 1 (Sample.vlq "n" (some 1)) (.int 128) .none [] =
    ([], .error (.valueSize "n")) := by decide
example : fieldFromStream Sample.noClasses 2 (Sample.vlq "n" (some 1)) ⟨[0x81, 0x00], 0⟩ .none [] =
    (.ok (.int 128), ⟨[0x81, 0x00], 2⟩) := by decide

/-! ## C11: range of fixed-size integers -/

/-- **C11** (field) An `Integer` field of `k ≥ 1` bytes writes exactly `k` bytes for the numbers in its range, and for all
others raises `UnserializableValueError` and writes nothing. -/
theorem C11_field_range (Γ : Classes) (n : Nat) (b : FieldBase) (k : Nat) (hk : 0 < k) (signed : Bool) (e : Endian) (i : Int)
    (ctx : Value) (all : Dict) (hsize : b.size = .fixed k) (hv : Accepts (.leaf b (.integer signed e)) (.int i)) :
    (InRange k signed i → ∃ bs, fieldToStream Γ (n + 1) (.leaf b (.integer signed e)) (.int i) ctx all = (bs, .ok ()) ∧
      bs.length = k) ∧
    (¬ InRange k signed i →
      fieldToStream Γ (n + 1) (.leaf b (.integer signed e)) (.int i) ctx all = ([], .error (.unserializable b.name))) := by
  rw [fieldToStream_succ, toStreamWith_plain (by simp) (by simp) (by simp) hv]
  obtain ⟨h1, h2⟩ := C11_write_int_range i k hk e signed
  constructor
  · intro h
    obtain ⟨bs, h3, h4⟩ := h1 h
    refine ⟨bs, ?_, h4⟩
    simp [fieldDoDump, leafDump, hsize, h3, unserializableOnRange, W.ofExcept, W.ok, W.toExcept, finishDump, Field.base, h4]
  · intro h
    simp [fieldDoDump, leafDump, hsize, h2 h, unserializableOnRange, W.ofExcept, W.fail, W.toExcept]

example : fieldToStream Sample.noClasses 1 (Sample.i16 "x") (.int 32768) .none [] = ([], .error (.unserializable "x")) ∧
    fieldToStream Sample.noClasses 1 (Sample.i16 "x") (.int (-32768)) .none [] = ([0x00, 0x80], .ok ()) := by decide

/-! ## C13: short reads -/

/-- **C13** If fewer than `k` bytes are left in the stream, loading a present field of declared size `k` (integer, float, timestamp, bytes,
string, UUID) raises `UnexpectedEOFError` that names the field and the `k` bytes requested.  (Integers need a fixed size, a
UUID's size is that of its format; a nullable field whose null representation is not what is left behaves the same.) -/
theorem C13_short_read (Γ : Classes) (n : Nat) (b : FieldBase) (kd : Leaf) (k : Int) (s : Stream) (ctx : Value)
    (loaded : Dict) (hkd : ReadsExactly kd) (hsize : DeclaredSize (.leaf b kd) loaded k)
    (hint : ∀ signed e, kd = .integer signed e → b.size = .fixed k) (huuid : ∀ fmt, kd = .uuid fmt → (fmt.size : Int) = k)
    (hpresent : b.present loaded.view ctx (some s) = .ok true)
    (hnull : b.nullValue = .undefined ∨ b.nullValue = .dflt ∨
      ∃ repr, fieldNullRepr Γ (n + 1) (.leaf b kd) loaded = .ok repr ∧ ¬ repr <+: s.rest)
    (hshort : (s.rest.length : Int) < k) :
    ∃ off s', fieldFromStream Γ (n + 2) (.leaf b kd) s ctx loaded = (.error (.eof (some b.name) k off), s') := by
  have hexp : leafExpectedSize b kd loaded = .ok k := leafExpectedSize_declared hsize
  obtain ⟨fld, off, s', hl⟩ := leafLoad_short b kd k s ctx loaded hkd hint huuid hshort
  refine ⟨off, s', ?_⟩
  show fromStreamWith b _ _ _ s ctx loaded = _
  rw [fromStreamWith_plain hpresent]
  · simp only [loadAndFinish, fieldDoLoad, hexp, hl, setErrField]
  · rcases hnull with h | h | ⟨repr, h, hne⟩
    · left; simp [FieldBase.allowNull, h]
    · right
      refine ⟨List.replicate k.toNat 0, ?_, ?_⟩
      · show fieldNullRepr Γ (n + 1) (.leaf b kd) loaded = _
        simp [fieldNullRepr, leafNullRepr, FieldBase.nullReprWith, h, hexp]
      · intro heq
        have := congrArg List.length heq
        simp at this
        omega
    · right
      refine ⟨repr, h, ?_⟩
      · intro heq; exact hne (by rw [← heq]; exact List.take_prefix ..)

example : fieldFromStream Sample.noClasses 2 (Sample.bytesRef "p" "n") ⟨[1, 2, 3], 1⟩ .none [("n", .int 5)] =
    (.error (.eof (some "p") 5 1), ⟨[1, 2, 3], 3⟩) := by decide
example : DeclaredSize (Sample.bytesRef "p" "n") [("n", .int 5)] 5 := Or.inr ⟨"n", rfl, by decide⟩

/-! ## C14: all or nothing -/

/-- **C14** If `Field.to_stream` raises, it has written nothing — for every field, value, context. -/
theorem C14_field_dump_all_or_nothing (Γ : Classes) (n : Nat) (f : Field) (v ctx : Value) (all : Dict) (e : Err)
    (h : (fieldToStream Γ n f v ctx all).2 = .error e) : (fieldToStream Γ n f v ctx all).1 = [] := by
  cases n with
  | zero => cases f <;> rfl
  | succ n => rw [fieldToStream_succ] at h ⊢; exact toStreamWith_error h

-- an array whose last element cannot be dumped
example : fieldToStream Sample.noClasses 2 (Sample.array "a" (Sample.u8 "") (.fixed 3)) (.list [.int 1, .int 2, .int 300])
    .none [] = ([], .error (.unserializable "")) := by decide

/-! ## C15: declared size -/

/-- **C15** A field with a declared size (fixed, or given by another field) that dumps a value other than `None` writes exactly
that many bytes. -/
theorem C15_declared_size_written (Γ : Classes) (n : Nat) (f : Field) (v w ctx : Value) (all : Dict) (bs : Bytes) (k : Int)
    (hsize : DeclaredSize f all k) (heff : Effective f v w) (hnone : w ≠ .none) (hpad : PadsExactly f)
    (h : fieldToStream Γ n f v ctx all = (bs, .ok ())) : (bs.length : Int) = k := by
  cases n with
  | zero => cases f <;> simp [fieldToStream, W.fail] at h
  | succ n =>
    rw [fieldToStream_succ] at h
    obtain ⟨w', hw, -, -, -, hcase⟩ := toStreamWith_ok h
    have hww : w' = w := by
      rcases heff with ⟨h1, h2⟩ | ⟨h1, h2⟩
      · simp [h1] at hw; rw [h2, hw]
      · simp [h1, h2] at hw; exact hw.symm
    subst hww
    rcases hcase with ⟨h1, -⟩ | ⟨-, ser, -, hfin⟩
    · exact absurd h1 hnone
    · rcases finishDump_ok hfin with ⟨hs, -⟩ | ⟨k', hk', hcase⟩
      · rcases hsize with hs' | ⟨nm, hs', -⟩ <;> simp [hs'] at hs
      · have hkk : k' = k := by
          rw [fieldExpectedSize_declared hsize] at hk'
          rcases hsize with hs' | ⟨nm, hs', -⟩
          · rcases hk' with h1 | ⟨_, h1, -⟩
            · rw [hs'] at h1; cases h1; rfl
            · simp [hs'] at h1
          · rcases hk' with h1 | ⟨_, -, h1⟩
            · simp [hs'] at h1
            · cases h1; rfl
        subst hkk
        rcases hcase with ⟨h1, h2⟩ | ⟨h1, h2⟩
        · rw [h2]; exact h1
        · exact padsExactly_length hpad h1 h2

/-- **C15** (null) With `null_value=DEFAULT` the representation of `None` also has exactly the declared size. -/
theorem C15_default_null_size (Γ : Classes) (n : Nat) (f : Field) (ctx : Value) (all : Dict) (bs : Bytes) (k : Nat)
    (hsize : DeclaredSize f all k) (hnull : f.base.nullValue = .dflt)
    (h : fieldToStream Γ n f .none ctx all = (bs, .ok ())) : bs = List.replicate k 0 := by
  cases n with
  | zero => cases f <;> simp [fieldToStream, W.fail] at h
  | succ n =>
    rw [fieldToStream_succ] at h
    obtain ⟨w', hw, -, -, -, hcase⟩ := toStreamWith_ok h
    simp at hw; subst hw
    rcases hcase with ⟨-, hr⟩ | ⟨h1, -⟩
    · have hes := fieldExpectedSize_declared (Γ := Γ) (n := n) hsize
      cases f <;>
      · simp only [Field.base] at hnull
        simp only [fieldNullRepr, leafNullRepr, containerNullRepr, FieldBase.nullReprWith, hnull, Field.base] at hr
        simp only [fieldExpectedSize, Field.base] at hes
        rw [hes] at hr
        simp at hr; exact hr.symm
    · exact absurd rfl h1

/-- **C15** is about values other than `None` for a reason: a `null_value` given as bytes is written as it is, whatever its
length. -/
theorem C15_null_bytes_size_refuted :
    ¬ ∀ (Γ : Classes) (n : Nat) (f : Field) (ctx : Value) (all : Dict) (bs : Bytes) (k : Int), DeclaredSize f all k →
      fieldToStream Γ n f .none ctx all = (bs, .ok ()) → (bs.length : Int) = k := by
  intro h
  have := h Sample.noClasses 1 (Sample.upd (Sample.u16 "x") ({ · with nullValue := .bytes [0xFF] })) .none [] [0xFF] 2
    (Or.inl rfl) (by decide)
  simp at this

example : fieldToStream Sample.noClasses 1 (Sample.str "s" 5 (some 0x20)) (.str [0x61, 0x62]) .none [] =
    ([0x61, 0x62, 0x20, 0x20, 0x20], .ok ()) := by decide
example : fieldToStream Sample.noClasses 1 (Sample.bytesRef "p" "n") (.bytes [7, 8]) .none [("n", .int 2)] =
    ([7, 8], .ok ()) := by decide

/-- `has_fixed_size` is right: it says yes exactly when an integer was given for `size`, and then whatever the field writes, for values other than `None`,
has the same length, whatever the values of the other fields are. -/
theorem C15_has_fixed_size (f : Field) :
    ((∃ k, f.base.size = .fixed k) → f.base.hasFixedSize = true) ∧
    (f.base.hasFixedSize = true → ∃ k : Int, ∀ (Γ : Classes) (n : Nat) (v w ctx : Value) (all : Dict) (bs : Bytes),
      Effective f v w → w ≠ .none → PadsExactly f → fieldToStream Γ n f v ctx all = (bs, .ok ()) → (bs.length : Int) = k) := by
  unfold FieldBase.hasFixedSize
  refine ⟨fun ⟨k, hk⟩ => by rw [hk], fun h => ?_⟩
  split at h
  · rename_i k hk
    exact ⟨k, fun Γ n v w ctx all bs he hn hp hd => C15_declared_size_written Γ n f v w ctx all bs k (Or.inl hk) he hn hp hd⟩
  · cases h

example : (Sample.u16 "x").base.hasFixedSize = true ∧ (Sample.bytesRef "p" "n").base.hasFixedSize = false ∧
    (Sample.strz "s").base.hasFixedSize = false := by decide

/-- **C15** A size given by another field must be there and be an integer: loading a byte string, string or timestamp otherwise fails with
`MissingRequiredValueError` or `TypeError`, and reads nothing. -/
theorem C15_bad_size_reference (Γ : Classes) (n : Nat) (b : FieldBase) (kd : Leaf) (name : String) (s : Stream) (ctx : Value)
    (loaded : Dict) (hkd : kd = .bytes ∨ (∃ c p, kd = .string c p) ∨ ∃ r a g e, kd = .timestamp r a g e)
    (hsize : b.size = .ref name) (hpresent : b.present loaded.view ctx (some s) = .ok true) (hnull : b.nullValue = .undefined) :
    (loaded.get? name = none →
      fieldFromStream Γ (n + 2) (.leaf b kd) s ctx loaded = (.error (.missingRequired name), s)) ∧
    (∀ v, loaded.get? name = some v → (∀ i, v ≠ .int i) →
      fieldFromStream Γ (n + 2) (.leaf b kd) s ctx loaded = (.error .typeErr, s)) := by
  have key : ∀ e, sizeFromRef loaded name = .error e → setErrField b.name e = e →
      fieldFromStream Γ (n + 2) (.leaf b kd) s ctx loaded = (.error e, s) := by
    intro e he hset
    have hexp : leafExpectedSize b kd loaded = .error e := by
      unfold leafExpectedSize FieldBase.expectedSizeWith
      rw [hsize]; exact he
    show fromStreamWith b _ _ _ s ctx loaded = _
    rw [fromStreamWith_plain hpresent (Or.inl (by simp [FieldBase.allowNull, hnull]))]
    rcases hkd with rfl | ⟨c, p, rfl⟩ | ⟨r, a, g, x, rfl⟩ <;>
      simp [loadAndFinish, fieldDoLoad, hexp, leafLoad, readExactSize, R.map, R.andThen, Except.map, Except.bind, hset]
  constructor
  · intro h
    exact key _ (by simp [sizeFromRef, h]) rfl
  · intro v h hv
    refine key _ ?_ rfl
    unfold sizeFromRef
    rw [h]
    cases v <;> first | rfl | exact absurd rfl (hv _)

example : fieldFromStream Sample.noClasses 2 (Sample.bytesRef "p" "n") ⟨[1, 2], 0⟩ .none [("n", .none)] = (.error .typeErr, ⟨[1, 2], 0⟩) := by
  decide

/-! ## C16 (loading) -/

/-- **C16** (loading) A field whose `present` callable says no consumes nothing and yields its `not_present_value`. -/
theorem C16_absent_loads_nothing (Γ : Classes) (n : Nat) (f : Field) (s : Stream) (ctx : Value) (loaded : Dict)
    (h : f.base.present loaded.view ctx (some s) = .ok false) :
    fieldFromStream Γ (n + 1) f s ctx loaded = (.ok f.base.notPresentValue, s) := by
  simp only [fieldFromStream, fromStreamWith, h]

/-! ## C17: None -/

/-- **C17** What is written for `None` is loaded as `None`, consuming exactly those bytes — whenever the null representation
the loader computes from the fields loaded so far is the one the dumper computed from all fields. -/
theorem C17_none_round_trip (Γ : Classes) (n : Nat) (f : Field) (ctx ctx' : Value) (all loaded : Dict)
    (bs pre post : Bytes) (hsame : fieldNullRepr Γ n f loaded = fieldNullRepr Γ n f all)
    (hpresent : f.base.present loaded.view ctx' (some ⟨pre ++ bs ++ post, pre.length⟩) = .ok true)
    (h : fieldToStream Γ (n + 1) f .none ctx all = (bs, .ok ())) :
    fieldFromStream Γ (n + 1) f ⟨pre ++ bs ++ post, pre.length⟩ ctx' loaded =
      (.ok .none, ⟨pre ++ bs ++ post, pre.length + bs.length⟩) := by
  rw [fieldToStream_succ] at h
  obtain ⟨w', hw, -, -, hv, hcase⟩ := toStreamWith_ok h
  simp at hw; subst hw
  rcases hcase with ⟨-, hr⟩ | ⟨h1, -⟩
  · have ha : f.base.allowNull = true := by
      cases hb : f.base.allowNull with
      | true => rfl
      | false =>
        have hu : f.base.nullValue = .undefined := by simpa [FieldBase.allowNull] using hb
        cases f <;>
        · simp only [Field.base] at hu
          simp [fieldNullRepr, leafNullRepr, containerNullRepr, FieldBase.nullReprWith, hu, Field.base] at hr
    show fromStreamWith _ _ _ _ _ _ _ = _
    rw [fromStreamWith_null hpresent ha (hsame.trans hr) (by simp [Stream.rest]) hv]
    rfl
  · exact absurd rfl h1

/-- The hypothesis of `C17_none_round_trip` holds for a `null_value` given as bytes … -/
theorem C17_same_bytes (Γ : Classes) (n : Nat) (f : Field) (a b : Dict) (bs : Bytes) (h : f.base.nullValue = .bytes bs) :
    fieldNullRepr Γ n f a = fieldNullRepr Γ n f b := by
  cases f <;>
  · simp only [Field.base] at h
    simp [fieldNullRepr, leafNullRepr, containerNullRepr, FieldBase.nullReprWith, h, Field.base]

/-- … for `null_value=DEFAULT` on a field whose declared size is the same on both sides … -/
theorem C17_same_default (Γ : Classes) (n : Nat) (f : Field) (a b : Dict) (k : Int) (h : f.base.nullValue = .dflt)
    (ha : DeclaredSize f a k) (hb : DeclaredSize f b k) : fieldNullRepr Γ n f a = fieldNullRepr Γ n f b := by
  have h1 := fieldExpectedSize_declared (Γ := Γ) (n := n) ha
  have h2 := fieldExpectedSize_declared (Γ := Γ) (n := n) hb
  cases f <;>
  · simp only [Field.base] at h
    simp only [fieldNullRepr, leafNullRepr, containerNullRepr, FieldBase.nullReprWith, h, Field.base]
    simp only [fieldExpectedSize, Field.base] at h1 h2
    rw [h1, h2]

/-- … and for any `null_value` on a built-in field without children whose declared size is the same on both sides. -/
theorem C17_same_value (Γ : Classes) (n : Nat) (b : FieldBase) (kd : Leaf) (x y : Dict) (k : Int)
    (hkd : ∀ ops, kd ≠ .custom ops) (hx : DeclaredSize (.leaf b kd) x k) (hy : DeclaredSize (.leaf b kd) y k) :
    fieldNullRepr Γ n (.leaf b kd) x = fieldNullRepr Γ n (.leaf b kd) y := by
  have hdump : ∀ e v c, leafDump b kd e v c x = leafDump b kd e v c y := by
    intro e v c
    cases kd with
    | custom ops => exact absurd rfl (hkd ops)
    | _ => rfl
  simp only [fieldNullRepr, leafNullRepr, leafExpectedSize_declared hx, leafExpectedSize_declared hy, hdump]

/-- **C17** `null_value=DEFAULT` on a field whose size is not known when it is loaded: `CannotDetermineNullError`, and nothing is read. -/
theorem C17_undetermined_null (Γ : Classes) (n : Nat) (f : Field) (s : Stream) (ctx : Value) (loaded : Dict) (name : String)
    (hnull : f.base.nullValue = .dflt) (hsize : fieldExpectedSize Γ n f loaded = .error (.undefinedSize name))
    (hpresent : f.base.present loaded.view ctx (some s) = .ok true) :
    fieldFromStream Γ (n + 1) f s ctx loaded = (.error (.cannotDetermineNull f.name), s) := by
  have ha : f.base.allowNull = true := by simp [FieldBase.allowNull, hnull]
  have hr : fieldNullRepr Γ n f loaded = .error (.unserializable f.name) := by
    cases f <;>
    · simp only [Field.base] at hnull
      simp only [fieldExpectedSize, Field.base] at hsize
      simp [fieldNullRepr, leafNullRepr, containerNullRepr, FieldBase.nullReprWith, hnull, Field.base, hsize, Field.name]
  rw [fieldFromStream]
  unfold fromStreamWith
  simp [hpresent, ha, hr, Err.isUnserializable, hnull, Field.name]

/-- **C17** Any other `null_value` whose bytes are not known then: the value is loaded, and is taken for null if it equals `null_value`. -/
theorem C17_null_by_value (Γ : Classes) (n : Nat) (f : Field) (s s' : Stream) (ctx : Value) (loaded : Dict) (e : Err) (v : Value) (isNull : Bool)
    (hnull : f.base.nullValue ≠ .dflt) (hallow : f.base.nullValue ≠ .undefined) (hr : fieldNullRepr Γ n f loaded = .error e) (he : e.isUnserializable = true)
    (hpresent : f.base.present loaded.view ctx (some s) = .ok true) (hraw : fieldDoLoad Γ n f s ctx loaded = (.ok v, s'))
    (heq : pyEq Γ n v f.base.nullValue = .ok isNull) (hconst : f.base.const = .undefined) (hval : f.base.validators = []) :
    fieldFromStream Γ (n + 1) f s ctx loaded = (.ok (if isNull then .none else v), s') := by
  have ha : f.base.allowNull = true := by simp [FieldBase.allowNull, hallow]
  rw [fieldFromStream]
  unfold fromStreamWith
  simp [hpresent, ha, hr, he, hnull, loadAndFinish, hraw, finishLoad, heq, hconst, hval, runValidators]

-- `StringZ(null_value=DEFAULT)`
example : fieldFromStream Sample.noClasses 3 (Sample.upd (Sample.strz "x") ({ · with nullValue := .dflt })) ⟨[0x61, 0], 0⟩ .none [] =
    (.error (.cannotDetermineNull "x"), ⟨[0x61, 0], 0⟩) :=
  C17_undetermined_null _ _ _ _ _ _ "x" rfl rfl rfl
-- `UInt16(null_value=70000)`
example : fieldFromStream Sample.noClasses 3 (Sample.upd (Sample.u16 "x") ({ · with nullValue := .int 70000 })) ⟨[1, 2], 0⟩ .none [] =
    (.ok (.int 258), ⟨[1, 2], 2⟩) :=
  C17_null_by_value _ _ _ _ _ _ _ (.unserializable "x") (.int 258) false (by decide) (by decide) (by decide +kernel) rfl rfl (by decide +kernel) (by decide +kernel) rfl rfl

example : fieldToStream Sample.noClasses 1 (Sample.upd (Sample.u16 "x") ({ · with nullValue := .int 0xFFFF })) .none .none []
    = ([0xFF, 0xFF], .ok ()) := by decide
example : fieldFromStream Sample.noClasses 2 (Sample.upd (Sample.u16 "x") ({ · with nullValue := .int 0xFFFF }))
    ⟨[1, 0xFF, 0xFF, 2], 1⟩ .none [] = (.ok .none, ⟨[1, 0xFF, 0xFF, 2], 3⟩) := by decide

/-! ## C18: const -/

/-- **C18** A present `const` field that loads successfully yields a value equal to the constant, or `None` if it is nullable. -/
theorem C18_const_enforced_on_load (Γ : Classes) (n : Nat) (f : Field) (s s' : Stream) (ctx : Value) (loaded : Dict) (v : Value)
    (hconst : f.base.const ≠ .undefined) (h : fieldFromStream Γ (n + 1) f s ctx loaded = (.ok v, s')) :
    pyEq Γ n v f.base.const = .ok true ∨ (f.base.allowNull = true ∧ v = .none) ∨
      (f.base.present loaded.view ctx (some s) = .ok false ∧ v = f.base.notPresentValue) := by
  rcases fromStreamWith_ok h with ⟨h1, h2, -⟩ | ⟨-, -, ⟨h1, h2, -⟩ | ⟨w, -, h2⟩⟩
  · exact Or.inr (Or.inr ⟨h1, h2⟩)
  · exact Or.inr (Or.inl ⟨h1, h2⟩)
  · exact Or.inl ((finishLoad_ok h2).2.2.1 hconst)

/-- **C18** (conversely) When the bytes decode to something that is not equal to the constant of a present, non-nullable field, loading
raises `ValidationError`. -/
theorem C18_other_bytes_rejected (Γ : Classes) (n : Nat) (f : Field) (s s' : Stream) (ctx : Value) (loaded : Dict) (v : Value)
    (hconst : f.base.const ≠ .undefined) (hnull : f.base.allowNull = false)
    (hpresent : f.base.present loaded.view ctx (some s) = .ok true)
    (hraw : fieldDoLoad Γ n f s ctx loaded = (.ok v, s')) (hne : pyEq Γ n v f.base.const = .ok false) :
    fieldFromStream Γ (n + 1) f s ctx loaded = (.error (.validation f.name), s') := by
  show fromStreamWith _ _ _ _ _ _ _ = _
  rw [fromStreamWith_plain hpresent (Or.inl hnull)]
  simp [loadAndFinish, hraw, finishLoad, hnull, hconst, hne, Field.name]

example : fieldFromStream Sample.noClasses 2 (Sample.upd (Sample.u16 "magic") ({ · with const := .int 0x0102 }))
    ⟨[1, 3], 0⟩ .none [] = (.error (.validation "magic"), ⟨[1, 3], 2⟩) := by decide
example : fieldFromStream Sample.noClasses 2 (Sample.upd (Sample.u16 "magic") ({ · with const := .int 0x0102 }))
    ⟨[1, 2], 0⟩ .none [] = (.ok (.int 0x0102), ⟨[1, 2], 2⟩) := by decide

/-! ## C20: validators of a field -/

/-- **C20** (load) A value that some validator of a present field rejects is never returned by `from_stream`. -/
theorem C20_load_validates (Γ : Classes) (n : Nat) (f : Field) (s s' : Stream) (ctx : Value) (loaded : Dict) (v : Value)
    (hpresent : f.base.present loaded.view ctx (some s) = .ok true)
    (h : fieldFromStream Γ (n + 1) f s ctx loaded = (.ok v, s')) : Accepts f v := by
  rcases fromStreamWith_ok h with ⟨h1, -⟩ | ⟨-, h2, -⟩
  · rw [hpresent] at h1; cases h1
  · exact h2

/-- **C20** (dump) Dumping a value that some validator rejects raises that validator's exception and writes nothing. -/
theorem C20_dump_validates (Γ : Classes) (n : Nat) (f : Field) (v w ctx : Value) (all : Dict) (heff : Effective f v w)
    (hdef : w ≠ .undefined ∧ w ≠ .dflt) (hbad : ¬ Accepts f w) :
    ∃ check ∈ f.base.validators, ∃ e, check w = .error e ∧
      fieldToStream Γ (n + 1) f v ctx all = ([], .error e) := by
  obtain ⟨c, hc, e, h1, h2⟩ := runValidators_error _ _ hbad
  refine ⟨c, hc, e, h1, ?_⟩
  rw [fieldToStream_succ]
  have : (if v = .dflt then f.base.default else .ok v) = .ok w := by
    rcases heff with ⟨h1, h2⟩ | ⟨h1, h2⟩ <;> simp [h1, h2]
  simp [toStreamWith, this, hdef, h2, W.fail]

/-- **C20** (assignment) Assigning a value that some validator rejects raises that validator's exception; the struct keeps its values. -/
theorem C20_assign_validates (f : Field) (vals : Dict) (v : Value) (hbad : ¬ Accepts f v) :
    ∃ e, fieldSet f vals v = (.error e, vals) := by
  unfold fieldSet
  split
  · exact ⟨_, rfl⟩
  · obtain ⟨c, hc, e, h1, h2⟩ := runValidators_error _ _ hbad
    exact ⟨e, by rw [h2]⟩

/-- A validator that wants an `int` below 10. -/
def Sample.below10 : Value → Except Err Unit
  | .int i => if i < 10 then .ok () else .error (.validation "x")
  | _ => .error (.validation "x")

example : ¬ Accepts (Sample.upd (Sample.u8 "x") ({ · with validators := [Sample.below10] })) (.int 11) := by
  intro h; have := h Sample.below10 (by simp [Sample.upd, Sample.u8, Field.withBase, Field.base]); revert this; decide
example : fieldFromStream Sample.noClasses 2 (Sample.upd (Sample.u8 "x") ({ · with validators := [Sample.below10] }))
    ⟨[9], 0⟩ .none [] = (.ok (.int 9), ⟨[9], 1⟩) := by decide

/-! ## C21: `Field.from_bytes` -/

/-- **C21** `from_bytes(data, exact=True)` succeeds exactly if `from_stream` does and leaves no byte unread. -/
theorem C21_from_bytes_exact (Γ : Classes) (n : Nat) (f : Field) (data : Bytes) (ctx : Value) (loaded : Dict) (v : Value) :
    fieldFromBytes Γ n f data ctx true loaded = .ok v ↔
      ∃ s', fieldFromStream Γ n f ⟨data, 0⟩ ctx loaded = (.ok v, s') ∧ data.length ≤ s'.pos := by
  unfold fieldFromBytes
  rcases fieldFromStream Γ n f ⟨data, 0⟩ ctx loaded with ⟨r, s'⟩
  cases r with
  | error e => simp
  | ok w =>
    simp only [true_and, Stream.tell]
    by_cases h : (data.length : Int) - s'.pos > 0
    · rw [if_pos h]
      constructor
      · intro h'; simp at h'
      · rintro ⟨t, h1, h2⟩
        simp only [Prod.mk.injEq] at h1
        rw [h1.2] at h; omega
    · rw [if_neg h]
      constructor
      · intro h'; simp only [Except.ok.injEq] at h'; exact ⟨s', by rw [h'], by omega⟩
      · rintro ⟨t, h1, h2⟩; simp only [Prod.mk.injEq] at h1; exact h1.1

/-- **C21** With bytes left over, `from_bytes(data, exact=True)` raises `ExtraneousDataError`; without `exact` it never looks at
the rest. -/
theorem C21_from_bytes_extraneous (Γ : Classes) (n : Nat) (f : Field) (data : Bytes) (ctx : Value) (loaded : Dict) (v : Value)
    (s' : Stream) (h : fieldFromStream Γ n f ⟨data, 0⟩ ctx loaded = (.ok v, s')) :
    (s'.pos < data.length → fieldFromBytes Γ n f data ctx true loaded = .error .extraneous) ∧
    fieldFromBytes Γ n f data ctx false loaded = .ok v := by
  unfold fieldFromBytes
  rw [h]
  refine ⟨fun hlt => ?_, by simp⟩
  simp only [true_and, Stream.tell]
  rw [if_pos (by omega)]

example : fieldFromBytes Sample.noClasses 2 (Sample.u16 "x") [1, 2, 3] .none true [] = .error .extraneous ∧
    fieldFromBytes Sample.noClasses 2 (Sample.u16 "x") [1, 2, 3] .none false [] = .ok (.int 0x0102) := by decide

/-! ## C23: peeking -/

/-- **C23** (helper) `peek_bytes` never moves the stream, whether it returns or raises, and returns the next bytes. -/
theorem C23_peek_bytes (s : Stream) (count : Nat) (short : Bool) :
    (peekBytes s count short).2 = s ∧
    (count ≤ s.rest.length ∨ short = true → (peekBytes s count short).1 = .ok (s.rest.take count)) ∧
    (s.rest.length < count ∧ short = false → (peekBytes s count short).1 = .error .eofErr) := by
  have hneg : ¬ ((count : Int) < 0) := by omega
  have hs : (peekBytes s count short).2 = s := by
    simp only [peekBytes]; split <;> rfl
  have hlen : (((s.data.drop s.pos).take count).length : Int) < count ↔ s.rest.length < count := by
    rw [List.length_take]; simp only [Stream.rest]; omega
  refine ⟨hs, ?_, ?_⟩
  · intro h
    have hc : (!short && decide ((((s.data.drop s.pos).take count).length : Int) < count)) = false := by
      rcases h with h | h
      · have : ¬ s.rest.length < count := by omega
        rw [← hlen] at this; simp only [this]; simp
      · simp [h]
    simp only [peekBytes, Stream.read, hneg, if_false, Int.toNat_natCast]
    rw [hc]; rfl
  · rintro ⟨h1, h2⟩
    have := hlen.2 h1
    simp only [peekBytes, Stream.read, hneg, if_false, Int.toNat_natCast, h2]
    rw [show (!false && decide ((((s.data.drop s.pos).take count).length : Int) < count)) = true by
      simp only [this]; rfl]
    rfl

end Verif
