import Verif.Proofs.Timestamp
import Verif.Props.IntCodec
import Verif.Proofs.Text
import Verif.Spec.Samples

/-!
# Properties of `Timestamp`

C54, C55.  A `datetime` is its distance from the epoch in microseconds; `datetimeMin` and `datetimeMax` are the first and
last moments of the years 1 and 9999.
-/

namespace Verif
open Spec

/-- What loading a timestamp does, once the conversion of the integer is known. -/
theorem timestamp_load (Γ : Classes) (m : Nat) (b : FieldBase) (res : Resolution) (aware signed : Bool) (e : Endian)
    (ctx : Value) (loaded : Dict) (data : Bytes) (hsize : b.size = .fixed data.length) {us : Int}
    (hplain : Plain b (.datetime us aware))
    (h : tsLoad res aware (intOfBytes data e signed) = .ok us) (pre rest : Bytes) :
    fieldFromStream Γ (m + 2) (.leaf b (.timestamp res aware signed e)) ⟨pre ++ data ++ rest, pre.length⟩ ctx loaded =
      (.ok (.datetime us aware), ⟨pre ++ data ++ rest, pre.length + data.length⟩) := by
  apply fieldFromStream_plain (f := .leaf b (.timestamp res aware signed e)) hplain
  have hexp : leafExpectedSize b (.timestamp res aware signed e) loaded = .ok data.length :=
    leafExpectedSize_declared (Or.inl hsize)
  simp only [fieldDoLoad, leafLoad, hexp, readInt_ok, R.andThen]
  simp only [Except.bind, h]
  rfl

/-- What dumping a timestamp does, once the conversion to an integer is known. -/
theorem timestamp_dump (Γ : Classes) (m : Nat) (b : FieldBase) (res : Resolution) (tz signed : Bool) (e : Endian)
    (us : Int) (aware : Bool) (ctx : Value) (all : Dict) (n : Nat) (hn : 0 < n) (hsize : b.size = .fixed n)
    (hval : ∀ c ∈ b.validators, c (.datetime us aware) = .ok ()) {i : Int} (h : tsDump res us aware = .ok i) :
    (∀ bs, writeInt i n signed e = .ok bs →
      fieldToStream Γ (m + 1) (.leaf b (.timestamp res tz signed e)) (.datetime us aware) ctx all = (bs, .ok ())) ∧
    (¬ InRange n signed i →
      fieldToStream Γ (m + 1) (.leaf b (.timestamp res tz signed e)) (.datetime us aware) ctx all =
        ([], .error (.unserializable b.name))) := by
  have hexp : leafExpectedSize b (.timestamp res tz signed e) all = .ok (n : Int) :=
    leafExpectedSize_declared (Or.inl hsize)
  constructor
  · intro bs hw
    have hlen : bs.length = n := by
      by_cases hr : InRange n signed i
      · obtain ⟨b', h1, h2⟩ := (C11_write_int_range i n hn e signed).1 hr
        rw [hw] at h1
        cases h1
        exact h2
      · rw [(C11_write_int_range i n hn e signed).2 hr] at hw
        cases hw
    apply fieldToStream_plain (f := .leaf b (.timestamp res tz signed e)) (by simp) (by simp) (by simp) hval
      (Or.inr (Or.inl (by rw [hlen]; exact hsize)))
    simp only [fieldDoDump, leafDump, h, hexp, hw, unserializableOnRange, W.ofExcept, W.ok]
  · intro hr
    rw [fieldToStream_succ, toStreamWith_plain (b := (Field.leaf b (.timestamp res tz signed e)).base) (by simp) (by simp)
      (by simp) hval]
    simp [fieldDoDump, leafDump, h, hexp, (C11_write_int_range i n hn e signed).2 hr, unserializableOnRange, W.ofExcept,
      W.fail, W.toExcept]

theorem close_first {res : Resolution} (hres : res = .ms ∨ res = .us) {i : Int} (hi : i.natAbs < 2 ^ 33 * res.units) (aware : Bool) :
    datetimeFirst aware ≤ i * (1000000 / res.units : Nat) := by
  have := datetimeFirst_early aware
  rcases hres with rfl | rfl <;> simp [Resolution.units] at hi ⊢ <;> omega

theorem data_write (data : Bytes) (h : data ≠ []) (signed : Bool) (e : Endian) :
    writeInt (intOfBytes data e signed) data.length signed e = .ok data := by
  obtain ⟨v, h1, h2⟩ := C10_read_write data h signed e [] []
  rw [readInt_ok] at h1
  cases h1
  exact h2

/-- **C54** With second resolution, every stored integer that is a moment of the years 1 to 9999 is loaded as exactly that
moment, and dumping that moment gives the same bytes.  (partial: not for naive datetimes in the first day of the year 1; see
`C54_first_day_refuted`.) -/
theorem C54_load_dump_partial (Γ : Classes) (m : Nat) (b : FieldBase) (aware signed : Bool) (e : Endian) (ctx : Value)
    (all loaded : Dict) (data : Bytes) (hne : data ≠ []) (hsize : b.size = .fixed data.length) (hplain : ∀ v, Plain b v)
    (hrange : datetimeFirst aware ≤ intOfBytes data e signed * 1000000 ∧ intOfBytes data e signed * 1000000 ≤ datetimeMax) :
    (∀ pre rest, fieldFromStream Γ (m + 2) (.leaf b (.timestamp .s aware signed e)) ⟨pre ++ data ++ rest, pre.length⟩ ctx
        loaded = (.ok (.datetime (intOfBytes data e signed * 1000000) aware),
          ⟨pre ++ data ++ rest, pre.length + data.length⟩)) ∧
      fieldToStream Γ (m + 1) (.leaf b (.timestamp .s aware signed e)) (.datetime (intOfBytes data e signed * 1000000) aware)
        ctx all = (data, .ok ()) := by
  have hw := data_write data hne signed e
  generalize hi : intOfBytes data e signed = i at *
  have hrange' := And.intro ((datetimeFirst_min aware).trans hrange.1) hrange.2
  have hsmall : i.natAbs < 2 ^ 43 := by unfold datetimeMin datetimeMax at hrange'; omega
  have hload := tsLoad_whole .s hsmall (by simpa [Resolution.units] using Holds.small (by omega)) hrange'
  have hdump := tsStored_whole .s (k := i) (by omega) (by simpa [Resolution.units] using Holds.small (by omega)) aware
  simp only [Resolution.units, Nat.cast_one, mul_one] at hload hdump
  rw [← tsDump_of _ hrange.1] at hdump
  refine ⟨fun pre rest => ?_, ?_⟩
  · exact timestamp_load Γ m b .s aware signed e ctx loaded data hsize (hplain _) (by rw [hi]; exact tsLoad_of hload hrange.1) pre rest
  · exact (timestamp_dump Γ m b .s aware signed e _ aware ctx all data.length (List.length_pos_iff.2 hne) hsize
      (hplain _).2.2.2 hdump).1 data hw

-- the last second of 9999, as eight bytes
example : datetimeMin ≤ intOfBytes [0, 0, 0, 0x3A, 0xFF, 0xF4, 0x41, 0x7F] .big true * 1000000 ∧
    intOfBytes [0, 0, 0, 0x3A, 0xFF, 0xF4, 0x41, 0x7F] .big true * 1000000 ≤ datetimeMax := by decide

/-- **C54** Integers outside datetime's range are never loaded as some other moment: loading raises an exception. -/
theorem C54_load_out_of_range (Γ : Classes) (m : Nat) (b : FieldBase) (aware signed : Bool) (e : Endian) (ctx : Value)
    (loaded : Dict) (data : Bytes) (hsize : b.size = .fixed data.length)
    (hpres : ∀ w ctx s, b.present w ctx s = .ok true) (hnull : b.nullValue = .undefined)
    (hrange : ¬ (datetimeFirst aware ≤ intOfBytes data e signed * 1000000 ∧ intOfBytes data e signed * 1000000 ≤ datetimeMax))
    (pre rest : Bytes) :
    ∃ err, (fieldFromStream Γ (m + 2) (.leaf b (.timestamp .s aware signed e)) ⟨pre ++ data ++ rest, pre.length⟩ ctx loaded).1 =
      .error err := by
  have hexp : leafExpectedSize b (.timestamp .s aware signed e) loaded = .ok data.length :=
    leafExpectedSize_declared (Or.inl hsize)
  rw [fieldFromStream, Field.base, fromStreamWith_plain (hpres _ _ _) (Or.inl (allowNull_false hnull))]
  unfold loadAndFinish
  simp only [fieldDoLoad, leafLoad, hexp, readInt_ok, R.andThen]
  cases hq : tsLoad .s aware (intOfBytes data e signed) with
  | ok us =>
    obtain ⟨h1, h2⟩ := tsLoad_split hq
    obtain ⟨h3, rfl⟩ := tsLoad_inv h1
    exact absurd ⟨h2, h3.2⟩ hrange
  | error err =>
    simp only [Except.bind, hq]
    exact ⟨_, rfl⟩

-- the first second of the year 10000
example : ∃ err, (fieldFromStream Sample.noClasses 2 (.leaf { name := "t", size := .fixed 8 } (.timestamp .s true true .big))
    ⟨[7, 0, 0, 0, 0x3A, 0xFF, 0xF4, 0x41, 0x80, 7], 1⟩ .none []).1 = .error err :=
  C54_load_out_of_range _ 0 _ true true .big .none [] [0, 0, 0, 0x3A, 0xFF, 0xF4, 0x41, 0x80] rfl (fun _ _ _ => rfl) rfl
    (by decide) [7] [7]

/-- **C54** refuted for naive datetimes in the first day of the year 1, although the statement says every timestamp in datetime's
range: loading the first moment of that range raises `ValueError`, and so does dumping it. -/
theorem C54_first_day_refuted :
    ∃ (b : FieldBase) (data : Bytes), b.size = .fixed 8 ∧ intOfBytes data .big true * 1000000 = datetimeMin ∧
      (fieldFromStream Sample.noClasses 2 (.leaf b (.timestamp .s false true .big)) ⟨data, 0⟩ .none []).1 = .error .valueErr ∧
      fieldToStream Sample.noClasses 2 (.leaf b (.timestamp .s false true .big)) (.datetime datetimeMin false) .none [] =
        ([], .error .valueErr) ∧
      -- with a time zone there is no such problem
      fieldFromStream Sample.noClasses 2 (.leaf b (.timestamp .s true true .big)) ⟨data, 0⟩ .none [] =
        (.ok (.datetime datetimeMin true), ⟨data, 8⟩) ∧
      fieldToStream Sample.noClasses 2 (.leaf b (.timestamp .s true true .big)) (.datetime datetimeMin true) .none [] =
        (data, .ok ()) :=
  ⟨{ name := "t", size := .fixed 8 }, [255, 255, 255, 241, 136, 110, 9, 0], rfl, by decide, by decide +kernel, by decide +kernel,
    by decide +kernel, by decide +kernel⟩

/-- **C54** Conversely every moment that is a whole number of seconds, fits into the field and lies in the years 1 to 9999
is loaded from what it is dumped as; if it does not fit, dumping raises `UnserializableValueError` and writes nothing.
(partial: as above.) -/
theorem C54_dump_load_partial (Γ : Classes) (m : Nat) (b : FieldBase) (aware signed : Bool) (e : Endian) (ctx : Value)
    (all loaded : Dict) (n : Nat) (hn : 0 < n) (hsize : b.size = .fixed n) (hplain : ∀ v, Plain b v) (k : Int)
    (hrange : datetimeFirst aware ≤ k * 1000000 ∧ k * 1000000 ≤ datetimeMax) :
    (InRange n signed k → ∃ bs,
      fieldToStream Γ (m + 1) (.leaf b (.timestamp .s aware signed e)) (.datetime (k * 1000000) aware) ctx all = (bs, .ok ()) ∧
      bs.length = n ∧
      ∀ pre rest, fieldFromStream Γ (m + 2) (.leaf b (.timestamp .s aware signed e)) ⟨pre ++ bs ++ rest, pre.length⟩ ctx
        loaded = (.ok (.datetime (k * 1000000) aware), ⟨pre ++ bs ++ rest, pre.length + bs.length⟩)) ∧
    (¬ InRange n signed k →
      fieldToStream Γ (m + 1) (.leaf b (.timestamp .s aware signed e)) (.datetime (k * 1000000) aware) ctx all =
        ([], .error (.unserializable b.name))) := by
  have hrange' := And.intro ((datetimeFirst_min aware).trans hrange.1) hrange.2
  have hsmall : k.natAbs < 2 ^ 43 := by unfold datetimeMin datetimeMax at hrange'; omega
  have hdump := tsStored_whole .s (k := k) (by omega) (by simpa [Resolution.units] using Holds.small (by omega)) aware
  simp only [Resolution.units, Nat.cast_one, mul_one] at hdump
  rw [← tsDump_of _ hrange.1] at hdump
  have hd := timestamp_dump Γ m b .s aware signed e _ aware ctx all n hn hsize (hplain _).2.2.2 hdump
  refine ⟨fun hr => ?_, hd.2⟩
  obtain ⟨bs, h1, h2⟩ := (C11_write_int_range k n hn e signed).1 hr
  have hrd := C10_write_read k n hn signed e bs [] [] h1
  rw [← h2, readInt_ok] at hrd
  have hint : intOfBytes bs e signed = k := by
    have := congrArg Prod.fst hrd
    exact Except.ok.inj this
  have hbs : bs ≠ [] := by rintro rfl; simp at h2; omega
  refine ⟨bs, hd.1 bs h1, h2, fun pre rest => ?_⟩
  have := (C54_load_dump_partial Γ m b aware signed e ctx all loaded bs hbs (by rw [h2]; exact hsize) hplain
    (by rw [hint]; exact hrange)).1 pre rest
  rw [hint] at this
  exact this

example : InRange 4 true (-2) ∧ ¬ InRange 4 true 2147483648 := by simp [InRange]
example : datetimeMin ≤ -2 * 1000000 ∧ 2147483648 * 1000000 ≤ datetimeMax := by decide

/-- **C54** A moment with a fraction of a second is stored as the number of whole seconds from the epoch, the fraction
dropped (towards the epoch), for every moment within 2³³ seconds (270 years) of the epoch, whether or not the datetime
and the field are zone-aware. -/
theorem C54_dump_truncates (Γ : Classes) (m : Nat) (b : FieldBase) (tz signed : Bool) (e : Endian) (ctx : Value)
    (all : Dict) (n : Nat) (hn : 0 < n) (hsize : b.size = .fixed n) (us : Int) (aware : Bool)
    (hval : ∀ c ∈ b.validators, c (.datetime us aware) = .ok ()) (hus : us.natAbs < 2 ^ 33 * 1000000) :
    (InRange n signed (us.tdiv 1000000) → ∃ bs,
      fieldToStream Γ (m + 1) (.leaf b (.timestamp .s tz signed e)) (.datetime us aware) ctx all = (bs, .ok ()) ∧
      intOfBytes bs e signed = us.tdiv 1000000) ∧
    (¬ InRange n signed (us.tdiv 1000000) →
      fieldToStream Γ (m + 1) (.leaf b (.timestamp .s tz signed e)) (.datetime us aware) ctx all =
        ([], .error (.unserializable b.name))) := by
  have hd := timestamp_dump Γ m b .s tz signed e us aware ctx all n hn hsize hval
    ((tsDump_of _ (by have := datetimeFirst_early aware; omega)).trans (tsStored_truncates hus aware))
  refine ⟨fun hr => ?_, hd.2⟩
  obtain ⟨bs, h1, h2⟩ := (C11_write_int_range _ n hn e signed).1 hr
  refine ⟨bs, hd.1 bs h1, ?_⟩
  have hrd := C10_write_read _ n hn signed e bs [] [] h1
  rw [← h2, readInt_ok] at hrd
  exact Except.ok.inj (congrArg Prod.fst hrd)

example : (-1500000 : Int).tdiv 1000000 = -1 ∧ (1999999 : Int).tdiv 1000000 = 1 := by decide

/-- **C55** refuted: 1001 ms is loaded as 1.001 s, which is dumped as 1000 ms. -/
theorem C55_subsecond_round_trip_refuted :
    ∃ (b : FieldBase) (data data' : Bytes) (v : Value), b.size = .fixed 4 ∧ data ≠ data' ∧
      fieldFromStream Sample.noClasses 3 (.leaf b (.timestamp .ms true true .big)) ⟨data, 0⟩ .none [] = (.ok v, ⟨data, 4⟩) ∧
      fieldToStream Sample.noClasses 3 (.leaf b (.timestamp .ms true true .big)) v .none [] = (data', .ok ()) :=
  ⟨{ name := "t", size := .fixed 4 }, [0, 0, 3, 0xE9], [0, 0, 3, 0xE8], .datetime 1001000 true, rfl, by decide, by decide,
    by decide⟩

/-- **C55**, the part that holds: with millisecond or microsecond resolution, every stored integer within 2³³ seconds of
the epoch is loaded as exactly the moment it stands for, and dumping that moment gives the integer or the next one
towards the epoch. -/
theorem C55_load_exact_dump_off_by_one_partial (Γ : Classes) (m : Nat) (b : FieldBase) (res : Resolution)
    (hres : res = .ms ∨ res = .us) (aware signed : Bool) (e : Endian) (ctx : Value) (all loaded : Dict) (data : Bytes)
    (hne : data ≠ []) (hsize : b.size = .fixed data.length) (hplain : ∀ v, Plain b v)
    (hi : (intOfBytes data e signed).natAbs < 2 ^ 33 * res.units) :
    ∃ us, us * res.units = intOfBytes data e signed * 1000000 ∧
      (∀ pre rest, fieldFromStream Γ (m + 2) (.leaf b (.timestamp res aware signed e)) ⟨pre ++ data ++ rest, pre.length⟩ ctx
        loaded = (.ok (.datetime us aware), ⟨pre ++ data ++ rest, pre.length + data.length⟩)) ∧
      ∃ bs, fieldToStream Γ (m + 1) (.leaf b (.timestamp res aware signed e)) (.datetime us aware) ctx all = (bs, .ok ()) ∧
        bs.length = data.length ∧
        (intOfBytes bs e signed = intOfBytes data e signed ∨
          (0 < intOfBytes data e signed ∧ intOfBytes bs e signed = intOfBytes data e signed - 1) ∨
          (intOfBytes data e signed < 0 ∧ intOfBytes bs e signed = intOfBytes data e signed + 1)) := by
  have hinr := intOfBytes_inRange data hne e signed
  have hload := tsLoad_close hres hi
  obtain ⟨N, hN, hN2⟩ := tsStored_close hres hi aware
  have hfirst := close_first hres hi aware
  generalize hj : intOfBytes data e signed = i at *
  refine ⟨_, ?_, fun pre rest => timestamp_load Γ m b res aware signed e ctx loaded data hsize (hplain _)
    (by rw [hj]; exact tsLoad_of hload hfirst) pre rest, ?_⟩
  · rcases hres with rfl | rfl <;> (simp [Resolution.units]; try omega)
  · have hpos : 0 < data.length := List.length_pos_iff.2 hne
    have hr : InRange data.length signed (if i < 0 then -(N : Int) else N) := by
      revert hinr
      unfold InRange
      have hp : (0 : Int) < 256 ^ data.length := by positivity
      generalize (256 : Int) ^ data.length = B at hp
      cases signed <;> simp <;> split <;> omega
    obtain ⟨bs, h1, h2⟩ := (C11_write_int_range _ data.length hpos e signed).1 hr
    refine ⟨bs, (timestamp_dump Γ m b res aware signed e _ aware ctx all data.length hpos hsize (hplain _).2.2.2
      ((tsDump_of _ hfirst).trans hN)).1 bs h1,
      h2, ?_⟩
    have hrd := C10_write_read _ data.length hpos signed e bs [] [] h1
    rw [← h2, readInt_ok] at hrd
    rw [Except.ok.inj (congrArg Prod.fst hrd)]
    split <;> omega

example : (intOfBytes [0, 0, 3, 0xE9] .big true).natAbs < 2 ^ 33 * Resolution.ms.units := by decide

/-- **C55**, the part that holds: with every resolution, a stored integer that is a whole number of seconds of the years 1
to 9999 is loaded as exactly that moment and dumped as the same bytes (for nanoseconds: within 2³² seconds of the
epoch). -/
theorem C55_whole_seconds_partial (Γ : Classes) (m : Nat) (b : FieldBase) (res : Resolution) (aware signed : Bool)
    (e : Endian) (ctx : Value) (all loaded : Dict) (data : Bytes) (hne : data ≠ []) (hsize : b.size = .fixed data.length)
    (hplain : ∀ v, Plain b v) (k : Int) (hk : intOfBytes data e signed = k * res.units)
    (hrange : datetimeFirst aware ≤ k * 1000000 ∧ k * 1000000 ≤ datetimeMax) (hns : res = .ns → k.natAbs < 2 ^ 32) :
    (∀ pre rest, fieldFromStream Γ (m + 2) (.leaf b (.timestamp res aware signed e)) ⟨pre ++ data ++ rest, pre.length⟩ ctx
        loaded = (.ok (.datetime (k * 1000000) aware), ⟨pre ++ data ++ rest, pre.length + data.length⟩)) ∧
      fieldToStream Γ (m + 1) (.leaf b (.timestamp res aware signed e)) (.datetime (k * 1000000) aware) ctx all =
        (data, .ok ()) := by
  have hrange' := And.intro ((datetimeFirst_min aware).trans hrange.1) hrange.2
  have hsmall : k.natAbs < 2 ^ 38 := by unfold datetimeMin datetimeMax at hrange'; omega
  have hholds : Holds (k.natAbs * res.units) := by
    cases res with
    | s => exact Holds.small (by simp [Resolution.units]; omega)
    | ms => exact Holds.small (by simp [Resolution.units]; omega)
    | us => exact ⟨k.natAbs * 15625, 6, by simp [Resolution.units]; omega, by omega, by simp [Resolution.units]; omega⟩
    | ns =>
      have := hns rfl
      exact ⟨k.natAbs * 1953125, 9, by simp [Resolution.units]; omega, by omega, by simp [Resolution.units]; omega⟩
  have hh : (k * (res.units : Int)).natAbs = k.natAbs * res.units := by rw [Int.natAbs_mul]; simp
  have hload := tsLoad_whole res (k := k) (by omega) (by rw [hh]; exact hholds) hrange'
  have hdump := tsStored_whole res (k := k) (by omega) hholds aware
  have hw := data_write data hne signed e
  rw [hk] at hw
  refine ⟨fun pre rest => timestamp_load Γ m b res aware signed e ctx loaded data hsize (hplain _)
    (by rw [hk]; exact tsLoad_of hload hrange.1) pre rest, ?_⟩
  exact (timestamp_dump Γ m b res aware signed e _ aware ctx all data.length (List.length_pos_iff.2 hne) hsize
    (hplain _).2.2.2 ((tsDump_of _ hrange.1).trans hdump)).1 data hw

example : intOfBytes [0, 0, 0x0F, 0xA0] .big true = 4 * Resolution.ms.units := by decide

/-- **C55**, the part that holds: between powers of two there are windows in which milliseconds and microseconds survive.  If the integer
stands for less than 2ᵏ seconds (k from 6 to 33), but is itself more than 2ᵏ⁺⁹ (milliseconds) or 2ᵏ⁺¹⁹ (microseconds), then what is loaded is
dumped as the same bytes.  With k = 31: milliseconds from 3 November 2004, and microseconds from
5 September 2005, until 19 January 2038. -/
theorem C55_exact_windows_partial (Γ : Classes) (m : Nat) (b : FieldBase) (res : Resolution) (p : Nat)
    (hres : (res = .ms ∧ p = 10) ∨ (res = .us ∧ p = 20)) (aware signed : Bool) (e : Endian) (ctx : Value) (all loaded : Dict) (data : Bytes)
    (hne : data ≠ []) (hsize : b.size = .fixed data.length) (hplain : ∀ v, Plain b v) (k : Nat) (hk : 6 ≤ k ∧ k ≤ 33)
    (hlow : 2 ^ (k + p - 1) < (intOfBytes data e signed).natAbs) (hi : (intOfBytes data e signed).natAbs < 2 ^ k * res.units) :
    ∃ us, us * res.units = intOfBytes data e signed * 1000000 ∧
      (∀ pre rest, fieldFromStream Γ (m + 2) (.leaf b (.timestamp res aware signed e)) ⟨pre ++ data ++ rest, pre.length⟩ ctx
        loaded = (.ok (.datetime us aware), ⟨pre ++ data ++ rest, pre.length + data.length⟩)) ∧
      fieldToStream Γ (m + 1) (.leaf b (.timestamp res aware signed e)) (.datetime us aware) ctx all = (data, .ok ()) := by
  have hres' : res = .ms ∨ res = .us := hres.imp And.left And.left
  have hi' : (intOfBytes data e signed).natAbs < 2 ^ 33 * res.units :=
    lt_of_lt_of_le hi (Nat.mul_le_mul_right _ (Nat.pow_le_pow_right (by omega) hk.2))
  have hload := tsLoad_close hres' hi'
  have hdump := tsStored_exact hres hk.1 hk.2 hlow hi aware
  have hfirst := close_first hres' hi' aware
  have hw := data_write data hne signed e
  generalize hj : intOfBytes data e signed = i at *
  refine ⟨_, ?_, fun pre rest => timestamp_load Γ m b res aware signed e ctx loaded data hsize (hplain _)
    (by rw [hj]; exact tsLoad_of hload hfirst) pre rest, ?_⟩
  · rcases hres' with rfl | rfl <;> (simp [Resolution.units]; try omega)
  · exact (timestamp_dump Γ m b res aware signed e _ aware ctx all data.length (List.length_pos_iff.2 hne) hsize
      (hplain _).2.2.2 ((tsDump_of _ hfirst).trans hdump)).1 data hw

-- 14 November 2023, 22:13:20.123 and .123456
example : 2 ^ (31 + 10 - 1) < (intOfBytes [0, 0, 1, 0x8B, 0xCF, 0xE5, 0x68, 0x7B] .big true).natAbs ∧
    (intOfBytes [0, 0, 1, 0x8B, 0xCF, 0xE5, 0x68, 0x7B] .big true).natAbs < 2 ^ 31 * Resolution.ms.units := by decide
example : 2 ^ (31 + 20 - 1) < (intOfBytes [0, 6, 0x0A, 0x24, 0x18, 0x20, 0x22, 0x40] .big true).natAbs ∧
    (intOfBytes [0, 6, 0x0A, 0x24, 0x18, 0x20, 0x22, 0x40] .big true).natAbs < 2 ^ 31 * Resolution.us.units := by decide

/-- **C55** refuted just outside the windows: two milliseconds after the end of 32-bit time (19 January 2038), a millisecond is lost. -/
theorem C55_after_2038_refuted :
    ∃ (b : FieldBase) (data data' : Bytes) (v : Value), b.size = .fixed 8 ∧ intOfBytes data .big true = 2 ^ 31 * 1000 + 2 ∧
      intOfBytes data' .big true = 2 ^ 31 * 1000 + 1 ∧
      fieldFromStream Sample.noClasses 3 (.leaf b (.timestamp .ms true true .big)) ⟨data, 0⟩ .none [] = (.ok v, ⟨data, 8⟩) ∧
      fieldToStream Sample.noClasses 3 (.leaf b (.timestamp .ms true true .big)) v .none [] = (data', .ok ()) :=
  ⟨{ name := "t", size := .fixed 8 }, [0, 0, 1, 0xF4, 0, 0, 0, 2], [0, 0, 1, 0xF4, 0, 0, 0, 1], .datetime 2147483648002000 true, rfl,
    by decide, by decide, by decide +kernel, by decide +kernel⟩

end Verif
