import Verif.Proofs.LocalTime

/-!
# C88: naive timestamps in every local time zone

The zone is arbitrary, apart from being `Civil`: less than a day from UTC, its clocks changed by a day at most, and not twice within
a few days.
-/

namespace Verif
open Spec

theorem newYork_civil (u : Int) : Civil Sample.newYork u := by
  by_cases h : u < 1562480999
  · refine ⟨1552201200, -18000, -14400, fun x _ h2 => ?_, fun x h1 h2 => ?_, by omega, by omega, by omega⟩
    · simp [Sample.newYork, h2]
    · simp only [Sample.newYork]
      rw [if_neg (by omega), if_pos (by omega)]
  · refine ⟨1572760800, -14400, -18000, fun x h1 h2 => ?_, fun x h1 h2 => ?_, by omega, by omega, by omega⟩
    · simp only [Sample.newYork]
      rw [if_neg (by omega), if_pos (by omega)]
    · simp only [Sample.newYork]
      rw [if_neg (by omega), if_neg (by omega)]

theorem alaska_civil (u : Int) : Civil Sample.alaska u :=
  ⟨1000000, 54139, -32261, fun x _ h2 => by simp [Sample.alaska, h2],
    fun x h1 _ => by simp only [Sample.alaska]; rw [if_neg (by omega)], by omega, by omega, by omega⟩

/-- **C88** Whatever the resolution, a stored integer is loaded as the moment it would be loaded as in UTC, as clocks show it in
the zone; and storing this datetime again gives what storing the moment gives in UTC.  So everything C54 and C55 say about naive
timestamps in UTC holds in every zone, and at every moment, also while clocks are changed. -/
theorem C88_every_zone_like_utc (z : Zone) (res : Resolution) (i us : Int) (hz : Civil z (us / 1000000))
    (hc : InCalendar (us / 1000000)) (h : (tsQuotient res i).bind fromTimestamp = .ok us) :
    ∃ w, z.load res i = .ok w ∧ w.us = us + z.offset (us / 1000000) * 1000000 ∧ z.stored res w = tsStored res us false := by
  obtain ⟨w, h1, h2, h3, h4⟩ := mktime_fromTimeval hz hc
  refine ⟨w, by rw [load_of_utc h, h1], h2, ?_⟩
  unfold Zone.stored
  simp only [bind, Except.bind, h3, h4]
  congr 1
  omega

/-- **C88** With second resolution: bytes that stand for a moment of the years 1 to 9999 are loaded as what the clocks show at that
moment, and dumping this gives the same bytes.  This includes the hours that clocks show twice: `fold` tells them apart. -/
theorem C88_load_dump (z : Zone) (name : String) (signed : Bool) (e : Endian) (data : Bytes) (hne : data ≠ [])
    (hz : Civil z (intOfBytes data e signed)) (hc : InCalendar (intOfBytes data e signed)) :
    ∃ w t, z.timestampLoad .s signed e data = .ok w ∧ w.us = t * 1000000 ∧ Shows z (intOfBytes data e signed) t ∧
      (w.fold = true ↔ ∃ v, intOfBytes data e signed - 86400 ≤ v ∧ v < intOfBytes data e signed ∧ Shows z v t) ∧
      z.timestampDump name .s signed e data.length w = .ok data := by
  have hdata := data_write data hne signed e
  unfold Zone.timestampLoad Zone.timestampDump
  generalize intOfBytes data e signed = i at *
  have hsmall : i.natAbs < 2 ^ 43 := by unfold InCalendar datetimeMin datetimeMax at hc; omega
  have hload := tsLoad_whole .s (k := i) hsmall (by simpa [Resolution.units] using Holds.small (by omega))
    (by unfold InCalendar datetimeMin datetimeMax at *; omega)
  have hdump := tsStored_whole .s (k := i) (by omega) (by simpa [Resolution.units] using Holds.small (by omega)) false
  simp only [Resolution.units, Nat.cast_one, mul_one] at hload hdump
  have hi : i * 1000000 / 1000000 = i := by omega
  obtain ⟨w, h1, h2, h3⟩ := C88_every_zone_like_utc z .s i (i * 1000000) (by rwa [hi]) (by rwa [hi]) hload
  rw [hi] at h2
  refine ⟨w, i + z.offset i, h1, by omega, rfl, ?_, ?_⟩
  · obtain ⟨s, p, q, hch⟩ := hz
    have hf := fromTimeval_spec (total := i * 1000000) (by rwa [hi]) (by rwa [hi])
    rw [hi] at hf
    rw [load_of_utc hload] at h1
    rw [h1] at hf
    have hw := Except.ok.inj hf
    rw [hw]
    simp only [decide_eq_true_iff]
    have hd := hch.change
    have h0 := ChangesAt_off hch (x := i) (by omega) (by omega)
    constructor
    · rintro ⟨ha, hb⟩
      have hv := ChangesAt_off hch (x := i - (p - q)) (by omega) (by omega)
      exact ⟨i - (p - q), by omega, by omega, by unfold Shows; omega⟩
    · rintro ⟨v, ha, hb, hv⟩
      have hv' := ChangesAt_off hch (x := v) (by omega) (by omega)
      unfold Shows at hv
      omega
  · simp only [bind, Except.bind, h3, hdump, hdata]
    rfl

-- 1:30 on the night on which New York's clocks were put back, for the first time and for the second
example : Sample.newYork.timestampLoad .s true .big [0x5D, 0xBE, 0x65, 0xD8] = .ok ⟨1572744600 * 1000000, false⟩ ∧
    Sample.newYork.timestampLoad .s true .big [0x5D, 0xBE, 0x73, 0xE8] = .ok ⟨1572744600 * 1000000, true⟩ ∧
    Sample.newYork.timestampDump "t" .s true .big 4 ⟨1572744600 * 1000000, false⟩ = .ok [0x5D, 0xBE, 0x65, 0xD8] ∧
    Sample.newYork.timestampDump "t" .s true .big 4 ⟨1572744600 * 1000000, true⟩ = .ok [0x5D, 0xBE, 0x73, 0xE8] := by
  decide +kernel

example : InCalendar (intOfBytes [0x5D, 0xBE, 0x73, 0xE8] .big true) ∧
    Civil Sample.newYork (intOfBytes [0x5D, 0xBE, 0x73, 0xE8] .big true) :=
  ⟨by unfold InCalendar; decide, newYork_civil _⟩

-- clocks that were put back by a whole day
example : Sample.alaska.timestampLoad .s true .big [0x00, 0x10, 0x00, 0x00] = .ok ⟨1016315 * 1000000, true⟩ ∧
    Sample.alaska.timestampDump "t" .s true .big 4 ⟨1016315 * 1000000, true⟩ = .ok [0x00, 0x10, 0x00, 0x00] := by
  decide +kernel

/-- Storing whole seconds. -/
theorem stored_whole {z : Zone} {k r : Int} {fold : Bool} (h : z.mktime k fold = .ok r) (hr : r.natAbs < 2 ^ 43) :
    z.stored .s ⟨k * 1000000, fold⟩ = .ok r := by
  have hdump := tsStored_whole .s (k := r) (by omega) (by simpa [Resolution.units] using Holds.small (by omega)) false
  simp only [Resolution.units, Nat.cast_one, mul_one] at hdump
  have e1 : k * 1000000 / 1000000 = k := by omega
  have e2 : k * 1000000 % 1000000 = 0 := by omega
  unfold Zone.stored
  simp only [e1, e2, h, bind, Except.bind, Int.add_zero, hdump]

/-- **C88** A naive datetime that clocks do show at some moment is stored as such a moment: as the first one if `fold` is 0, as the
last one if `fold` is 1. -/
theorem C88_dump (z : Zone) (k : Int) (fold : Bool) (v : Int) (hz : Civil z k) (hc : InCalendar k)
    (hv : k - 86400 ≤ v ∧ v ≤ k + 86400) (hs : Shows z v k) :
    ∃ r, z.stored .s ⟨k * 1000000, fold⟩ = .ok r ∧ Shows z r k ∧ (k - 86400 ≤ r ∧ r ≤ k + 86400) ∧
      (fold = false → r ≤ v) ∧ (fold = true → v ≤ r) := by
  obtain ⟨s, p, q, h⟩ := hz
  have hp := h.small_p
  have hq := h.small_q
  have hd := h.change
  have hm := mktime_spec h hc (t := k) (by omega) (by omega) fold
  have h0 := ChangesAt_off h (x := v) (by omega) (by omega)
  have h1 := ChangesAt_off h (x := k - p) (by omega) (by omega)
  have h2 := ChangesAt_off h (x := k - q) (by omega) (by omega)
  unfold Shows at *
  refine ⟨_, stored_whole hm ?_, ?_, ?_, ?_, ?_⟩
  · unfold InCalendar datetimeMin datetimeMax at hc
    repeat' split
    all_goals omega
  · repeat' split
    all_goals omega
  · repeat' split
    all_goals omega
  · rintro rfl
    simp only [Bool.false_eq_true, if_false]
    repeat' split
    all_goals omega
  · rintro rfl
    simp only [if_true]
    repeat' split
    all_goals omega

-- 1:30 on that night was at 5:30 UTC and at 6:30 UTC
example : Shows Sample.newYork 1572759000 1572744600 ∧ Shows Sample.newYork 1572762600 1572744600 ∧ InCalendar 1572744600 ∧
    Civil Sample.newYork 1572744600 :=
  ⟨by unfold Shows; decide, by unfold Shows; decide, by unfold InCalendar; decide, newYork_civil _⟩

/-- **C88** With second resolution: a naive datetime without microseconds that clocks do show at some moment is loaded, from what it
is dumped as, as an equal datetime. -/
theorem C88_dump_load (z : Zone) (name : String) (signed : Bool) (e : Endian) (n : Nat) (hn : 0 < n) (k : Int) (fold : Bool)
    (v : Int) (hz : ∀ u, Civil z u) (hc : ∀ u, k - 86400 ≤ u → u ≤ k + 86400 → InCalendar u)
    (hv : k - 86400 ≤ v ∧ v ≤ k + 86400) (hs : Shows z v k) (bs : Bytes)
    (h : z.timestampDump name .s signed e n ⟨k * 1000000, fold⟩ = .ok bs) :
    bs.length = n ∧ ∃ fold', z.timestampLoad .s signed e bs = .ok ⟨k * 1000000, fold'⟩ := by
  obtain ⟨r, h1, h2, h3, _⟩ := C88_dump z k fold v (hz k) (hc k (by omega) (by omega)) hv hs
  unfold Zone.timestampDump at h
  simp only [h1, bind, Except.bind] at h
  have hw : writeInt r n signed e = .ok bs := by
    unfold unserializableOnRange at h
    cases hw : writeInt r n signed e with
    | ok x => rw [hw] at h; exact h
    | error err => rw [hw] at h; simp only at h; split at h <;> cases h
  have hr : InRange n signed r := by
    by_contra hr
    rw [(C11_write_int_range r n hn e signed).2 hr] at hw
    cases hw
  obtain ⟨bs', h4, h5⟩ := (C11_write_int_range r n hn e signed).1 hr
  rw [hw] at h4
  cases h4
  have hrd := C10_write_read r n hn signed e bs [] [] hw
  rw [← h5, readInt_ok] at hrd
  have hint : intOfBytes bs e signed = r := Except.ok.inj (congrArg Prod.fst hrd)
  have hbs : bs ≠ [] := by rintro rfl; simp at h5; omega
  refine ⟨h5, ?_⟩
  obtain ⟨w, t, h6, h7, h8, _⟩ := C88_load_dump z name signed e bs hbs (hz _) (by rw [hint]; exact hc r (by omega) (by omega))
  rw [hint] at h8
  unfold Shows at h2 h8
  refine ⟨w.fold, ?_⟩
  rw [h6]
  congr 1
  cases w
  simp only at h7
  rw [h7, h8, ← h2]

example : ∀ u, 1572744600 - 86400 ≤ u → u ≤ 1572744600 + 86400 → InCalendar u := by
  intro u h1 h2
  unfold InCalendar datetimeMin datetimeMax
  omega

/-- **C88** A naive datetime that clocks never show, because they are put forward then, is stored as a moment at which they show
something later (`fold` 0) or earlier (`fold` 1). -/
theorem C88_dump_gap (z : Zone) (k : Int) (fold : Bool) (hz : Civil z k) (hc : InCalendar k)
    (hs : ∀ v, k - 86400 ≤ v → v ≤ k + 86400 → ¬ Shows z v k) :
    ∃ r t, z.stored .s ⟨k * 1000000, fold⟩ = .ok r ∧ Shows z r t ∧ (fold = false → k < t) ∧ (fold = true → t < k) := by
  obtain ⟨s, p, q, h⟩ := hz
  have hp := h.small_p
  have hq := h.small_q
  have hd := h.change
  have hm := mktime_spec h hc (t := k) (by omega) (by omega) fold
  have h1 := ChangesAt_off h (x := k - p) (by omega) (by omega)
  have h2 := ChangesAt_off h (x := k - q) (by omega) (by omega)
  have s1 := hs (k - p) (by omega) (by omega)
  have s2 := hs (k - q) (by omega) (by omega)
  unfold Shows at *
  refine ⟨_, _, stored_whole hm ?_, rfl, ?_, ?_⟩
  · unfold InCalendar datetimeMin datetimeMax at hc
    repeat' split
    all_goals omega
  · rintro rfl
    simp only [Bool.false_eq_true, if_false]
    rw [if_neg (by omega), if_neg (by omega)]
    omega
  · rintro rfl
    simp only [if_true]
    rw [if_neg (by omega), if_neg (by omega)]
    omega

-- New York's clocks went from 2:00 to 3:00 on 10 March 2019: they did not show 2:30
example : ∀ v, 1552185000 - 86400 ≤ v → v ≤ 1552185000 + 86400 → ¬ Shows Sample.newYork v 1552185000 := by
  intro v h1 h2
  unfold Shows Sample.newYork
  simp only
  repeat' split
  all_goals omega

/-- **C88** Not every naive datetime survives a dump: 2:30 on 10 March 2019 in New York is loaded as 3:30. -/
theorem C88_gap_refuted :
    ∃ (z : Zone) (k k' : Int) (bs : Bytes), (∀ u, Civil z u) ∧ z.timestampDump "t" .s true .big 4 ⟨k * 1000000, false⟩ = .ok bs ∧
      z.timestampLoad .s true .big bs = .ok ⟨k' * 1000000, false⟩ ∧ k ≠ k' :=
  ⟨Sample.newYork, 1552185000, 1552188600, [0x5C, 0x84, 0xBC, 0xF8], newYork_civil, by decide +kernel, by decide +kernel,
    by decide⟩

/-- **C88** Naive datetimes do not keep the order of the moments they were loaded from, and different moments may be loaded as
datetimes that are equal (`==` does not look at `fold`). -/
theorem C88_order_refuted :
    ∃ (z : Zone) (d1 d2 d3 : Bytes) (k k' : Int), (∀ u, Civil z u) ∧
      intOfBytes d1 .big true < intOfBytes d2 .big true ∧ intOfBytes d2 .big true < intOfBytes d3 .big true ∧
      z.timestampLoad .s true .big d1 = .ok ⟨k * 1000000, false⟩ ∧ z.timestampLoad .s true .big d2 = .ok ⟨k' * 1000000, true⟩ ∧
      k' < k ∧ z.timestampLoad .s true .big d3 = .ok ⟨k * 1000000, true⟩ :=
  ⟨Sample.newYork, [0x5D, 0xBE, 0x65, 0xD8], [0x5D, 0xBE, 0x73, 0xE7], [0x5D, 0xBE, 0x73, 0xE8], 1572744600, 1572744599,
    newYork_civil, by decide, by decide, by decide +kernel, by decide +kernel, by decide, by decide +kernel⟩

/-- Where the zone is UTC, this is the model of `Model/Timestamp`. -/
theorem load_in_utc (res : Resolution) (i us : Int) (hc : InCalendar (us / 1000000))
    (h : (tsQuotient res i).bind fromTimestamp = .ok us) : (⟨fun _ => 0⟩ : Zone).load res i = .ok ⟨us, false⟩ := by
  have hch : ChangesAt ⟨fun _ => 0⟩ (us / 1000000) 0 0 0 :=
    ⟨fun _ _ _ => rfl, fun _ _ _ => rfl, by omega, by omega, by omega⟩
  rw [load_of_utc h, fromTimeval_spec hch hc]
  simp only [Int.zero_mul, Int.add_zero]
  congr 2
  rw [decide_eq_false_iff_not]
  omega

end Verif
