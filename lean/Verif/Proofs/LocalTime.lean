import Verif.Spec.LocalTime
import Verif.Props.Timestamp

namespace Verif
open Spec

theorem ChangesAt_off {z : Zone} {u s p q : Int} (h : ChangesAt z u s p q) {x : Int} (h1 : u - 345600 ≤ x)
    (h2 : x ≤ u + 345600) : (x < s ∧ z.offset x = p) ∨ (s ≤ x ∧ z.offset x = q) := by
  by_cases hx : x < s
  · exact .inl ⟨hx, h.before x h1 hx⟩
  · exact .inr ⟨by omega, h.after x (by omega) h2⟩

theorem clock_ok {z : Zone} {u s p q : Int} (h : ChangesAt z u s p q) (hu : InCalendar u) {x : Int} (h1 : u - 345600 ≤ x)
    (h2 : x ≤ u + 345600) : z.clock x = .ok (x + z.offset x) := by
  have hp := h.small_p
  have hq := h.small_q
  unfold InCalendar datetimeMin datetimeMax at hu
  unfold Zone.clock datetimeMin datetimeMax
  rcases ChangesAt_off h h1 h2 with ⟨_, ho⟩ | ⟨_, ho⟩
  · simp only [ho]
    exact if_pos (by omega)
  · simp only [ho]
    exact if_pos (by omega)

/-- What `_mktime` finds.  With `fold = 0` the first moment at which the clock shows `t`, with `fold = 1` the last; if there is
none, `t` is interpreted with the offset before or after the change. -/
theorem mktime_spec {z : Zone} {u s p q : Int} (h : ChangesAt z u s p q) (hu : InCalendar u) {t : Int}
    (h1 : u - 86400 ≤ t) (h2 : t ≤ u + 86400) (fold : Bool) :
    z.mktime t fold = .ok (
      if fold then (if s ≤ t - q then t - q else if t - p < s then t - p else t - q)
      else (if t - p < s then t - p else if s ≤ t - q then t - q else t - p)) := by
  have hp := h.small_p
  have hq := h.small_q
  have hd := h.change
  have ht := ChangesAt_off h (x := t) (by omega) (by omega)
  have key : ∀ x, u - 345600 ≤ x → x ≤ u + 345600 → z.clock x = .ok (x + z.offset x) := fun x => clock_ok h hu
  unfold Zone.mktime maxFold
  simp only [key t (by omega) (by omega), bind, Except.bind, pure, Except.pure]
  rcases ht with ⟨ht, ho⟩ | ⟨ht, ho⟩
  all_goals
    simp only [ho]
    have hu1 := ChangesAt_off h (x := t - (t + z.offset t - t)) (by omega) (by omega)
    simp only [ho] at hu1
    rw [key _ (by omega) (by omega)]
    simp only []
    have hu2 := ChangesAt_off h (x := t - p) (by omega) (by omega)
    have hu3 := ChangesAt_off h (x := t - q) (by omega) (by omega)
    have e1 : t - (t + p - t) = t - p := by omega
    have e2 : t - (t + q - t) = t - q := by omega
    simp only [e1, e2] at hu1 ⊢
    cases fold
  all_goals
    have hu4 := ChangesAt_off h (x := t - p + 86400) (by omega) (by omega)
    have hu5 := ChangesAt_off h (x := t - p + -86400) (by omega) (by omega)
    have hu6 := ChangesAt_off h (x := t - q + 86400) (by omega) (by omega)
    have hu7 := ChangesAt_off h (x := t - q + -86400) (by omega) (by omega)
    clear h hu e1 e2
    have f : ∀ x y : Int, x + y - x = y := by omega
    simp only [Bool.false_eq_true, if_false, if_true, show (24 : Int) * 3600 = 86400 from rfl, key _ (show u - 345600 ≤ t - p + 86400 by omega) (by omega),
      key _ (show u - 345600 ≤ t - p + -86400 by omega) (by omega),
      key _ (show u - 345600 ≤ t - q + 86400 by omega) (by omega),
      key _ (show u - 345600 ≤ t - q + -86400 by omega) (by omega), f]
    rcases hu2 with ⟨hu2, ho2⟩ | ⟨hu2, ho2⟩ <;> rcases hu3 with ⟨hu3, ho3⟩ | ⟨hu3, ho3⟩ <;>
      rcases hu4 with ⟨hu4, ho4⟩ | ⟨hu4, ho4⟩ <;> rcases hu5 with ⟨hu5, ho5⟩ | ⟨hu5, ho5⟩ <;>
      rcases hu6 with ⟨hu6, ho6⟩ | ⟨hu6, ho6⟩ <;> rcases hu7 with ⟨hu7, ho7⟩ | ⟨hu7, ho7⟩ <;>
      first
      | (exfalso; omega)
      | (simp only [ho2, ho3, ho4, ho5, ho6, ho7, key _ (show u - 345600 ≤ t - p by omega) (by omega),
          key _ (show u - 345600 ≤ t - q by omega) (by omega)]
         repeat' split
         all_goals first | rfl | (exfalso; omega) | (refine congrArg _ ?_; omega))

/-- What `_fromtimestamp` gives. -/
theorem fromTimeval_spec {z : Zone} {total s p q : Int} (h : ChangesAt z (total / 1000000) s p q)
    (hu : InCalendar (total / 1000000)) :
    z.fromTimeval total = .ok ⟨total + z.offset (total / 1000000) * 1000000,
      decide (s ≤ total / 1000000 ∧ total / 1000000 < s + (p - q))⟩ := by
  have hp := h.small_p
  have hq := h.small_q
  have hd := h.change
  have hT := Int.mul_ediv_add_emod total 1000000
  unfold Zone.fromTimeval maxFold
  generalize total / 1000000 = u at *
  generalize total % 1000000 = f at *
  have key : ∀ x, u - 345600 ≤ x → x ≤ u + 345600 → z.clock x = .ok (x + z.offset x) := fun x => clock_ok h hu
  have h0 := ChangesAt_off h (x := u) (by omega) (by omega)
  have h1 := ChangesAt_off h (x := u - 86400) (by omega) (by omega)
  simp only [show (24 : Int) * 3600 = 86400 from rfl, key u (by omega) (by omega), key (u - 86400) (by omega) (by omega),
    bind, Except.bind, pure, Except.pure]
  generalize hw : u + z.offset u - (u - 86400 + z.offset (u - 86400)) - 86400 = w
  have fin : ∀ (c d : Int) (x y : Bool), c = d → (x = true ↔ y = true) →
      (Except.ok (⟨c, x⟩ : Wall) : Except Err Wall) = .ok ⟨d, y⟩ := by
    rintro c d x y rfl hxy
    rw [Bool.eq_iff_iff.2 hxy]
  by_cases hc : w < 0
  · have h2 := ChangesAt_off h (x := u + w) (by omega) (by omega)
    rw [if_pos hc, key _ (by omega) (by omega)]
    refine fin _ _ _ _ (by omega) ?_
    rw [decide_eq_true_iff, decide_eq_true_iff]
    omega
  · rw [if_neg hc]
    refine fin _ _ _ _ (by omega) ?_
    rw [decide_eq_true_iff]
    simp only [Bool.false_eq_true, false_iff]
    omega

/-- Dumping what was loaded finds the moment again. -/
theorem mktime_fromTimeval {z : Zone} {total : Int} (h : Civil z (total / 1000000)) (hu : InCalendar (total / 1000000)) :
    ∃ w, z.fromTimeval total = .ok w ∧ w.us = total + z.offset (total / 1000000) * 1000000 ∧
      z.mktime (w.us / 1000000) w.fold = .ok (total / 1000000) ∧ w.us % 1000000 = total % 1000000 := by
  obtain ⟨s, p, q, h⟩ := h
  refine ⟨_, fromTimeval_spec h hu, rfl, ?_, by simp only; omega⟩
  simp only
  have e : (total + z.offset (total / 1000000) * 1000000) / 1000000 = total / 1000000 + z.offset (total / 1000000) := by omega
  rw [e]
  generalize total / 1000000 = u at *
  have hp := h.small_p
  have hq := h.small_q
  have hd := h.change
  have h0 := ChangesAt_off h (x := u) (by omega) (by omega)
  rw [mktime_spec h hu (by omega) (by omega)]
  refine congrArg _ ?_
  simp only [decide_eq_true_eq]
  repeat' split
  all_goals omega

/-- The conversion in UTC, and the check of the year. -/
theorem fromTimestamp_eq (bits : Nat) : fromTimestamp bits =
    (timeval bits).bind fun total => if datetimeMin ≤ total ∧ total ≤ datetimeMax then .ok total else .error .valueErr := by
  unfold fromTimestamp timeval
  cases binary64.decode bits with
  | inf => rfl
  | nan => rfl
  | fin s m q =>
    simp only
    split <;> rfl

/-- What is loaded in UTC is loaded in every zone, as what the clocks show then. -/
theorem load_of_utc {z : Zone} {res : Resolution} {i us : Int} (h : (tsQuotient res i).bind fromTimestamp = .ok us) :
    z.load res i = z.fromTimeval us := by
  unfold Zone.load
  simp only [bind]
  cases hq : tsQuotient res i with
  | error e => rw [hq] at h; cases h
  | ok bits =>
    rw [hq] at h
    simp only [Except.bind] at h ⊢
    rw [fromTimestamp_eq] at h
    cases ht : timeval bits with
    | error e => rw [ht] at h; cases h
    | ok total =>
      rw [ht] at h
      simp only [Except.bind] at h ⊢
      split at h
      · cases h; rfl
      · cases h

end Verif
