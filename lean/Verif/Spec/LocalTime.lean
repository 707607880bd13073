import Verif.Model.LocalTime

/-!
# Specification for C88: local time zones
-/

namespace Verif.Spec

/-- At the moment `u` (seconds since the epoch) clocks in the zone show `t` (seconds since they showed 1970-01-01 00:00). -/
def Shows (z : Zone) (u t : Int) : Prop := t = u + z.offset u

/-- Clocks are changed at most once, at the moment `s`, within four days before and after `u`: from `p` seconds ahead of
UTC to `q` seconds ahead of UTC.  Zones are less than a day from UTC, and clocks are changed by a day at most. -/
structure ChangesAt (z : Zone) (u s p q : Int) : Prop where
  before : ∀ x, u - 345600 ≤ x → x < s → z.offset x = p
  after : ∀ x, s ≤ x → x ≤ u + 345600 → z.offset x = q
  small_p : -86400 < p ∧ p < 86400
  small_q : -86400 < q ∧ q < 86400
  change : p - q ≤ 86400 ∧ q - p ≤ 86400

/-- A zone that is as zones are, around the moment `u`. -/
def Civil (z : Zone) (u : Int) : Prop := ∃ s p q, ChangesAt z u s p q

/-- The moment is between the years 1 and 9999, and at least a week from the ends of this period. -/
def InCalendar (u : Int) : Prop :=
  datetimeMin + 7 * 86400000000 ≤ u * 1000000 ∧ u * 1000000 ≤ datetimeMax - 7 * 86400000000

/-- The east of the USA in 2019: clocks were put forward by an hour on 10 March, 7:00 UTC, and back on 3 November, 6:00 UTC. -/
def Sample.newYork : Zone := ⟨fun u => if u < 1552201200 then -18000 else if u < 1572760800 then -14400 else -18000⟩

/-- Clocks that went back by a whole day, as in Alaska in 1867 (the date is made up). -/
def Sample.alaska : Zone := ⟨fun u => if u < 1000000 then 54139 else -32261⟩

end Verif.Spec
