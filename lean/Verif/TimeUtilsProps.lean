import Verif.TimeUtils
/-!
# C42: timestamps are correct OPC UA times
-/

namespace Uscada.Time

/-! ## Specification: the Gregorian calendar -/

/-- Leap years of the Gregorian calendar. -/
def leap (y : Nat) : Bool := y % 4 == 0 && (y % 100 != 0 || y % 400 == 0)

def yearDays (y : Nat) : Nat := if leap y then 366 else 365

/-- Days in the `n` years starting with year `y`. -/
def daysInYears (y : Nat) : Nat → Nat
  | 0 => 0
  | n + 1 => daysInYears y n + yearDays (y + n)

/-- A point in time in UTC: year, day of the year (from 0), second of the day, microsecond. -/
structure Stamp where
  year : Nat
  day : Nat
  sec : Nat
  usec : Nat

/-- A stamp naming an existing day and a time within it, from 1970 to the end of year 9999. -/
structure Stamp.Valid (t : Stamp) : Prop where
  from1970 : 1970 ≤ t.year
  to9999 : t.year ≤ 9999
  day : t.day < yearDays t.year
  sec : t.sec < 86400
  usec : t.usec < 1000000

/-- Whole seconds of the stamp since 1 January of year `y0`. -/
def Stamp.secondsSince (t : Stamp) (y0 : Nat) : Nat :=
  (daysInYears y0 (t.year - y0) + t.day) * 86400 + t.sec

/-- What POSIX reports for the stamp: seconds since 1970-01-01 and microseconds. -/
def Stamp.posix (t : Stamp) : Nat := t.secondsSince 1970

/-- OPC UA `DateTime` (Part 6, 5.2.2.5): 100 ns intervals since 1601-01-01. -/
def Stamp.opcUa (t : Stamp) : Nat := t.secondsSince 1601 * 10000000 + t.usec * 10

theorem daysInYears_add (y a b : Nat) :
    daysInYears y (a + b) = daysInYears y a + daysInYears (y + a) b := by
  induction b with
  | zero => rfl
  | succ b ih => rw [← Nat.add_assoc]; simp only [daysInYears, ih]; simp only [Nat.add_assoc]

theorem daysInYears_le (y n : Nat) : daysInYears y n ≤ 366 * n := by
  induction n with
  | zero => simp [daysInYears]
  | succ n ih =>
    have : yearDays (y + n) ≤ 366 := by unfold yearDays; split <;> omega
    simp only [daysInYears]; omega

theorem days_1601_1970 : daysInYears 1601 369 = 134774 := by decide +kernel

theorem i64_ok {v : Int} (h : -(2 ^ 63) ≤ v ∧ v < 2 ^ 63) : i64 v = .ok v := by simp only [i64, if_pos h]

/-- The computation as one expression, when nothing overflows. -/
theorem dateTime_raw (s u : Nat) (hs : s ≤ 300000000000) (hu : u < 1000000) :
    dateTime s u = .ok (((s : Int) + 11644473600) * 1000 * 1000 * 10 + (u : Int) * 10) := by
  have hc : secsCorrection = 11644473600 := by decide
  have hm : Int.tmod (u : Int) (1000 * 1000) = u := by
    rw [Int.tmod_eq_emod_of_nonneg (by omega)]; omega
  have h1 := i64_ok (v := (s : Int) + 11644473600) (by omega)
  have h2 := i64_ok (v := ((s : Int) + 11644473600) * 1000) (by omega)
  have h3 := i64_ok (v := ((s : Int) + 11644473600) * 1000 * 1000) (by omega)
  have h4 := i64_ok (v := ((s : Int) + 11644473600) * 1000 * 1000 * 10) (by omega)
  have h5 := i64_ok (v := (u : Int) * 10) (by omega)
  have h6 := i64_ok (v := ((s : Int) + 11644473600) * 1000 * 1000 * 10 + (u : Int) * 10) (by omega)
  unfold dateTime
  rw [hc, hm, h1, Exec.ok_bind, h2, Exec.ok_bind, h3, Exec.ok_bind, h4, Exec.ok_bind, h5,
    Exec.ok_bind, h6]

/-- Closed form of the computation, when nothing overflows. -/
theorem dateTime_eq (s u n : Nat) (hs : s ≤ 300000000000) (hu : u < 1000000)
    (hn : n = (s + 11644473600) * 10000000 + u * 10) :
    dateTime s u = .ok (n : Int) := by
  have h : ((s : Int) + 11644473600) * 1000 * 1000 * 10 + (u : Int) * 10 = (n : Int) := by omega
  rw [dateTime_raw s u hs hu, h]

theorem Stamp.posix_le {t : Stamp} (h : t.Valid) : t.posix ≤ 300000000000 := by
  have h1 := daysInYears_le 1970 (t.year - 1970)
  have h2 := h.to9999
  have h3 := h.day
  have h4 := h.sec
  have h5 : yearDays t.year ≤ 366 := by unfold yearDays; split <;> omega
  simp only [Stamp.posix, Stamp.secondsSince]
  omega

/-- C42 (correct, no overflow).  For every date from 1970 to the end of 9999 the computation does not
overflow and yields the number of 100 ns intervals since 1601-01-01 of the Gregorian calendar. -/
theorem C42_timestamp_correct (t : Stamp) (h : t.Valid) :
    dateTime t.posix t.usec = .ok (t.opcUa : Int) := by
  have h1 : t.year - 1601 = 369 + (t.year - 1970) := by have := h.from1970; omega
  have h2 : daysInYears 1601 (t.year - 1601) = 134774 + daysInYears 1970 (t.year - 1970) := by
    rw [h1, daysInYears_add, days_1601_1970]
  refine dateTime_eq _ _ _ (t.posix_le h) h.usec ?_
  simp only [Stamp.opcUa, Stamp.posix, Stamp.secondsSince, h2]
  omega

/-- C42 (monotone).  Whenever the system clock does not go backwards between two readings, neither
does the timestamp. -/
theorem C42_timestamp_monotone (s1 u1 s2 u2 : Nat) (v1 v2 : Int)
    (hu1 : u1 < 1000000) (hu2 : u2 < 1000000) (hle : s1 < s2 ∨ (s1 = s2 ∧ u1 ≤ u2))
    (h1 : dateTime s1 u1 = .ok v1) (h2 : dateTime s2 u2 = .ok v2) : v1 ≤ v2 := by
  have key : ∀ (s u : Nat) (v : Int), u < 1000000 → dateTime s u = .ok v →
      v = (s + 11644473600) * 10000000 + u * 10 := by
    intro s u v hu h
    have hc : secsCorrection = 11644473600 := by decide
    have hm : Int.tmod (u : Int) (1000 * 1000) = u := by
      rw [Int.tmod_eq_emod_of_nonneg (by omega)]; omega
    have hv : ∀ {a b : Int}, i64 a = .ok b → b = a := by
      intro a b hab
      unfold i64 at hab
      split at hab
      · cases hab; rfl
      · cases hab
    simp only [dateTime, Exec.bind_eq_ok, hc, hm] at h
    obtain ⟨a, ha, b, hb, c, hc', d, hd, e, he, hf⟩ := h
    rw [hv hf, hv hd, hv hc', hv hb, hv ha, hv he]
    omega
  rw [key _ _ _ hu1 h1, key _ _ _ hu2 h2]
  omega

/-- Non-vacuity: 2021-03-01 12:00:00.5 UTC. -/
example : (⟨2021, 59, 43200, 500000⟩ : Stamp).Valid ∧
    (⟨2021, 59, 43200, 500000⟩ : Stamp).posix = 1614600000 ∧
    dateTime 1614600000 500000 = .ok 132590736005000000 := by
  refine ⟨⟨by decide, by decide, by decide, by decide, by decide⟩, by decide +kernel,
    by decide +kernel⟩

end Uscada.Time
