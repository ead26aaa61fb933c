import Verif.Timer
/-!
# C69: a timer expires after its interval
-/

namespace Uscada.Timer

/-- A time on the monotonic clock, in nanoseconds. -/
def Spec.nanos (t : Spec) : Int := t.sec * 1000000000 + t.nsec

/-- What the kernel accepts and gives. -/
structure Spec.Valid (t : Spec) : Prop where
  sec : 0 ≤ t.sec
  nsec : 0 ≤ t.nsec
  small : t.nsec < 1000000000

theorem long_ok {x : Int} (h1 : -9223372036854775808 ≤ x) (h2 : x ≤ 9223372036854775807) : long x = .ok x := by
  unfold long isLong
  rw [if_pos (by simp [h1, h2])]

theorem long_ub {x : Int} (h : 9223372036854775807 < x) : long x = .ub := by
  unfold long isLong
  rw [if_neg (by simp; omega)]

theorem settime_valid {t : Spec} (h : t.Valid) (h0 : t.nanos ≠ 0) : settime t = .ok (.at t) := by
  obtain ⟨h1, h2, h3⟩ := h
  unfold settime
  rw [if_neg (by omega), if_neg]
  rintro ⟨e1, e2⟩
  apply h0
  unfold Spec.nanos
  omega

/-- C69: for every clock value up to 292 years and every interval from one microsecond up to 291 years the timer is armed for
exactly `interval` microseconds later, with a valid time and without overflow. -/
theorem C69_exact_partial (now : Spec) (interval : Int) (hn : now.Valid) (hs : now.sec ≤ 9214148664) (h1 : 0 < interval)
    (h2 : interval ≤ 9223372035854775) :
    ∃ t, start now interval = .ok (.at t) ∧ t.Valid ∧ t.nanos = now.nanos + interval * 1000 := by
  obtain ⟨hn1, hn2, hn3⟩ := hn
  have e1 : long (interval * 1000) = .ok (interval * 1000) := long_ok (by omega) (by omega)
  have e2 : long (now.nsec + interval * 1000) = .ok (now.nsec + interval * 1000) := long_ok (by omega) (by omega)
  have d1 : (now.nsec + interval * 1000).tdiv 1000000000 = (now.nsec + interval * 1000) / 1000000000 :=
    Int.tdiv_eq_ediv_of_nonneg (by omega)
  have d2 : (now.nsec + interval * 1000).tmod 1000000000 = (now.nsec + interval * 1000) % 1000000000 :=
    Int.tmod_eq_emod_of_nonneg (by omega)
  have e3 : long (now.sec + (now.nsec + interval * 1000) / 1000000000) = .ok (now.sec + (now.nsec + interval * 1000) / 1000000000) :=
    long_ok (by omega) (by omega)
  refine ⟨⟨now.sec + (now.nsec + interval * 1000) / 1000000000, (now.nsec + interval * 1000) % 1000000000⟩, ?_, ?_, ?_⟩
  · simp only [start, e1, Exec.ok_bind, e2, d1, e3, d2]
    refine settime_valid ⟨?_, ?_, ?_⟩ ?_
    · dsimp only; omega
    · dsimp only; omega
    · dsimp only; omega
    · simp only [Spec.nanos]; omega
  · refine ⟨?_, ?_, ?_⟩
    · dsimp only; omega
    · dsimp only; omega
    · dsimp only; omega
  · simp only [Spec.nanos]; omega

/-- C69: no interval the program uses fails, at any time up to 292 years after the start of the clock. -/
theorem C69_used (now : Spec) (hn : now.Valid) (hs : now.sec ≤ 9214148664) : ∀ i ∈ intervals,
    ∃ t, start now i = .ok (.at t) ∧ t.nanos = now.nanos + i * 1000 := by
  intro i hi
  have hb : ∀ i ∈ intervals, 0 < i ∧ i ≤ 9223372035854775 := by decide
  obtain ⟨t, h1, _, h2⟩ := C69_exact_partial now i hn hs (hb i hi).1 (hb i hi).2
  exact ⟨t, h1, h2⟩

/-- `stop` disarms. -/
example : stop = .ok .disarmed := rfl

/-- Ten milliseconds over the end of a second. -/
example : start ⟨41, 995000000⟩ 10000 = .ok (.at ⟨42, 5000000⟩) := rfl

/-- The claim without bounds fails: an interval of 293 years overflows, although the interface takes every `long`. -/
theorem C69_overflow_violated : ∃ now interval, now.Valid ∧ isLong interval = true ∧ 0 < interval ∧ start now interval = .ub :=
  ⟨⟨1, 0⟩, 9223372036854776, ⟨by decide, by decide, by decide⟩, rfl, by decide, rfl⟩

/-- A negative interval throws, or arms for a time in the past: only a whole number of seconds back gives valid nanoseconds. -/
theorem C69_negative (now : Spec) (interval : Int) (hn : now.Valid) (hs : now.sec ≤ 9214148664) (h1 : interval < 0)
    (h2 : -9223372036854774 ≤ interval) : start now interval = .throws ∨ start now interval = .ok .disarmed ∨
      ∃ t, start now interval = .ok (.at t) ∧ t.Valid ∧ t.nanos = now.nanos + interval * 1000 := by
  obtain ⟨hn1, hn2, hn3⟩ := hn
  have e1 : long (interval * 1000) = .ok (interval * 1000) := long_ok (by omega) (by omega)
  have e2 : long (now.nsec + interval * 1000) = .ok (now.nsec + interval * 1000) := long_ok (by omega) (by omega)
  have hd := Int.tdiv_mul_add_tmod (now.nsec + interval * 1000) 1000000000
  have hm1 : -1000000000 < (now.nsec + interval * 1000).tmod 1000000000 := by
    have := Int.lt_tmod_of_pos (now.nsec + interval * 1000) (b := 1000000000) (by omega)
    exact this
  have hm2 : (now.nsec + interval * 1000).tmod 1000000000 < 1000000000 := Int.tmod_lt_of_pos _ (by omega)
  generalize hq : (now.nsec + interval * 1000).tdiv 1000000000 = q at hd
  generalize hr : (now.nsec + interval * 1000).tmod 1000000000 = r at hd hm1 hm2
  have e3 : long (now.sec + q) = .ok (now.sec + q) := long_ok (by omega) (by omega)
  have hs : start now interval = settime ⟨now.sec + q, r⟩ := by
    simp only [start, e1, Exec.ok_bind, e2, hq, e3, hr]
  rw [hs]
  unfold settime
  by_cases hc : now.sec + q < 0 ∨ r < 0 ∨ r ≥ 1000000000
  · rw [if_pos hc]; exact .inl rfl
  · rw [if_neg hc]
    by_cases h0 : now.sec + q = 0 ∧ r = 0
    · rw [if_pos h0]; exact .inr (.inl rfl)
    · rw [if_neg h0]
      refine .inr (.inr ⟨_, rfl, ⟨?_, ?_, ?_⟩, ?_⟩)
      · dsimp only; omega
      · dsimp only; omega
      · dsimp only; omega
      · simp only [Spec.nanos]; omega

example : start ⟨10, 0⟩ (-1) = .throws ∧ start ⟨10, 5000⟩ (-1) = .ok (.at ⟨10, 4000⟩) ∧ start ⟨10, 0⟩ (-3000000) = .ok (.at ⟨7, 0⟩) :=
  ⟨rfl, rfl, rfl⟩

/-- C69, the limits: at every valid time a positive interval is either armed exactly or is undefined behaviour, and it is the latter iff the nanoseconds of the
interval and the current second, or the second of expiry, do not fit into a `long`. -/
theorem C69_limits_partial (now : Spec) (interval : Int) (hn : now.Valid) (h1 : 0 < interval) :
    (now.nsec + interval * 1000 < 2 ^ 63 ∧ now.nanos + interval * 1000 < 2 ^ 63 * 1000000000 →
      ∃ t, start now interval = .ok (.at t) ∧ t.Valid ∧ t.nanos = now.nanos + interval * 1000) ∧
    (¬ (now.nsec + interval * 1000 < 2 ^ 63 ∧ now.nanos + interval * 1000 < 2 ^ 63 * 1000000000) → start now interval = .ub) := by
  obtain ⟨hn1, hn2, hn3⟩ := hn
  have d1 : (now.nsec + interval * 1000).tdiv 1000000000 = (now.nsec + interval * 1000) / 1000000000 :=
    Int.tdiv_eq_ediv_of_nonneg (by omega)
  have d2 : (now.nsec + interval * 1000).tmod 1000000000 = (now.nsec + interval * 1000) % 1000000000 :=
    Int.tmod_eq_emod_of_nonneg (by omega)
  have hna : now.nanos = now.sec * 1000000000 + now.nsec := rfl
  constructor
  · rintro ⟨a1, a2⟩
    have e1 : long (interval * 1000) = .ok (interval * 1000) := long_ok (by omega) (by omega)
    have e2 : long (now.nsec + interval * 1000) = .ok (now.nsec + interval * 1000) := long_ok (by omega) (by omega)
    have e3 : long (now.sec + (now.nsec + interval * 1000) / 1000000000) = .ok (now.sec + (now.nsec + interval * 1000) / 1000000000) :=
      long_ok (by omega) (by omega)
    have hv : Spec.Valid ⟨now.sec + (now.nsec + interval * 1000) / 1000000000, (now.nsec + interval * 1000) % 1000000000⟩ := by
      refine ⟨?_, ?_, ?_⟩ <;> dsimp only <;> omega
    refine ⟨_, ?_, hv, by simp only [Spec.nanos]; omega⟩
    simp only [start, e1, Exec.ok_bind, e2, d1, e3, d2]
    exact settime_valid hv (by simp only [Spec.nanos]; omega)
  · intro a
    by_cases b1 : interval * 1000 ≤ 9223372036854775807
    · have e1 : long (interval * 1000) = .ok (interval * 1000) := long_ok (by omega) b1
      by_cases b2 : now.nsec + interval * 1000 ≤ 9223372036854775807
      · have e2 : long (now.nsec + interval * 1000) = .ok (now.nsec + interval * 1000) := long_ok (by omega) b2
        have e3 : long (now.sec + (now.nsec + interval * 1000) / 1000000000) = .ub := long_ub (by omega)
        simp only [start, e1, Exec.ok_bind, e2, d1, e3]
        rfl
      · have e2 : long (now.nsec + interval * 1000) = .ub := long_ub (by omega)
        simp only [start, e1, Exec.ok_bind, e2]
        rfl
    · have e1 : long (interval * 1000) = .ub := long_ub (by omega)
      simp only [start, e1]
      rfl

/-- Non-vacuity: the last interval that is armed at this time and the first that is not. -/
example : start ⟨1, 999999999⟩ 9223372035854775 = .ok (.at ⟨9223372037, 854774999⟩) ∧ start ⟨1, 999999999⟩ 9223372035854776 = .ub := ⟨rfl, rfl⟩

end Uscada.Timer
