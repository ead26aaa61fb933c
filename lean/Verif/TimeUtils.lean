import Verif.Base
/-!
# `getCurrentDateTime` (common/utils/TimeUtils.hpp)
-/

namespace Uscada.Time

/-- Result of a signed 64-bit operation: undefined behaviour on overflow. -/
def i64 (v : Int) : Exec Int := if -(2 ^ 63) ≤ v ∧ v < 2 ^ 63 then .ok v else .ub

/-- TimeUtils.hpp:19-28, the compile-time constants. -/
def secsStdYear : Int := 31536000
def secsExtYearDiff : Int := 86400
def extYearPeriod : Int := 4
def yearCorrection : Int := 1970 - 1601
def extYearCorrection : Int := 3
def numExtYearsWithinCorrection : Int := (1970 - 1601) / extYearPeriod - extYearCorrection
def secsCorrection : Int :=
  yearCorrection * secsStdYear + numExtYearsWithinCorrection * secsExtYearDiff

/-- TimeUtils.hpp:30, with the `timeval` returned by the operating system as argument.  Every 64-bit
signed intermediate result is checked for overflow; `%` truncates. -/
def dateTime (sec usec : Int) : Exec Int := do
  let a ← i64 (sec + secsCorrection)
  let b ← i64 (a * 1000)
  let c ← i64 (b * 1000)
  let d ← i64 (c * 10)
  let e ← i64 ((usec.tmod (1000 * 1000)) * 10)
  i64 (d + e)

end Uscada.Time
