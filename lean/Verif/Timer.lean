import Verif.Base
/-!
# Timer arithmetic (common/reactor/Timer.cpp:71-102)

`Timer::start` takes an interval in microseconds, adds it to the monotonic clock and sets an absolute expiration.  `long` and
`time_t` have 64 bits and signed overflow is undefined; `/` and `%` truncate.

The clock and `timerfd_settime` are the kernel's: the clock gives seconds and nanoseconds with `0 ≤ tv_nsec < 10⁹`; the call
refuses other nanoseconds and negative seconds with EINVAL, an absolute time of zero disarms the timer, and any other time lets
it expire at this time, or at once if the time is over.  The descriptor is taken to be valid (`Verif.Dispatch`).
-/

namespace Uscada.Timer

/-- `struct timespec` -/
structure Spec where
  sec : Int
  nsec : Int
deriving DecidableEq, Repr

/-- The value is a `long`. -/
def isLong (x : Int) : Bool := decide (-9223372036854775808 ≤ x ∧ x ≤ 9223372036854775807)

/-- The result of an operation on `long` values. -/
def long (x : Int) : Exec Int := if isLong x then .ok x else .ub

/-- What the timer descriptor is set to. -/
inductive Setting where
  | disarmed
  /-- expires at this time -/
  | at (t : Spec)
deriving DecidableEq, Repr

/-- `timerfd_settime` with TFD_TIMER_ABSTIME; a failure is thrown (Timer.cpp:85-88, 98-101). -/
def settime (t : Spec) : Exec Setting :=
  if t.sec < 0 ∨ t.nsec < 0 ∨ t.nsec ≥ 1000000000 then .throws
  else if t.sec = 0 ∧ t.nsec = 0 then .ok .disarmed
  else .ok (.at t)

/-- Timer.cpp:71-89; `now` is what `clock_gettime` gives. -/
def start (now : Spec) (interval : Int) : Exec Setting := do
  let nsec ← long (interval * 1000)
  let sum ← long (now.nsec + nsec)
  let sec ← long (now.sec + sum.tdiv 1000000000)
  settime ⟨sec, sum.tmod 1000000000⟩

/-- Timer.cpp:91-102 -/
def stop : Exec Setting := settime ⟨0, 0⟩

/-- The intervals the program uses: ModbusClient.hpp:66-69, ModbusSession.hpp:61-62, UaTcpDefs.hpp:12, ClientConnection.hpp:36-38,
ServerConnection.hpp:38-40, ModbusTestController.hpp:59. -/
def intervals : List Int :=
  [3000000, 500000, 5000000, 10000, 30000000, 5000000, 30000000, 3000000, 1000000, 10000000, 3000000, 1000000, 10000000, 10000]

end Uscada.Timer
