import Verif.ModbusClientProps
import Verif.ModbusSessionProps
/-!
# Modbus client and session with time

`Verif.ModbusClient` and `Verif.ModbusSession` leave open when timers expire.  Here every event carries a time in microseconds,
and the time at which the running timer is due is kept beside the state.  A timer is started by the entry action of a state, and
by the client once more after a request that cannot be encoded (ModbusClientSend.cpp:43-47); so it is started anew by a step
after which it runs and which either changed the state or was its expiration.

The threads take some time to get to an event: `late` bounds the time from the moment at which a timer is due to the moment at
which its handler has run.  Nothing else is assumed about the speed of the machine or of the peer.
-/

namespace Uscada.Modbus

namespace Client

/-- The intervals passed to `startTimer`: ModbusClient.hpp:66-69, ModbusClientConnect.cpp:13, ModbusClientSend.cpp:14 and 45,
ModbusClientReceive.cpp:13, ModbusClientBackoff.cpp:12; the other states start none. -/
def interval : CSt → Nat
  | .init | .connected => 0
  | .connect => 3000000
  | .send => 10000
  | .receive => 5000000
  | .backoff => 500000

/-- Expirations of the timer. -/
def isTimer : Ev → Bool
  | .timer _ _ => true
  | _ => false

/-- A client and the time its timer is due, which counts only while the timer runs. -/
structure Timed where
  c : Client
  due : Nat

namespace Timed

/-- ModbusClient.cpp:39-42 (`startTimer`, the interval is added to the clock: `Verif.Timer`) -/
def dueAfter (t : Timed) (now : Nat) (e : Ev) (c' : Client) : Nat :=
  if c'.timer = true ∧ (c'.st ≠ t.c.st ∨ isTimer e = true) then now + interval c'.st else t.due

/-- One event (ModbusClient.cpp:241-289) at a time. -/
def step (t : Timed) (now : Nat) (e : Ev) : Exec (Timed × List COut) :=
  match t.c.step e with
  | .ok (c', o) => .ok (⟨c', t.dueAfter now e c'⟩, o)
  | .throws => .throws
  | .abort => .abort
  | .ub => .ub

/-- A history: the time, state and effects of each event. -/
def run (t : Timed) : List (Nat × Ev) → Exec (Timed × List (Nat × CSt × List COut))
  | [] => .ok (t, [])
  | (now, e) :: es => do
    let (t1, o) ← t.step now e
    let (t2, os) ← run t1 es
    pure (t2, (now, t1.c.st, o) :: os)

/-- No timer is overdue by more than `late`. -/
def Awake (late : Nat) (t : Timed) (now : Nat) : Prop := t.c.timer = true → now ≤ t.due + late

/-- Time does not run backwards, timers do not expire early, and none is overdue by more than `late`.  `last` is the time of the
event before. -/
def OnTime (late : Nat) (last : Nat) (t : Timed) : List (Nat × Ev) → Prop
  | [] => True
  | (now, e) :: es => last ≤ now ∧ t.Awake late now ∧ (isTimer e = true → t.c.timer = true ∧ t.due ≤ now) ∧
    match t.step now e with
    | .ok (t', _) => OnTime late now t' es
    | _ => True

end Timed

/-- Time of the last event. -/
def lastOf (last : Nat) : List (Nat × Ev) → Nat
  | [] => last
  | (now, _) :: es => lastOf now es

end Client

namespace Session

/-- The intervals passed to `startTimer`: ModbusSession.hpp:61-62, ModbusSessionConnected.cpp:13,
ModbusSessionWaitModbusAduRsp.cpp:12. -/
def interval : SSt → Nat
  | .init => 0
  | .connected => 30000000
  | .wait => 5000000

/-- Expirations of the timer. -/
def isTimer : Ev → Bool
  | .timer => true
  | _ => false

/-- A session and the time its timer is due, which counts only while the timer runs. -/
structure Timed where
  s : Session
  due : Nat

namespace Timed

/-- ModbusSession.cpp:69-72 -/
def dueAfter (t : Timed) (now : Nat) (e : Ev) (s' : Session) : Nat :=
  if s'.armed = true ∧ (s'.st ≠ t.s.st ∨ isTimer e = true) then now + interval s'.st else t.due

/-- One event (`Session.step`) at a time. -/
def step (t : Timed) (now : Nat) (e : Ev) : Exec (Timed × List SOut) :=
  match t.s.step e with
  | .ok (s', o) => .ok (⟨s', t.dueAfter now e s'⟩, o)
  | .throws => .throws
  | .abort => .abort
  | .ub => .ub

/-- A history: the time and effects of each event. -/
def run (t : Timed) : List (Nat × Ev) → Exec (Timed × List (Nat × List SOut))
  | [] => .ok (t, [])
  | (now, e) :: es => do
    let (t1, o) ← t.step now e
    let (t2, os) ← run t1 es
    pure (t2, (now, o) :: os)

/-- No timer is overdue by more than `late`. -/
def Awake (late : Nat) (t : Timed) (now : Nat) : Prop := t.s.armed = true → now ≤ t.due + late

/-- As for the client. -/
def OnTime (late : Nat) (last : Nat) (t : Timed) : List (Nat × Ev) → Prop
  | [] => True
  | (now, e) :: es => last ≤ now ∧ t.Awake late now ∧ (isTimer e = true → t.s.armed = true ∧ t.due ≤ now) ∧
    match t.step now e with
    | .ok (t', _) => OnTime late now t' es
    | _ => True

end Timed

end Session

end Uscada.Modbus
