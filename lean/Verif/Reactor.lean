import Verif.MsgStorageProps
/-!
# Reactor mailbox and wake-ups (common/reactor/Reactor.cpp, Event.cpp)

Interleaving model of one reactor.  Senders on any thread execute `Reactor::send`, which stores the
message (one atomic step, under the mailbox mutex) and then writes 1 to an event file descriptor (a
second atomic step).  Worker threads read the event descriptor (which atomically returns the counter
and resets it) and then take that many messages, one atomic step each, running the handler in between.

The mailbox is the bounded FIFO that `MsgStorage` was proved to implement (C03).  Simplifications:
the kernel's `eventfd` is modelled as an unbounded counter whose read is enabled when it is positive
(a write never blocks), and a wake-up is delivered whenever the counter is positive.  Messages are
abstract values with a message identifier.
-/

namespace Uscada.Reactor

/-- A message as far as the reactor looks at it (`MsgInterface::getMsgId`) plus its content. -/
structure Msg where
  msgId : Nat
  content : Nat
deriving DecidableEq, Repr

/-- State of one reactor. -/
structure State where
  /-- mailbox capacity (64 in Reactor.cpp:23) -/
  cap : Nat
  /-- registered message identifiers (`handlers`, Reactor.hpp:69) -/
  handlers : Nat → Bool
  /-- messages waiting in the mailbox, oldest first -/
  waiting : List Msg
  /-- `send` calls between storing and signalling -/
  unsignalled : Nat
  /-- value of the event descriptor -/
  counter : Nat
  /-- per worker thread: messages still to take in the running `onFdEvent` loop -/
  workers : List Nat
  /-- observable: messages accepted by `send`, in order -/
  accepted : List Msg
  /-- observable: messages taken and dispatched, in order; the flag tells whether a handler ran -/
  dispatched : List (Msg × Bool)
  /-- observable: some handler has thrown -/
  thrown : Bool
  /-- messages whose wake-up was consumed by a loop that an exception ended -/
  stranded : Nat
  /-- `stopped` flag -/
  stopped : Bool

/-- A reactor right after construction with `n` worker threads. -/
def init (cap n : Nat) (handlers : Nat → Bool) : State :=
  { cap, handlers, waiting := [], unsignalled := 0, counter := 0, workers := List.replicate n 0,
    accepted := [], dispatched := [], thrown := false, stranded := 0, stopped := false }

/-- Atomic steps.  The scheduler picks any sequence of enabled steps. -/
inductive Act where
  /-- a sender runs `msgMemStorage->push` (Reactor.cpp:111-115) -/
  | store (m : Msg)
  /-- a sender runs `event->send()` (Reactor.cpp:117, Event.cpp:47-54) -/
  | signal
  /-- worker `i` reads the event descriptor and enters `onFdEvent` (Event.cpp:56-64, Reactor.cpp:133-138) -/
  | wake (i : Nat)
  /-- worker `i` takes one message and dispatches it; `throws` tells whether the handler throws
  (Reactor.cpp:140-162; an exception leaves the loop and is caught in Reactor.cpp:171-176) -/
  | take (i : Nat) (throws : Bool)
  /-- `Reactor::stop` (Reactor.cpp:128-131) -/
  | stop

/-- One atomic step; `none` if the step is not enabled. -/
def step (s : State) : Act → Option State
  | .store m =>
    if s.waiting.length < s.cap then
      some { s with waiting := s.waiting ++ [m], accepted := s.accepted ++ [m],
                    unsignalled := s.unsignalled + 1 }
    else some s
  | .signal =>
    if 0 < s.unsignalled then
      some { s with unsignalled := s.unsignalled - 1, counter := s.counter + 1 }
    else none
  | .wake i =>
    match s.workers[i]? with
    | some 0 =>
      if 0 < s.counter then
        if s.stopped then some { s with counter := 0, stranded := s.stranded + s.counter }
        else some { s with counter := 0, workers := s.workers.set i s.counter }
      else none
    | _ => none
  | .take i throws =>
    match s.workers[i]? with
    | some (k + 1) =>
      match s.waiting with
      | [] => some { s with workers := s.workers.set i 0 }
      | m :: rest =>
        let h := s.handlers m.msgId
        let s' := { s with waiting := rest, dispatched := s.dispatched ++ [(m, h)] }
        if h && throws then
          some { s' with workers := s.workers.set i 0, thrown := true, stranded := s.stranded + k }
        else some { s' with workers := s.workers.set i k }
    | _ => none
  | .stop => some { s with stopped := true }

/-- A schedule: a sequence of steps, all enabled. -/
def run (s : State) : List Act → Option State
  | [] => some s
  | a :: as => (step s a).bind fun s' => run s' as

/-- Accounting invariant. -/
structure Inv (s : State) : Prop where
  order : s.dispatched.map Prod.fst ++ s.waiting = s.accepted
  flags : ∀ p ∈ s.dispatched, p.2 = s.handlers p.1.msgId
  count : s.waiting.length = s.unsignalled + s.counter + s.workers.sum + s.stranded
  noThrow : s.thrown = false → s.stopped = false → s.stranded = 0
  bound : s.waiting.length ≤ s.cap

theorem inv_init (cap n : Nat) (h : Nat → Bool) : Inv (init cap n h) := by
  constructor <;> simp [init]

theorem sum_set {l : List Nat} {i v w : Nat} (h : l[i]? = some v) :
    (l.set i w).sum + v = l.sum + w := by
  induction l generalizing i with
  | nil => simp at h
  | cons x xs ih =>
    cases i with
    | zero => simp at h; subst h; simp; omega
    | succ i => simp at h; have := ih h; simp; omega

theorem inv_step {s s' : State} {a : Act} (hi : Inv s) (h : step s a = some s') : Inv s' := by
  obtain ⟨h1, h2, h3, h4, h5⟩ := hi
  cases a with
  | store m =>
    simp only [step] at h
    split at h <;> simp at h <;> subst h
    · refine ⟨?_, h2, ?_, h4, ?_⟩
      · simp [← h1]
      · simp; omega
      · simp; omega
    · exact ⟨h1, h2, h3, h4, h5⟩
  | signal =>
    simp only [step] at h
    split at h <;> simp at h; subst h
    exact ⟨h1, h2, by simp; omega, h4, h5⟩
  | wake i =>
    simp only [step] at h
    split at h
    · rename_i hw
      split at h
      · split at h
        · simp at h; subst h
          rename_i hs
          exact ⟨h1, h2, by simp; omega, by simp [hs], h5⟩
        · simp at h; subst h
          have := sum_set (w := s.counter) hw
          exact ⟨h1, h2, by simp; omega, h4, h5⟩
      · simp at h
    · simp at h
  | take i t =>
    simp only [step] at h
    split at h
    · rename_i k hw
      split at h
      · rename_i hnil
        simp only [Option.some.injEq] at h
        have := sum_set (w := 0) hw
        have hle : k + 1 ≤ s.workers.sum := by omega
        rw [hnil] at h3
        simp at h3
        omega
      · rename_i m rest hcons
        rw [hcons] at h1 h3 h5
        simp only [List.length_cons] at h3 h5
        split at h <;> simp only [Option.some.injEq] at h <;> subst h
        · have := sum_set (w := 0) hw
          refine ⟨by simp [← h1], ?_, by simp; omega, by simp, by simp; omega⟩
          intro p hp
          simp at hp
          rcases hp with hp | rfl
          · exact h2 p hp
          · rfl
        · have := sum_set (w := k) hw
          refine ⟨by simp [← h1], ?_, by simp; omega, h4, by simp; omega⟩
          intro p hp
          simp at hp
          rcases hp with hp | rfl
          · exact h2 p hp
          · rfl
    · simp at h
  | stop =>
    simp [step] at h; subst h
    exact ⟨h1, h2, h3, by simp, h5⟩

theorem inv_run {s s' : State} (as : List Act) (hi : Inv s) (h : run s as = some s') : Inv s' := by
  induction as generalizing s with
  | nil => simp [run] at h; subst h; exact hi
  | cons a as ih =>
    simp only [run, Option.bind_eq_some_iff] at h
    obtain ⟨s1, h1, h2⟩ := h
    exact ih (inv_step hi h1) h2

end Uscada.Reactor
