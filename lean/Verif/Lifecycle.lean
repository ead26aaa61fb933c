import Verif.Base
/-!
# Start and end of the program

`main` (main.cpp:10-41), `ReactorManager::start`, `stop` and its destruction (ReactorManager.cpp:19-21, 50-66,
ReactorManager.hpp:34-35), `Reactor::start`, `stop`, `run`, `onFdEvent` and its destruction (Reactor.cpp:40-42, 120-178,
Reactor.hpp:61-69), `Thread` (Thread.cpp:23-98) and `Epoll::wait` (Epoll.cpp:53-75).

The main thread and one thread for each reactor (both deployments of Deployer.cpp:26-38 have one thread each) take steps in any
order.  A reactor is reduced to its flag `stopped`, where its thread is, and which of its members are destroyed; a component to
whether it is destroyed.  What a handler does is reduced to the objects it uses: its component, the handlers and pools of its
reactor and, if it sends, the manager's map of components and the mailbox and event of the receiving reactors.  The use of a
destroyed object is undefined behaviour.  The unsynchronised access to an object that is being destroyed counts as a use before
or after the destruction.

The members of `ReactorManager` are destroyed in the reverse order of their declaration: first the components, then the
reactors, one after the other; of a reactor first the handlers and pools, then the threads, whose destructor joins them, then
event, epoll and mailbox.  An exception in `main` leads to the same destruction without `stop`.
-/

namespace Uscada.Lifecycle

/-! ## Starting a thread -/

/-- A set of CPUs (`cpu_set_t`). -/
abbrev Cpus := Nat → Bool

/-- The set built from the mask (Thread.cpp:69-78). -/
def cpuset (mask : UInt64) : Cpus := fun j => decide (j < 64) && mask.toNat.testBit j

/-- What `Thread::start` ends with. -/
inductive Started where
  /-- the thread runs -/
  | ok
  /-- an exception, without a thread -/
  | refused
  /-- an exception after the thread was created -/
  | unpinned
deriving DecidableEq, Repr

/-- `Thread::start` (Thread.cpp:49-98).  `created` is the success of `pthread_create`; `allowed` are the CPUs the thread may run
on: `pthread_setaffinity_np` fails if none of the set is, and `pthread_getaffinity_np` gives those of the set that are.  Sets are
compared on their 1024 members (`CPU_EQUAL`). -/
def startThread (mask : UInt64) (created : Bool) (allowed : Cpus) : Started :=
  if created = false then .refused
  else if mask = 0 then .ok
  else if (List.range 1024).all (fun j => !(cpuset mask j && allowed j)) then .unpinned
  else if (List.range 1024).all (fun j => (cpuset mask j && allowed j) == cpuset mask j) then .ok
  else .unpinned

/-- The masks of the deployment `main` uses (Deployer.cpp:31-38). -/
def masks : List UInt64 := [0b00000100, 0b00010000, 0b01000000, 0b10000000]

/-! ## The threads -/

/-- Where the thread of a reactor is. -/
inductive TSt where
  /-- not created; `Thread::tid` is not initialised -/
  | absent
  /-- before the condition of the loop (Reactor.cpp:167) -/
  | top
  /-- in `epoll_wait` -/
  | waiting
  /-- `n` events of the last `epoll_wait` are still to be handled (Epoll.cpp:64-72) -/
  | batch (n : Nat)
  /-- in a handler; `n` events follow, and `k` messages after this one (Reactor.cpp:140-162) -/
  | inside (n k : Nat)
  /-- the thread has ended -/
  | exited
deriving DecidableEq, Repr

/-- A reactor: its flag, its thread, and whether the handlers and pools, and event, epoll and mailbox still exist. -/
structure RSt where
  stopped : Bool
  thread : TSt
  pools : Bool
  core : Bool
deriving DecidableEq, Repr

/-- The main thread. -/
inductive Main where
  /-- about to start reactor `i` (ReactorManager.cpp:50-56) -/
  | starting (i : Nat)
  /-- main.cpp:22-32 -/
  | running
  /-- about to stop reactor `i` (ReactorManager.cpp:60-63) -/
  | stopping (i : Nat)
  /-- sleeping for 100 ms (ReactorManager.cpp:64-65) -/
  | lingering
  /-- about to destroy the components -/
  | destroying
  /-- about to destroy handlers and pools of reactor `i` -/
  | pools (i : Nat)
  /-- in `pthread_join` of the thread of reactor `i` (Thread.cpp:42) -/
  | joining (i : Nat)
  /-- about to destroy the rest of reactor `i` -/
  | core (i : Nat)
  | done
deriving DecidableEq, Repr

/-- The process. -/
structure Proc where
  main : Main
  comps : Bool
  rs : Nat → RSt

/-- An event `epoll_wait` returned. -/
inductive Ev where
  /-- the event of the mailbox with `k + 1` messages -/
  | messages (k : Nat)
  /-- a link, a timer or an acceptor -/
  | fd
deriving DecidableEq, Repr

/-- A step of some thread. -/
inductive Act where
  /-- the main thread starts a reactor -/
  | start (r : Started)
  /-- the main thread goes on -/
  | main
  /-- an exception in main.cpp:22-32 -/
  | raise
  /-- the thread of reactor `i` checks its flag -/
  | check (i : Nat)
  /-- `epoll_wait` returns `n` events -/
  | wake (i n : Nat)
  /-- the next event of the batch -/
  | next (i : Nat) (e : Ev)
  /-- the handler of a message ends, after sending to the reactors `to`, and the next message is handled -/
  | again (i : Nat) (to : List Nat)
  /-- the handler of the event ends, after sending -/
  | finish (i : Nat) (to : List Nat)
  /-- an exception leaves the handler (Reactor.cpp:173-176) -/
  | throws (i : Nat)
  /-- the batch is handled -/
  | loop (i : Nat)
deriving DecidableEq, Repr

/-- Reactor `i` gets the state `r`. -/
def Proc.put (p : Proc) (i : Nat) (r : RSt) : Proc := { p with rs := fun j => if j = i then r else p.rs j }

/-- The thread of reactor `i` gets to `t`. -/
def Proc.move (p : Proc) (i : Nat) (t : TSt) : Proc := p.put i { p.rs i with thread := t }

/-- The process before `ReactorManager::start`: everything is constructed, no thread exists. -/
def init : Proc := { main := .starting 0, comps := true, rs := fun _ => ⟨false, .absent, true, true⟩ }

/-- `MAX_EVENTS` (Epoll.hpp:31) -/
def maxEvents : Nat := 10

/-- A handler of reactor `i` may do its work: its component, the manager's map, handlers and pools of the reactor exist, and the
mailboxes of the reactors it sends to. -/
def Proc.usable (p : Proc) (i : Nat) (to : List Nat) : Bool :=
  p.comps && (p.rs i).pools && (p.rs i).core && to.all fun j => (p.rs j).core

/-- A step with `n` reactors, `none` if the thread can not take it. -/
def step (n : Nat) (p : Proc) : Act → Option (Exec Proc)
  | .start r => match p.main with
    | .starting i =>
      if i < n then match r with
        | .ok => some (.ok { p.move i .top with main := .starting (i + 1) })
        | .refused => some (.ok { p with main := .destroying })
        | .unpinned => some (.ok { p.move i .top with main := .destroying })
      else none
    | _ => none
  | .raise => match p.main with
    | .running => some (.ok { p with main := .destroying })
    | _ => none
  | .main => match p.main with
    | .starting i => if i < n then none else some (.ok { p with main := .running })
    | .running => some (.ok { p with main := .stopping 0 })
    | .stopping i =>
      if i < n then some (.ok { p.put i { p.rs i with stopped := true } with main := .stopping (i + 1) })
      else some (.ok { p with main := .lingering })
    | .lingering => some (.ok { p with main := .destroying })
    | .destroying => some (.ok { p with comps := false, main := .pools 0 })
    | .pools i =>
      if i < n then some (.ok { p.put i { p.rs i with pools := false } with main := .joining i })
      else some (.ok { p with main := .done })
    | .joining i => match (p.rs i).thread with
      | .absent => some .ub
      | .exited => some (.ok { p with main := .core i })
      | _ => none
    | .core i => some (.ok { p.put i { p.rs i with core := false } with main := .pools (i + 1) })
    | .done => none
  | .check i => match (p.rs i).thread with
    | .top => if (p.rs i).core = false then some .ub
      else some (.ok (p.move i (if (p.rs i).stopped then .exited else .waiting)))
    | _ => none
  | .wake i k => match (p.rs i).thread with
    | .waiting => if k > maxEvents then none
      else if (p.rs i).core = false then some .ub
      else some (.ok (p.move i (.batch k)))
    | _ => none
  | .next i e => match (p.rs i).thread with
    | .batch (k + 1) => match e with
      | .messages m => if (p.rs i).core = false then some .ub
        else if (p.rs i).stopped then some (.ok (p.move i (.batch k)))
        else if p.usable i [] then some (.ok (p.move i (.inside k m)))
        else some .ub
      | .fd => if p.usable i [] then some (.ok (p.move i (.inside k 0))) else some .ub
    | _ => none
  | .again i to => match (p.rs i).thread with
    | .inside k (m + 1) => if p.usable i to then some (.ok (p.move i (.inside k m))) else some .ub
    | _ => none
  | .finish i to => match (p.rs i).thread with
    | .inside k 0 => if p.usable i to then some (.ok (p.move i (.batch k))) else some .ub
    | _ => none
  | .throws i => match (p.rs i).thread with
    | .inside _ _ => if p.usable i [] then some (.ok (p.move i .top)) else some .ub
    | _ => none
  | .loop i => match (p.rs i).thread with
    | .batch 0 => some (.ok (p.move i .top))
    | _ => none

end Uscada.Lifecycle
