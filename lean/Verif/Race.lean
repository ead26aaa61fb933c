import Verif.Routing
/-!
# Memory shared by the threads

What the threads of the process read and write, and how they are synchronised.  The main thread (main.cpp:10-41) constructs the
reactors and components (Deployer.cpp:47-106), creates the threads (Reactor.cpp:120-126, Thread.cpp:49-98), sends two messages
(ReactorManager.cpp:23-32, Reactor.cpp:109-118), stops the reactors (Reactor.cpp:128-131) and destroys everything
(ReactorManager.hpp:34-35, Reactor.hpp:61-69).  The threads of the reactors run `Reactor::run` (Reactor.cpp:165-178), with handlers
that log (Logger.hpp:33-41, Logger.cpp:67-101), send, and use their component and their reactor.

An execution is a sequence of events, each of one thread: accesses to objects, and synchronisation.  Two accesses of different
threads to one object, of which one writes, must be ordered by *happens before*, which is built from the order of each thread, from
the unlocking of a mutex to its later lockings, from the creation of a thread to its events, from its events to `pthread_join`, from
storing an atomic flag to loading it, and from the end of the construction of the static logger to those that find it constructed.

Simplifications.  An object is a whole data structure (the mailbox, a pool, a component with all it owns): two accesses to it
conflict even if they touch different bytes.  `std::map::operator[]` reads the tree, and writes it if the key is missing.  The
descriptors of the kernel (event, epoll, sockets, timers), `rand` and the standard streams synchronise on their own and are left
out, as are the state objects of the state machines, which have no data (`getSingleton`, Singleton.hpp:6-11).  Exceptions in `main`
are left out (C71); a handler may end anywhere.
-/

namespace Uscada.Race
open Uscada.Routing

/-- A thread: `main`, or thread `i` of reactor `r`. -/
inductive Tid where
  | main
  | worker (r i : Nat)
deriving DecidableEq, Repr

/-- An object that is read and written. -/
inductive Loc where
  /-- `ReactorManager::components` (ReactorManager.hpp:35), the map and the pointers in it -/
  | components
  /-- `Logger::logLevels` (Logger.hpp:60), and the rest of the logger its constructor writes -/
  | levels
  /-- the buffer of `localtime` (Logger.cpp:93) -/
  | clock
  /-- the chunks and queues of `MsgMemStorage` (MsgMemStorage.hpp:31-39) -/
  | mailbox (r : Nat)
  /-- `Reactor::handlers` (Reactor.hpp:69) -/
  | handlers (r : Nat)
  /-- the pools of a reactor and the links, timers and acceptors in them (Reactor.hpp:66-68) -/
  | pools (r : Nat)
  /-- a component and all it owns -/
  | comp (c : Comp)
  /-- the static pointers to reactor and sender of a component (ReactorBase.hpp:26-30, SenderBase.hpp:32-36) -/
  | pointers (c : Comp)
  /-- `Thread::tid` (Thread.hpp:25) -/
  | tid (r i : Nat)
deriving DecidableEq, Repr

inductive Mutex where
  /-- `Logger::mutex` (Logger.hpp:58) -/
  | log
  /-- `MsgMemStorage::mutex` (MsgMemStorage.hpp:35) -/
  | mailbox (r : Nat)
deriving DecidableEq, Repr

/-- An event of a thread. -/
inductive Ev where
  | rd (l : Loc)
  | wr (l : Loc)
  /-- the destruction of an object -/
  | del (l : Loc)
  | lock (m : Mutex)
  | unlock (m : Mutex)
  /-- `pthread_create` -/
  | fork (t : Tid)
  /-- `pthread_join` returns -/
  | join (t : Tid)
  /-- `Reactor::stopped` (Reactor.hpp:61) is set, is read -/
  | store (r : Nat)
  | load (r : Nat)
  /-- the static logger is constructed, is found constructed -/
  | publish
  | pass
deriving DecidableEq, Repr

/-! ## The code of the threads -/

/-- An instruction: one event, or one that depends on the state. -/
inductive Instr where
  | ev (e : Ev)
  /-- the initialisation of the static logger, unless it is done (Logger.cpp:59-65, 67-71) -/
  | once
  /-- `components[c]` (ReactorManager.cpp:25, 36) -/
  | find (c : Comp)
deriving DecidableEq, Repr

/-- A deployment: the components of each reactor, how many threads each reactor has, and the messages that are sent. -/
structure Depl where
  comps : List (List Comp)
  threads : Nat
  sent : List MsgType

/-- The components the deployer knows (Deployer.cpp:60-103): not the detector. -/
def known (c : Comp) : Bool := c != .detector

/-- The reactor of a component that is in the map: the first one that has it (ReactorManager.cpp:34-43). -/
def Depl.home (d : Depl) (c : Comp) : Option Nat :=
  if known c then d.comps.findIdx? (·.contains c) else none

/-- `Logger::getInst` (Logger.cpp:67-71) -/
def getInst : List Instr := [.once]

/-- The macro `LM` (Logger.hpp:33-41) and `Logger::dispatch` (Logger.cpp:83-101); `on` tells if the line is of a level that is
logged. -/
def lm (on : Bool) : List Instr :=
  getInst ++ [.ev (.rd .levels)] ++
    if on then getInst ++ [.ev (.lock .log), .ev (.wr .clock), .ev (.unlock .log)] else []

/-- `MsgMemStorage::push` (MsgMemStorage.cpp:32-47) and `pop` (MsgMemStorage.cpp:49-62) -/
def storage (r : Nat) : List Instr := [.ev (.lock (.mailbox r)), .ev (.wr (.mailbox r)), .ev (.unlock (.mailbox r))]

/-- `Reactor::send` (Reactor.cpp:109-118); `full` tells if the message is lost. -/
def reactorSend (r : Nat) (full on : Bool) : List Instr := storage r ++ if full then lm on else []

/-- `ReactorManager::send` (ReactorManager.cpp:23-32) -/
def managerSend (d : Depl) (t : MsgType) (full on : Bool) : List Instr :=
  .find (dest t) :: match d.home (dest t) with
    | some r => reactorSend r full on
    | none => lm on

/-- What a handler of component `c` on reactor `r` does, step by step. -/
inductive Op where
  | log (on : Bool)
  /-- reads or writes its component -/
  | own (write : Bool)
  /-- creates or releases a link, a timer or an acceptor, or uses one -/
  | pool (write : Bool)
  /-- takes its reactor or its sender from the static pointer -/
  | pointer
  | send (t : MsgType) (full on : Bool)
deriving DecidableEq, Repr

/-- The instructions of a step of a handler. -/
def Op.code (d : Depl) (r : Nat) (c : Comp) : Op → List Instr
  | .log on => lm on
  | .own w => [.ev (if w then .wr (.comp c) else .rd (.comp c))]
  | .pool w => [.ev (if w then .wr (.pools r) else .rd (.pools r))]
  | .pointer => [.ev (.rd (.pointers c))]
  | .send t full on => managerSend d t full on

/-- What the thread of a reactor does between two looks at its flag. -/
inductive Block where
  /-- the event of the mailbox (Reactor.cpp:133-163), with the messages that are taken: each with the component that handles it and
  what the handler does, or without a handler -/
  | messages (ms : List (Option (Comp × List Op))) (empty on : Bool)
  /-- the event of a link, a timer or an acceptor, with what the handler does -/
  | fd (c : Comp) (ops : List Op)
  /-- nothing, or an error of `epoll_wait` (Epoll.cpp:57-62) -/
  | nothing (error on : Bool)
deriving DecidableEq, Repr

/-- The handling of one message (Reactor.cpp:142-161); `handlers[id]` writes the map if the message has no handler. -/
def handle (d : Depl) (r : Nat) (on : Bool) : Option (Comp × List Op) → List Instr
  | some (c, ops) => storage r ++ [.ev (.rd (.handlers r))] ++ ops.flatMap (Op.code d r c)
  | none => storage r ++ [.ev (.rd (.handlers r)), .ev (.wr (.handlers r))] ++ lm on

/-- One round of `Reactor::run` (Reactor.cpp:165-178) with `Epoll::wait` (Epoll.cpp:53-75). -/
def Block.code (d : Depl) (r : Nat) : Block → List Instr
  | .messages ms empty on => [.ev (.load r), .ev (.load r)] ++ ms.flatMap (handle d r on) ++ if empty then storage r ++ lm on else []
  | .fd c ops => [.ev (.load r), .ev (.rd (.pools r))] ++ ops.flatMap (Op.code d r c)
  | .nothing error on => .ev (.load r) :: if error then lm on else []

/-- The handlers of a block belong to components of the reactor, and send messages that are sent at all. -/
def Op.fits (d : Depl) : Op → Bool
  | .send t _ _ => d.sent.contains t
  | _ => true

def Block.fits (d : Depl) (r : Nat) : Block → Bool
  | .messages ms _ _ => ms.all fun
    | some (c, ops) => (d.comps.getD r []).contains c && known c && ops.all (Op.fits d)
    | none => true
  | .fd c ops => (d.comps.getD r []).contains c && known c && ops.all (Op.fits d)
  | .nothing _ _ => true

/-- The constructor of a component and `addComponent` (Deployer.cpp:60-103, ReactorManager.cpp:34-43). -/
def add (r : Nat) (on : Bool) (c : Comp) : List Instr :=
  if known c then
    [.ev (.wr (.comp c)), .ev (.wr (.pointers c)), .ev (.wr (.handlers r)), .find c, .ev (.wr .components)]
  else lm on

/-- The construction of a reactor (Reactor.cpp:21-38) and of its components (Deployer.cpp:47-106). -/
def construct (on : Bool) (cs : List Comp) (r : Nat) : List Instr :=
  [.ev (.wr (.mailbox r)), .ev (.wr (.pools r)), .ev (.wr (.handlers r))] ++ cs.flatMap (add r on)

/-- `Thread::start` (Thread.cpp:49-98) -/
def start (r i : Nat) : List Instr :=
  [.ev (.wr (.tid r i)), .ev (.fork (.worker r i)), .ev (.rd (.tid r i))]

/-- The destruction of a reactor (Reactor.hpp:61-69): handlers and pools, then the threads, then event, epoll and mailbox. -/
def destroy (threads r : Nat) : List Instr :=
  [.ev (.del (.handlers r)), .ev (.del (.pools r))] ++
    (List.range threads).map (fun i => .ev (.join (.worker r i))) ++ [.ev (.del (.mailbox r))]

/-- The numbers of the reactors. -/
def Depl.reactors (d : Depl) : List Nat := List.range d.comps.length

/-- `main` up to the start of the threads (main.cpp:12-18) -/
def setup (d : Depl) (on : Bool) : List Instr :=
  d.reactors.flatMap fun r => construct on (d.comps.getD r []) r

/-- `ReactorManager::start` (ReactorManager.cpp:50-56) -/
def starts (d : Depl) : List Instr := d.reactors.flatMap fun r => (List.range d.threads).flatMap fun i => start r i

/-- `main` after the start of the threads (main.cpp:20-34): both messages and `ReactorManager::stop` (ReactorManager.cpp:58-66). -/
def serve (d : Depl) (full on : Bool) : List Instr :=
  managerSend d .controllerStartReq full on ++ managerSend d .controllerStopReq full on ++ d.reactors.map fun r => .ev (.store r)

/-- The end of `main` (main.cpp:35, ReactorManager.hpp:34-35): the components, the map, and the reactors. -/
def teardown (d : Depl) : List Instr :=
  (d.comps.flatten.filter known).map (fun c => .ev (.del (.comp c))) ++ [.ev (.del .components)] ++
    d.reactors.flatMap (destroy d.threads)

/-- The whole of `main`. -/
def mainCode (d : Depl) (full on : Bool) : List Instr := setup d on ++ starts d ++ serve d full on ++ teardown d

/-! ## Executions -/

structure St where
  trace : List (Tid × Ev)
  locks : Mutex → Option Tid
  /-- the static logger is constructed -/
  inited : Bool
  /-- the keys of the map of components -/
  keys : List Comp
  /-- what each thread that runs will do next; `none` for threads that do not exist -/
  code : Tid → Option (List Instr)
  /-- the threads that have ended -/
  ended : Tid → Bool

/-- The process at the start of `main`. -/
def init (d : Depl) (full on : Bool) : St :=
  { trace := [], locks := fun _ => none, inited := false, keys := [],
    code := fun t => if t = .main then some (mainCode d full on) else none, ended := fun _ => false }

/-- A choice of the scheduler. -/
inductive Act where
  /-- thread `t` does its next instruction -/
  | run (t : Tid)
  /-- thread `i` of reactor `r` begins a round -/
  | round (r i : Nat) (b : Block)
  /-- the thread ends: its flag is set -/
  | exit (t : Tid)
deriving DecidableEq, Repr

/-- A function changed at one point. -/
def upd {α β : Type} [DecidableEq α] (f : α → β) (a : α) (b : β) : α → β := fun x => if x = a then b else f x

/-- Thread `t` goes on with `k`, after the events `es`. -/
def St.next (s : St) (t : Tid) (es : List Ev) (k : List Instr) : St :=
  { s with
    trace := s.trace ++ es.map (t, ·)
    code := upd s.code t (some k) }

/-- A step, `none` if the thread can not take it. -/
def step (d : Depl) (s : St) : Act → Option St
  | .run t => match s.code t with
    | some (.ev (.lock m) :: k) => match s.locks m with
      | none => some { s.next t [.lock m] k with locks := upd s.locks m (some t) }
      | some _ => none
    | some (.ev (.unlock m) :: k) => some { s.next t [.unlock m] k with locks := upd s.locks m none }
    | some (.ev (.fork t') :: k) =>
      let n := s.next t [.fork t'] k
      some { n with code := upd n.code t' (some []) }
    | some (.ev (.join t') :: k) => if s.ended t' then some (s.next t [.join t'] k) else none
    | some (.ev e :: k) => some (s.next t [e] k)
    | some (.once :: k) =>
      if s.inited then some (s.next t [.pass] k)
      else some { s.next t [.wr .levels, .publish] k with inited := true }
    | some (.find c :: k) =>
      if c ∈ s.keys then some (s.next t [.rd .components] k)
      else some { s.next t [.rd .components, .wr .components] k with keys := c :: s.keys }
    | _ => none
  | .round r i b => match s.code (.worker r i) with
    | some [] => if b.fits d r then some { s with code := upd s.code (.worker r i) (some (b.code d r)) } else none
    | _ => none
  | .exit t => match s.code t with
    | some [] => some { s with code := upd s.code t none, ended := upd s.ended t true }
    | _ => none

/-- A sequence of steps. -/
def exec (d : Depl) (s : St) : List Act → Option St
  | [] => some s
  | a :: as => (step d s a).bind fun s' => exec d s' as

/-! ## Races -/

/-- Event `j` follows event `i` by the order of a thread or by synchronisation. -/
inductive Edge (tr : List (Tid × Ev)) (i j : Nat) : Prop where
  | order (t : Tid) (e f : Ev) (hi : tr[i]? = some (t, e)) (hj : tr[j]? = some (t, f))
  | mutex (t u : Tid) (m : Mutex) (hi : tr[i]? = some (t, .unlock m)) (hj : tr[j]? = some (u, .lock m))
  | fork (t u : Tid) (e : Ev) (hi : tr[i]? = some (t, .fork u)) (hj : tr[j]? = some (u, e))
  | join (t u : Tid) (e : Ev) (hi : tr[i]? = some (t, e)) (hj : tr[j]? = some (u, .join t))
  | flag (t u : Tid) (r : Nat) (hi : tr[i]? = some (t, .store r)) (hj : tr[j]? = some (u, .load r))
  | once (t u : Tid) (hi : tr[i]? = some (t, .publish)) (hj : tr[j]? = some (u, .pass))

/-- Happens before: events `i` and `j` of an execution are connected by such steps, forward in time. -/
inductive Before (tr : List (Tid × Ev)) : Nat → Nat → Prop where
  | edge {i j : Nat} : i < j → Edge tr i j → Before tr i j
  | trans {i j k : Nat} : Before tr i j → Before tr j k → Before tr i k

/-- The object an event accesses, and whether it changes it. -/
def Ev.access : Ev → Option (Loc × Bool)
  | .rd l => some (l, false)
  | .wr l => some (l, true)
  | .del l => some (l, true)
  | _ => none

/-- Two accesses of different threads to one object, of which one changes it. -/
def Conflict (x y : Tid × Ev) : Prop :=
  x.1 ≠ y.1 ∧ ∃ l v w, x.2.access = some (l, v) ∧ y.2.access = some (l, w) ∧ (v || w) = true

/-- Two conflicting accesses that are not ordered. -/
def Races (tr : List (Tid × Ev)) (i j : Nat) : Prop :=
  i < j ∧ (∃ x y, tr[i]? = some x ∧ tr[j]? = some y ∧ Conflict x y) ∧ ¬ Before tr i j

end Uscada.Race
