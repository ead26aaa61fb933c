import Verif.History
/-!
# Descriptors, pooled links and timers, and the dispatch loop of a reactor

`Epoll` (common/reactor/Epoll.cpp), `Link` (Link.cpp), `Timer` (Timer.cpp), `Acceptor::accept` (Acceptor.cpp), the pools
(EntityPool.hpp) and the functions that create pooled objects (Reactor.cpp).  One thread runs the loop (Deployer.cpp:20-44
starts one for each reactor).

The kernel is part of the state: a table of open descriptor numbers.  It may give any free number to a new descriptor and may
report any watched descriptor with an event it has not reported yet.  What handlers do is chosen by the history: a list of
operations on objects that somebody owns, and whether the handler throws in the end.  Acceptors and the mailbox are not
released while the loop runs; their events stand in the batch as `other`.  Names of uses and of descriptors that the
specification needs (`uses`, `files`, `File.id`) are not in the code.

Simplifications: `epoll_ctl` fails only where an operation says so or where the descriptor is not in the set; `close` and
`timerfd_settime` on an open descriptor do not fail; a timer is read by nobody else.
-/

namespace Uscada.Dispatch

/-- The two pools whose objects come and go (Reactor.cpp:26-27). -/
inductive Kind where
  | link
  | timer
deriving DecidableEq, Repr

/-- A pooled object, that is, the pointer given to `epoll_ctl` (Epoll.cpp:29-35). -/
structure Ref where
  kind : Kind
  idx : Nat
deriving DecidableEq, Repr

/-- An open descriptor.  `watched`: in the epoll set; `edge`: an event not yet reported (the set is edge-triggered,
Link.cpp:68, Timer.cpp:40, Acceptor.cpp:133); `due`: the timer has expired and was not read. -/
structure File where
  id : Nat
  ref : Ref
  watched : Bool
  edge : Bool
  due : Bool
deriving DecidableEq, Repr

/-- Link.hpp:39-40, Timer.hpp:40-41: the descriptor number (`none` is -1) and the handler, named by the use it belongs to. -/
structure Slot where
  num : Option Nat
  owner : Option Nat
deriving DecidableEq, Repr

structure Sys where
  slot : Ref → Slot
  free : Kind → List Nat
  tab : Nat → Option File
  files : Nat
  uses : Nat

/-- What a handler is told (LinkHandler.hpp:8-13, TimerHandler.hpp). -/
inductive What where
  | data
  | connected
  | error
  | timeout
deriving DecidableEq, Repr

/-- What an observer sees.  In `call`, `file` is the descriptor the kernel reported, `was` the use its object belonged to when it
did, and `now` the descriptor the object has when the event is handled for the use `to`. -/
inductive Note where
  | call (ref : Ref) (what : What) (to : Nat) (was : Option Nat) (file : Nat) (now : Option Nat)
  /-- nobody to call -/
  | idle (ref : Ref) (file : Nat)
  /-- reported by the kernel and forgotten -/
  | lost (file : Nat)
  /-- the kernel: a timer expires -/
  | expired (file : Nat)
  /-- `timerfd_settime` -/
  | set (file : Nat)
  /-- a new descriptor -/
  | opened (ref : Ref) (file : Nat)
  /-- a descriptor is closed through the object `ref` -/
  | closed (ref : Ref) (file : Nat)
  /-- somebody becomes the owner of an object -/
  | taken (ref : Ref) (use : Nat)
  /-- and gives it back -/
  | freed (ref : Ref) (use : Nat)
deriving DecidableEq, Repr

/-- EntityPool.hpp:18-28. -/
def init : Sys :=
  { slot := fun _ => ⟨none, none⟩, free := fun _ => List.range 32, tab := fun _ => none, files := 0, uses := 0 }

namespace Sys

def setSlot (s : Sys) (r : Ref) (v : Slot) : Sys := { s with slot := fun x => if x = r then v else s.slot x }
def setFree (s : Sys) (k : Kind) (v : List Nat) : Sys := { s with free := fun x => if x = k then v else s.free x }
def setTab (s : Sys) (n : Nat) (v : Option File) : Sys := { s with tab := fun x => if x = n then v else s.tab x }

/-- The descriptor an object refers to. -/
def now (s : Sys) (r : Ref) : Option Nat :=
  match (s.slot r).num with
  | none => none
  | some n => (s.tab n).map File.id

/-- The kernel opens a descriptor. -/
def openAs (s : Sys) (n : Nat) (r : Ref) (watched : Bool) : Sys :=
  { s with tab := fun x => if x = n then some ⟨s.files, r, watched, false, false⟩ else s.tab x, files := s.files + 1 }

/-- `Link::close` (Link.cpp:76-93), `Timer::close` (Timer.cpp:47-64): whatever has the number is closed. -/
def close (s : Sys) (r : Ref) : Sys × List Note :=
  match (s.slot r).num with
  | none => (s, [])
  | some n =>
    ((s.setSlot r { s.slot r with num := none }).setTab n none,
      match s.tab n with
      | none => []
      | some f => [.closed r f.id])

end Sys

/-- Operations of handlers and of the kernel. -/
inductive Op where
  /-- `createLink` -/
  | link
  /-- `createTimer`; the kernel gives number `n`, and `ok`: `epoll_ctl` succeeds -/
  | timer (n : Nat) (ok : Bool)
  /-- `connect` on link `i`: the kernel gives number `n` (attempts that fail leave nothing behind) -/
  | connect (i n : Nat)
  /-- `accept` into link `i` -/
  | accept (i n : Nat) (ok : Bool)
  /-- `close` on link `i` -/
  | close (i : Nat)
  /-- the owning pointer is reset -/
  | release (r : Ref)
  /-- `start` or `stop` of timer `i` -/
  | arm (i : Nat)
  /-- the kernel: a timer expires -/
  | expire (n : Nat)
  /-- the kernel: something to report about a link -/
  | edge (n : Nat)
deriving DecidableEq, Repr

/-- One operation; `none`: there is nobody who could do it. -/
def op (s : Sys) : Op → Option (Sys × List Note)
  /- Reactor.cpp:75-90; an exhausted pool changes nothing -/
  | .link =>
    match s.free .link with
    | [] => some (s, [])
    | i :: rest =>
      some ({ (s.setFree .link rest).setSlot ⟨.link, i⟩ { s.slot ⟨.link, i⟩ with owner := some s.uses } with uses := s.uses + 1 },
        [.taken ⟨.link, i⟩ s.uses])
  /- Reactor.cpp:57-73 with Timer.cpp:29-45; when `create` throws, the identifier is not given back and the number is kept -/
  | .timer n ok =>
    if s.tab n = none then
      match s.free .timer with
      | [] => some (s, [])
      | i :: rest =>
        let s := s.setFree .timer rest
        if (s.slot ⟨.timer, i⟩).num ≠ none then some (s, [])
        else if ok then
          some ({ (s.openAs n ⟨.timer, i⟩ true).setSlot ⟨.timer, i⟩ ⟨some n, some s.uses⟩ with uses := s.uses + 1 },
            [.opened ⟨.timer, i⟩ s.files, .taken ⟨.timer, i⟩ s.uses])
        else some (s.setSlot ⟨.timer, i⟩ { s.slot ⟨.timer, i⟩ with num := some n }, [])
    else none
  /- Link.cpp:40-74 -/
  | .connect i n =>
    if (s.slot ⟨.link, i⟩).owner ≠ none ∧ s.tab n = none then
      if (s.slot ⟨.link, i⟩).num ≠ none then some (s, [])
      else some ((s.openAs n ⟨.link, i⟩ true).setSlot ⟨.link, i⟩ { s.slot ⟨.link, i⟩ with num := some n }, [.opened ⟨.link, i⟩ s.files])
    else none
  /- Acceptor.cpp:114-139: `setFileDescriptor` throws when the link has a descriptor (Link.cpp:31-38), and the new one is
  forgotten; when `epoll_ctl` fails, the new one is closed, but `setFileDescriptor(-1)` throws as well and the link keeps
  the number -/
  | .accept i n ok =>
    if (s.slot ⟨.link, i⟩).owner ≠ none ∧ s.tab n = none then
      if (s.slot ⟨.link, i⟩).num ≠ none then some (s.openAs n ⟨.link, i⟩ false, [])
      else if ok then
        some ((s.openAs n ⟨.link, i⟩ true).setSlot ⟨.link, i⟩ { s.slot ⟨.link, i⟩ with num := some n }, [.opened ⟨.link, i⟩ s.files])
      else some (s.setSlot ⟨.link, i⟩ { s.slot ⟨.link, i⟩ with num := some n }, [])
    else none
  /- Link.cpp:76-93 -/
  | .close i => if (s.slot ⟨.link, i⟩).owner ≠ none then some (s.close ⟨.link, i⟩) else none
  /- Reactor.cpp:67-71 and 84-88 with Link.cpp:95-99, Timer.cpp:104-109 -/
  | .release r =>
    match (s.slot r).owner with
    | none => none
    | some u =>
      let (s, o) := s.close r
      some ((s.setSlot r { s.slot r with owner := none }).setFree r.kind (s.free r.kind ++ [r.idx]), o ++ [.freed r u])
  /- Timer.cpp:71-102: an expiration not yet read is forgotten -/
  | .arm i =>
    if (s.slot ⟨.timer, i⟩).owner ≠ none then
      match (s.slot ⟨.timer, i⟩).num with
      | none => some (s, [])
      | some n =>
        match s.tab n with
        | none => some (s, [])
        | some f => some (s.setTab n (some { f with due := false }), [.set f.id])
    else none
  | .expire n =>
    match s.tab n with
    | some f => if f.ref.kind = .timer then some (s.setTab n (some { f with due := true, edge := true }), [.expired f.id]) else none
    | none => none
  | .edge n =>
    match s.tab n with
    | some f => if f.ref.kind = .link then some (s.setTab n (some { f with edge := true }), []) else none
    | none => none

def ops (s : Sys) : List Op → Option (Sys × List Note)
  | [] => some (s, [])
  | o :: os => do
    let (s, x) ← op s o
    let (s, y) ← ops s os
    pure (s, x ++ y)

/-- An entry of the array filled by `epoll_wait`: the object the pointer names, the events, and for the specification the
descriptor and the use it is reported for. -/
structure Entry where
  ref : Ref
  mask : Nat
  file : Nat
  was : Option Nat
deriving DecidableEq, Repr

/-- What the kernel reports: a watched descriptor with an unreported event, or something about an acceptor or the mailbox. -/
inductive Pick where
  | fd (n mask : Nat)
  | other
deriving DecidableEq, Repr

/-- `epoll_wait`, Epoll.cpp:53-62. -/
def collect (s : Sys) : List Pick → Option (Sys × List (Option Entry))
  | [] => some (s, [])
  | .other :: ps => do
    let (s, es) ← collect s ps
    pure (s, none :: es)
  | .fd n mask :: ps =>
    match s.tab n with
    | some f =>
      if f.watched ∧ f.edge then do
        let e : Entry := ⟨f.ref, mask, f.id, (s.slot f.ref).owner⟩
        let (s, es) ← collect (s.setTab n (some { f with edge := false })) ps
        pure (s, some e :: es)
      else none
    | none => none

/-- Whether `epoll_ctl` finds the object's descriptor in the set. -/
def Sys.listed (s : Sys) (r : Ref) : Bool :=
  match (s.slot r).num with
  | none => false
  | some n =>
    match s.tab n with
    | none => false
    | some f => f.watched

/-- `Link::onFileDescriptorEvent`, Link.cpp:140-175; EPOLLIN is 1, EPOLLOUT is 4. -/
def onLink (s : Sys) (e : Entry) : Sys × List Note :=
  match (s.slot e.ref).owner with
  | none => (s, [.idle e.ref e.file])
  | some u =>
    if e.mask = 1 then (s, [.call e.ref .data u e.was e.file (s.now e.ref)])
    else if e.mask = 4 ∧ s.listed e.ref = true then (s, [.call e.ref .connected u e.was e.file (s.now e.ref)])
    else ((s.close e.ref).1, (s.close e.ref).2 ++ [.call e.ref .error u e.was e.file (s.now e.ref)])

/-- `Timer::onFileDescriptorEvent`, Timer.cpp:111-133: the descriptor is read even without a handler; `none`: it throws. -/
def onTimer (s : Sys) (e : Entry) : Option (Sys × List Note) :=
  match (s.slot e.ref).num with
  | none => none
  | some n =>
    match s.tab n with
    | none => none
    | some f =>
      if f.due = false then some (s, [])
      else
        match (s.slot e.ref).owner with
        | none => some (s.setTab n (some { f with due := false }), [.idle e.ref e.file])
        | some u => some (s.setTab n (some { f with due := false }), [.call e.ref .timeout u e.was e.file (some f.id)])

/-- What happens in the loop of Epoll.cpp:64-72 for one entry, up to the call of a handler; `none`: it throws. -/
def onEvent (s : Sys) (e : Entry) : Option (Sys × List Note) :=
  match e.ref.kind with
  | .link => some (onLink s e)
  | .timer => onTimer s e

/-- What the handler of an entry does. -/
structure Reaction where
  ops : List Op
  throws : Bool
deriving DecidableEq, Repr

/-- The rest of a batch after an exception: Reactor.cpp:167-177 catches it and waits again. -/
def lostOf (es : List (Option Entry × Reaction)) : List Note :=
  es.filterMap fun x => x.1.map fun e => .lost e.file

/-- The loop of Epoll.cpp:64-72.  A reaction also stands for what the kernel does meanwhile, so every entry has one. -/
def dispatch (s : Sys) : List (Option Entry × Reaction) → Option (Sys × List Note)
  | [] => some (s, [])
  | (none, r) :: rest => do
    let (s, o) ← ops s r.ops
    if r.throws then pure (s, o ++ lostOf rest)
    else do
      let (s, o') ← dispatch s rest
      pure (s, o ++ o')
  | (some e, r) :: rest =>
    match onEvent s e with
    | none => some (s, lostOf ((some e, r) :: rest))
    | some (s, o) => do
      let (s, o1) ← ops s r.ops
      if r.throws then pure (s, o ++ (o1 ++ lostOf rest))
      else do
        let (s, o2) ← dispatch s rest
        pure (s, o ++ (o1 ++ o2))

/-- One turn of Reactor.cpp:165-178: at most ten events (Epoll.hpp:31), each with the reaction of its handler. -/
def turn (s : Sys) (b : List (Pick × Reaction)) : Option (Sys × List Note) :=
  if b.length ≤ 10 then do
    let (s, es) ← collect s (b.map Prod.fst)
    dispatch s (es.zip (b.map Prod.snd))
  else none

/-- A history. -/
def run (s : Sys) (log : List Note) : List (List (Pick × Reaction)) → Option (Sys × List Note)
  | [] => some (s, log)
  | b :: bs => do
    let (s, o) ← turn s b
    run s (log ++ o) bs

end Uscada.Dispatch
