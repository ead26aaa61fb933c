import Verif.StateExec
/-!
# Who is heard: the ready list of the kernel and the loop of a reactor

`Epoll::wait` (common/reactor/Epoll.cpp:53-73) and `Reactor::run` (common/reactor/Reactor.cpp:165-178), with the list of
ready descriptors from which `epoll_wait` takes at most ten (Epoll.hpp:31).  `Dispatch` lets the kernel report events in any
order; here the order is that of Linux: first come, first served, and what was not taken is taken first the next time (epoll(7):
"successive `epoll_wait` calls will round robin through the set of ready file descriptors").  Links, timers and the mailbox are
edge-triggered: they are reported once for each arrival.  Acceptors are level-triggered: as long as connections wait, the
descriptor goes back to the end of the list when it is reported.

What the handlers do is a parameter.  What arrives, and which descriptors are closed meanwhile, is chosen by the history.
`early` arrives while `epoll_wait` copies the events: the kernel puts these descriptors in front of those that go back to the
list.
-/

namespace Uscada.Heard

/-- What a reactor listens to: the pooled objects (EntityPool.hpp:18, Reactor.cpp:25-27) and the mailbox (Event.cpp). -/
inductive Src where
  | acceptor (i : Fin 32)
  | link (i : Fin 32)
  | timer (i : Fin 32)
  | mailbox
deriving DecidableEq, Repr

/-- Without `EPOLLET`: Acceptor.cpp:73.  With it: Link.cpp:68, Acceptor.cpp:133, Timer.cpp:40, Event.cpp:28. -/
def Src.level : Src → Bool
  | .acceptor _ => true
  | _ => false

/-- What an observer of the loop sees. -/
inductive Note where
  /-- the handler of `x` has run to its end -/
  | handled (x : Src)
  /-- an exception has left the handler of `x` -/
  | threw (x : Src)
  /-- the handler of `x` has ended the process or left the defined behaviour -/
  | ended (x : Src)
  /-- the handler of the acceptor `x` has taken a waiting connection -/
  | took (x : Src)
  /-- `x` was reported by the kernel and its handler is not called -/
  | lost (x : Src)
deriving DecidableEq, Repr

/-- The handlers of a reactor: what one does to the state, and whether `accept` (Acceptor.cpp:119) takes a connection. -/
structure Handlers (σ ε : Type) where
  react : σ → Src → ε → Exec Unit × σ
  takes : σ → Src → ε → Bool

/-- A reactor between two calls of `epoll_wait`. -/
structure Loop (σ : Type) where
  st : σ
  ready : List Src
  /-- connections that wait at an acceptor -/
  backlog : Src → Nat
  ended : Bool

/-- What is undetermined during one turn. -/
structure Turn (ε : Type) where
  env : Src → ε
  early : List Src
  late : List Src
  gone : List Src

/-- What one call of `epoll_wait` does to the ready list. -/
structure Scan where
  reported : List Src
  again : List Src
  rest : List Src
deriving DecidableEq, Repr

/-- `epoll_wait` with room for `n` events.  An acceptor without waiting connection is dropped from the list. -/
def scan (backlog : Src → Nat) : Nat → List Src → Scan
  | 0, q => ⟨[], [], q⟩
  | _ + 1, [] => ⟨[], [], []⟩
  | n + 1, x :: q =>
    if x.level then
      if backlog x = 0 then scan backlog (n + 1) q
      else
        let r := scan backlog n q
        ⟨x :: r.reported, x :: r.again, r.rest⟩
    else
      let r := scan backlog n q
      ⟨x :: r.reported, r.again, r.rest⟩

/-- What a loop over a batch leaves. -/
structure Done (σ : Type) where
  st : σ
  ended : Bool
  notes : List Note

/-- Whether a connection is taken, as a note. -/
def tookNote (b : Bool) (x : Src) : List Note := if b then [.took x] else []

/-- The loop of Epoll.cpp:64-72.  An exception leaves it and is caught by Reactor.cpp:167-177, which waits again. -/
def dispatch {σ ε : Type} (h : Handlers σ ε) (e : Src → ε) : σ → List Src → Done σ
  | s, [] => ⟨s, false, []⟩
  | s, x :: xs =>
    match h.react s x (e x) with
    | (.ok _, s') =>
      let r := dispatch h e s' xs
      ⟨r.st, r.ended, tookNote (h.takes s x (e x)) x ++ .handled x :: r.notes⟩
    | (.throws, s') => ⟨s', false, tookNote (h.takes s x (e x)) x ++ .threw x :: xs.map .lost⟩
    | (_, s') => ⟨s', true, tookNote (h.takes s x (e x)) x ++ [.ended x]⟩

/-- Arrivals that are not in the list yet. -/
def fresh : List Src → List Src → List Src
  | _, [] => []
  | seen, x :: xs => if x ∈ seen then fresh seen xs else x :: fresh (x :: seen) xs

/-- The ready list after a call of `epoll_wait`, after the handlers closed `gone`, and after the later arrivals. -/
def requeue (r : Scan) (early late gone : List Src) : List Src :=
  let q := (r.rest ++ fresh (r.rest ++ r.again) early ++ r.again).filter (· ∉ gone)
  q ++ fresh q late

/-- One turn of Reactor.cpp:165-178. -/
def turn {σ ε : Type} (h : Handlers σ ε) (l : Loop σ) (t : Turn ε) : Loop σ × List Note :=
  if l.ended then (l, [])
  else
    let r := scan l.backlog 10 l.ready
    let d := dispatch h t.env l.st r.reported
    ({ st := d.st, ready := requeue r t.early t.late t.gone,
       backlog := fun x => l.backlog x - d.notes.count (.took x) + (t.early ++ t.late).count x, ended := d.ended }, d.notes)

/-- A history. -/
def run {σ ε : Type} (h : Handlers σ ε) (l : Loop σ) : List (Turn ε) → Loop σ × List Note
  | [] => (l, [])
  | t :: ts =>
    let a := turn h l t
    let b := run h a.1 ts
    (b.1, a.2 ++ b.2)

/-- The loop at its start. -/
def start {σ : Type} (s : σ) : Loop σ := { st := s, ready := [], backlog := fun _ => 0, ended := false }

end Uscada.Heard
